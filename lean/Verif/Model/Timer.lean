/-
Timers: `Timeout` (src/timeout.h, src/timeout.cpp:31-45) and the timer part of `Mainloop`
(src/mainloop.cpp:506-578), on a pointer-linked list.
-/

namespace Verif

/-- A `Timeout` object (src/timeout.h:24-35): descriptor, `remove_me`, `next`. The callback is an argument of the
step that runs it. -/
structure TNode where
  fd : Nat
  removeMe : Bool := false
  next : Option Nat := none
deriving DecidableEq, Repr

/-- Heap of `Timeout` objects by address; `none`: not allocated (or deleted). -/
abbrev THeap := Nat → Option TNode

/-- Assignment through a pointer. -/
def THeap.put (h : THeap) (p : Nat) (n : Option TNode) : THeap := fun q => if q = p then n else h q

/-- First loop of `_del_timeouts` (src/mainloop.cpp:554-560). Arguments: bound on iterations, heap, `_timeouts`,
descriptors removed from the poll set so far. `none`: access to an unallocated object, or bound exhausted. -/
def delHead : Nat → THeap → Option Nat → List Nat → Option (THeap × Option Nat × List Nat)
  | 0, _, _, _ => none
  | _ + 1, h, none, tr => some (h, none, tr)
  | fuel + 1, h, some p, tr =>
    match h p with
    | none => none
    | some n =>
      if n.removeMe then delHead fuel (h.put p none) n.next (tr ++ [n.fd])
      else some (h, some p, tr)

/-- Second loop of `_del_timeouts` (src/mainloop.cpp:563-577) with its variables `prev` and `current`. -/
def delRest : Nat → THeap → Nat → Option Nat → List Nat → Option (THeap × List Nat)
  | 0, _, _, _, _ => none
  | _ + 1, h, _, none, tr => some (h, tr)
  | fuel + 1, h, prev, some cur, tr =>
    match h cur with
    | none => none
    | some n =>
      if n.removeMe then
        match h prev with
        | none => none
        | some pn =>
          -- `prev->next = current->next; remove_fd; delete current; current = prev->next`
          delRest fuel ((h.put prev (some { pn with next := n.next })).put cur none) prev n.next (tr ++ [n.fd])
      else delRest fuel h cur n.next tr

/-- `Mainloop::_del_timeouts` (src/mainloop.cpp:552-578): new heap, `_timeouts`, removed descriptors in order. -/
def delTimeouts (fuel : Nat) (h : THeap) (head : Option Nat) : Option (THeap × Option Nat × List Nat) :=
  match delHead fuel h head [] with
  | none => none
  | some (h, none, tr) => some (h, none, tr)
  | some (h, some p, tr) =>
    match h p with
    | none => none
    | some n =>
      match delRest fuel h p n.next tr with
      | none => none
      | some (h, tr) => some (h, some p, tr)

/-- `Mainloop::add_timeout` when the system calls succeed (src/mainloop.cpp:506-533); `p` is the address returned
by `new`. -/
def addTimeout (h : THeap) (head : Option Nat) (p fd : Nat) : THeap × Option Nat :=
  (h.put p (some { fd := fd, next := head }), some p)

/-- `Mainloop::del_timeout` (src/mainloop.cpp:535-538). `none`: dangling pointer. -/
def delTimeout (h : THeap) (p : Nat) : Option THeap :=
  match h p with
  | none => none
  | some n => some (h.put p (some { n with removeMe := true }))

/-- `Timeout::handle_read` (src/timeout.cpp:31-45). `val`: expirations read from the timer descriptor, `none` if
`read` failed; `cb`: what the callback returns. Result: whether the callback ran, and the heap. -/
def timerRead (h : THeap) (p : Nat) (val : Option Nat) (cb : Bool) : Option (THeap × Bool) :=
  match h p with
  | none => none
  | some n =>
    match val with
    | none => some (h, false)
    | some v =>
      if v = 0 ∨ n.removeMe then some (h, false)
      else if cb then some (h, true)
      else some (h.put p (some { n with removeMe := true }), true)

/-- `struct itimerspec`, one half. -/
structure TimeSpec where
  sec : UInt64
  nsec : UInt64
deriving DecidableEq, Repr

/-- `Mainloop::mod_timeout` (src/mainloop.cpp:540-550): `it_interval` and `it_value`. `MSEC_PER_SEC` and
`NSEC_PER_MSEC` are 64-bit unsigned (src/common/util.h:33-38), so the arithmetic is done in 64 bits. -/
def modTimeout (ms : UInt32) : TimeSpec × TimeSpec :=
  let interval : TimeSpec := { sec := ms.toUInt64 / 1000, nsec := (ms.toUInt64 % 1000) * 1000000 }
  (interval, { sec := interval.sec, nsec := interval.nsec })

/-- What can happen to the timer list. `sweep` is `_del_timeouts` at the end of a loop iteration. -/
inductive TimerEv where
  | add (p fd : Nat)
  | cancel (p : Nat)
  | expire (p : Nat) (val : Option Nat) (cb : Bool)
  | sweep
deriving DecidableEq, Repr

/-- Timer list with the trace of callback runs (addresses). -/
structure TState where
  heap : THeap
  head : Option Nat
  ran : List Nat := []

/-- One event. The bound for `sweep` is an argument; see theorem `C33_sweep`. -/
def timerStep (fuel : Nat) (s : TState) : TimerEv → Option TState
  | .add p fd => let (h, hd) := addTimeout s.heap s.head p fd; some { s with heap := h, head := hd }
  | .cancel p => (delTimeout s.heap p).map (fun h => { s with heap := h })
  | .expire p val cb =>
    (timerRead s.heap p val cb).map (fun (h, r) => { s with heap := h, ran := if r then s.ran ++ [p] else s.ran })
  | .sweep => (delTimeouts fuel s.heap s.head).map (fun (h, hd, _) => { s with heap := h, head := hd })

/-- A history of timer events. -/
def timerRun (fuel : Nat) : TState → List TimerEv → Option TState
  | s, [] => some s
  | s, e :: es => (timerStep fuel s e).bind (fun s => timerRun fuel s es)

end Verif
