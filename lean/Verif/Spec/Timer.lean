import Verif.Model.Timer

/-
Specification of the timer list: the list of live timers, most recent first, each with its descriptor and whether
it was cancelled.
-/

namespace Verif.Spec

/-- The addresses reachable from `head` are exactly `ps`, in order. -/
inductive Chain (h : THeap) : Option Nat → List Nat → Prop
  | nil : Chain h none []
  | cons {p n ps} : h p = some n → Chain h n.next ps → Chain h (some p) (p :: ps)

/-- A timer as the user sees it. -/
structure Timer where
  addr : Nat
  fd : Nat
  cancelled : Bool
deriving DecidableEq, Repr

/-- The abstract list `ts` is what the heap holds. -/
structure Holds (h : THeap) (head : Option Nat) (ts : List Timer) : Prop where
  chain : Chain h head (ts.map Timer.addr)
  nodup : (ts.map Timer.addr).Nodup
  node : ∀ t ∈ ts, ∃ n, h t.addr = some n ∧ n.fd = t.fd ∧ n.removeMe = t.cancelled
  only : ∀ p, p ∉ ts.map Timer.addr → h p = none

/-- Events the environment can produce: `new` returns an unused address; only existing timers are cancelled or
expire (their descriptors are in the poll set). -/
def Possible (ts : List Timer) : TimerEv → Prop
  | .add p _ => p ∉ ts.map Timer.addr
  | .cancel p => p ∈ ts.map Timer.addr
  | .expire p _ _ => p ∈ ts.map Timer.addr
  | .sweep => True

/-- Marking a timer cancelled. -/
def mark (p : Nat) (ts : List Timer) : List Timer :=
  ts.map (fun t => if t.addr = p then { t with cancelled := true } else t)

/-- Effect of an event on the user's view. -/
def after (ts : List Timer) : TimerEv → List Timer
  | .add p fd => { addr := p, fd := fd, cancelled := false } :: ts
  | .cancel p => mark p ts
  | .expire p val cb =>
    if (∃ v, val = some v ∧ v ≠ 0) ∧ (∀ t ∈ ts, t.addr = p → t.cancelled = false) ∧ cb = false then mark p ts else ts
  | .sweep => ts.filter (fun t => !t.cancelled)

/-- Histories the environment can produce. -/
def AllPossible : List Timer → List TimerEv → Prop
  | _, [] => True
  | ts, e :: es => Possible ts e ∧ AllPossible (open Classical in after ts e) es

end Verif.Spec
