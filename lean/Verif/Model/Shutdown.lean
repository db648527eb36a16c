import Verif.Model.Loop

/-
The end of the main loop (src/mainloop.cpp:310-322) on the objects of Model/Loop: the flight-stack logger is stopped, the endpoint
list is cleared, the remaining timers are freed.
-/

namespace Verif

/-- The destructor of the endpoint `p` runs, if nobody else owns it: `~UdpEndpoint` cancels its timer (src/endpoint.cpp:1072-1077;
`slots p`: the `Timeout *` members the destructor of `p` looks at), `~Pollable` closes the descriptor (src/pollable.cpp:22-27).
`held`: `_log_endpoint` also points to the flight-stack logger (src/mainloop.h:115). -/
def LoopSt.drop (slots : Nat → List Nat) (held : Nat → Bool) (s : LoopSt) (p : Nat) : Option LoopSt :=
  if s.owned p || held p then some s
  else
    match s.obj p with
    | none => none
    | some _ => (s.acts ((slots p).map .clearSlot)).map fun s =>
        { s.put p none with poll := s.poll.filter (· ≠ p) }

/-- Dropping the endpoints of a list one after the other. -/
def LoopSt.dropAll (slots : Nat → List Nat) (held : Nat → Bool) (s : LoopSt) : List Nat → Option LoopSt
  | [] => some s
  | p :: ps => (s.drop slots held p).bind fun s => s.dropAll slots held ps

/-- `clear_endpoints` (src/mainloop.cpp:464-467). -/
def LoopSt.clearEndpoints (slots : Nat → List Nat) (held : Nat → Bool) (s : LoopSt) : Option LoopSt :=
  (s.dropAll slots held s.endpoints).map fun s => { s with endpoints := [] }

/-- The loop that frees the timers (src/mainloop.cpp:317-322); `none`: a timer is freed a second time. -/
def LoopSt.freeTimers (s : LoopSt) : List Nat → Option LoopSt
  | [] => some { s with timers := [] }
  | t :: ts =>
    match s.obj t with
    | some (.timer _ _ _) => LoopSt.freeTimers { s.put t none with poll := s.poll.filter (· ≠ t) } ts
    | _ => none

/-- src/mainloop.cpp:310-322. `stop`: what `_log_endpoint->stop()` does (cancelling timers, writing its last messages). -/
def LoopSt.shutdown (stop : List Act) (slots : Nat → List Nat) (held : Nat → Bool) (s : LoopSt) : Option LoopSt :=
  (s.acts stop).bind fun s => (s.clearEndpoints slots held).bind fun s => s.freeTimers s.timers

end Verif
