import Verif.Model.Loop

/- Specification vocabulary for the poll loop. -/

namespace Verif.Spec

/-- An event `epoll_wait` can report: the listening socket, or an object registered in the poll set. -/
def Reportable (s : LoopSt) : PollEv → Prop
  | .listener _ => True
  | .obj p _ _ _ _ _ _ _ _ => p ∈ s.poll

/-- The router ran: from `s`, one batch of reportable events after the other, to `s'`. -/
inductive Runs : LoopSt → List (List PollEv) → LoopSt → Prop
  | done (s : LoopSt) : Runs s [] s
  | batch {s s1 s2 : LoopSt} {evs : List PollEv} {rest : List (List PollEv)} :
    (∀ e ∈ evs, Reportable s e) → s.iteration evs = some s1 → Runs s1 rest s2 → Runs s (evs :: rest) s2

/-- The router was configured, set up (`setup`: timers created meanwhile) and ran. -/
def RunsFrom (cs : List EpConf) (setup : List Act) (bs : List (List PollEv)) (s : LoopSt) : Prop :=
  ∃ s0, (LoopSt.configured cs).acts setup = some s0 ∧ Runs s0 bs s

/-- Creating a reconnect timer succeeds, should one be needed. -/
def ActOk : Act → Prop
  | .write _ _ ok => ok = true
  | _ => True

/-- See `ActOk`. -/
def EvTimersOk : PollEv → Prop
  | .listener _ => True
  | .obj _ _ as _ _ _ ok _ _ => ok = true ∧ ∀ a ∈ as, ActOk a

/-- See `ActOk`. -/
def ConfOk : EpConf → Prop
  | .tcp _ _ ok _ => ok = true
  | .plain _ => True

/-- TCP endpoint `p` is connected: descriptor open and polled, no reconnect pending. -/
def Connected (s : LoopSt) (p : Nat) : Prop :=
  (∃ v rt mem, s.obj p = some (.tcp true v rt mem)) ∧ p ∈ s.poll ∧
    ∀ t ms, s.obj t ≠ some (.timer false ms (.retry p))

/-- TCP endpoint `p` is disconnected, not polled, and exactly one polled timer, armed with its retry time, will
reconnect it. -/
def Waiting (s : LoopSt) (p : Nat) : Prop :=
  ∃ v rt mem, s.obj p = some (.tcp false v rt mem) ∧ p ∉ s.poll ∧
    ∃ t, s.obj t = some (.timer false (retryMs rt) (.retry p)) ∧ t ∈ s.poll ∧
      ∀ t' ms, s.obj t' = some (.timer false ms (.retry p)) → t' = t

/-- The event tells that the peer of `p` is gone: end of file when reading it, or a write to it failing with
`EPIPE`. -/
def HangsUp (p : Nat) : PollEv → Prop
  | .listener _ => False
  | .obj q isIn as stop _ _ _ _ _ => isIn = true ∧ ((q = p ∧ stop = .eof) ∨ ∃ ok, .write p .epipe ok ∈ as)

end Verif.Spec
