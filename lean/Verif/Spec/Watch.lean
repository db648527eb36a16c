import Verif.Spec.Loop

namespace Verif.Spec

/-- An existing object with an open descriptor: a timer, a TCP endpoint that is connected, another endpoint. -/
def HasFd (s : LoopSt) (p : Nat) : Prop :=
  (∃ r ms cb, s.obj p = some (.timer r ms cb)) ∨ (∃ v rt mem, s.obj p = some (.tcp true v rt mem)) ∨ ∃ mem, s.obj p = some (.plain mem)

/-- The router waits for exactly the open descriptors, each registered once. -/
def ListensExactly (s : LoopSt) : Prop := s.poll.Nodup ∧ ∀ p, p ∈ s.poll ↔ HasFd s p

end Verif.Spec
