import Verif.Props.Complete

/- Specification vocabulary for comparing a router with and without de-duplication. -/

namespace Verif.Spec

/-- Whoever sent a message that was dropped in the second history (but not in the first) had been let in before, in the second, on the
same link or another link of its group. -/
def RepeatsKnown (eps : List Ep) (as as' : List Arrival) : Prop :=
  ∀ (k : Nat) (a a' : Arrival), as[k]? = some a → as'[k]? = some a' → a.passed = true → a'.passed = false →
    ∃ b ∈ as'.take k, b.passed = true ∧ b.msg.srcSys = a.msg.srcSys ∧ b.msg.srcComp = a.msg.srcComp ∧ Peer eps b.ep a.ep

/-- Packets with the same hash come from the same sender, over one link or links of one group, and are admitted by the incoming filters
alike: no two packets collide, and all ways into the router that carry the same packets are grouped. -/
def CopiesGrouped (hashFn : List UInt8 → UInt64) (eps : List Ep) (as : List Arrival) : Prop :=
  ∀ a ∈ as, ∀ b ∈ as, hashFn b.msg.data = hashFn a.msg.data →
    b.msg.srcSys = a.msg.srcSys ∧ b.msg.srcComp = a.msg.srcComp ∧ Peer eps b.ep a.ep ∧
    (inOk (((eps[a.ep]?).map Ep.filters).getD {}) a.msg → inOk (((eps[b.ep]?).map Ep.filters).getD {}) b.msg)

end Verif.Spec
