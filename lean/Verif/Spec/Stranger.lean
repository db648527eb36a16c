import Verif.Props.Complete

/- Specification vocabulary for systems that are none of a message's business. -/

namespace Verif.Spec

/-- A message that arrived comes from system `x`. -/
def FromSys (x : UInt8) (a : Arrival) : Prop := a.msg.srcSys = x

/-- It comes from system `x` or is addressed to it. -/
def Concerns (x : UInt8) (a : Arrival) : Prop := a.msg.srcSys = x ∨ a.msg.targetSys = (x.toNat : Int)

instance (x : UInt8) (a : Arrival) : Decidable (FromSys x a) := inferInstanceAs (Decidable (_ = _))
instance (x : UInt8) (a : Arrival) : Decidable (Concerns x a) := inferInstanceAs (Decidable (_ ∨ _))

/-- In the second history the same arrives on the same links in the same order as in the first, except for what comes from `x`. -/
def Without (x : UInt8) (as as' : List Arrival) : Prop :=
  as'.map (fun a => (a.ep, a.msg)) = (as.filter (fun a => ¬ FromSys x a)).map (fun a => (a.ep, a.msg))

/-- The system is not the one whose links get everything. -/
def NotSniffer (x : UInt8) (sniffer : Nat) : Prop := sniffer = 0 ∨ sniffer % 256 ≠ x.toNat

end Verif.Spec
