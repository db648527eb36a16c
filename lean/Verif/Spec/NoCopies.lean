import Verif.Props.Complete

/- Specification vocabulary for packets that arrive only once. -/

namespace Verif.Spec

/-- No packet of `as` has the hash of another packet of `as` or of `past`. -/
def NoCopies (hashFn : List UInt8 → UInt64) (past as : List Arrival) : Prop :=
  (as.map fun a => hashFn a.msg.data).Nodup ∧ ∀ a ∈ as, ∀ b ∈ past, hashFn b.msg.data ≠ hashFn a.msg.data

instance (hashFn : List UInt8 → UInt64) (past as : List Arrival) : Decidable (NoCopies hashFn past as) := by
  unfold NoCopies; infer_instance

end Verif.Spec
