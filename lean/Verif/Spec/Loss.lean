import Verif.Spec.Stream

/-
Frames of a byte stream and the messages missing between them.
-/

namespace Verif.Spec

/-- `Cuts stream frs rest`: the complete frames of a stream in order, right or wrong, and the incomplete frame (or nothing) behind
them. -/
inductive Cuts : List UInt8 → List (List UInt8) → List UInt8 → Prop
  | done {bs} : firstFrame bs = none → Cuts bs [] (stripNoise bs)
  | frame {bs fr rest frs tail} : firstFrame bs = some (fr, rest) → Cuts rest frs tail → Cuts bs (fr :: frs) tail

/-- Sequence numbers strictly between `a` and `b` going upwards from `a`, modulo 256. -/
def lostBetween (a b : UInt8) : Nat := (b.toNat + 255 - a.toNat) % 256

/-- The number of messages missing in a series of sequence numbers. -/
def lossSum : List UInt8 → Nat
  | a :: b :: s => lostBetween a b + lossSum (b :: s)
  | _ => 0

/-- How often a loss goes across the end of the numbers: messages are missing and the next number is below the one
expected. -/
def lossWraps : List UInt8 → Nat
  | a :: b :: s => (if b.toNat < (a + 1).toNat then 1 else 0) + lossWraps (b :: s)
  | _ => 0

open Classical in
/-- The sequence numbers of the frames that are not corrupt. -/
noncomputable def validSeqs (tbl : MsgTable) (frs : List (List UInt8)) : List UInt8 :=
  frs.filterMap fun fr => if Corrupt tbl fr then none else (frameInfo fr).map (·.2.2.1)

end Verif.Spec
