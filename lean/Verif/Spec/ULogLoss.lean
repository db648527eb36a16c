/- ULog streams of which packets get lost. -/
import Verif.Spec.ULog

namespace Verif.Spec

/-- Where packet `n` of a stream begins. -/
def chunkAt (chunks : List (List UInt8)) (n : Nat) : Nat := (chunks.take n).flatten.length

/-- Where message `j` of a stream begins. -/
def msgAt (hdr : List UInt8) (msgs : List (List UInt8)) (j : Nat) : Nat := hdr.length + (msgs.take j).flatten.length

/-- `f` is what the autopilot says in packet `n`: where the first message that begins in the packet begins, or 255 if none does. -/
def FirstMsg (hdr : List UInt8) (msgs chunks : List (List UInt8)) (n : Nat) (f : UInt8) : Prop :=
  (f = 255 ∧ ∀ j, j < msgs.length → ¬(chunkAt chunks n ≤ msgAt hdr msgs j ∧ msgAt hdr msgs j < chunkAt chunks (n + 1))) ∨
  (∃ j, j < msgs.length ∧ msgAt hdr msgs j = chunkAt chunks n + f.toNat ∧ msgAt hdr msgs j < chunkAt chunks (n + 1) ∧
    ∀ i, i < msgs.length → chunkAt chunks n ≤ msgAt hdr msgs i → msgAt hdr msgs j ≤ msgAt hdr msgs i)

/-- All bytes of message `j` are in one of the packets of `got`. -/
def Arrived (hdr : List UInt8) (msgs chunks : List (List UInt8)) (got : List Nat) (j : Nat) : Prop :=
  ∀ x, msgAt hdr msgs j ≤ x → x < msgAt hdr msgs (j + 1) → ∃ n ∈ got, chunkAt chunks n ≤ x ∧ x < chunkAt chunks (n + 1)

open Classical in
/-- The first `j` messages, without those not all bytes of which are in one of the packets of `got`. -/
noncomputable def arrivedMsgs (hdr : List UInt8) (msgs chunks : List (List UInt8)) (got : List Nat) : Nat → List (List UInt8)
  | 0 => []
  | j + 1 => arrivedMsgs hdr msgs chunks got j ++ (if Arrived hdr msgs chunks got j then (msgs[j]?).toList else [])

end Verif.Spec
