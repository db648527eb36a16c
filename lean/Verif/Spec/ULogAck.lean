/- What C131 says about acknowledged packets of a PX4 log stream. -/
import Verif.Spec.ULogLoss
import Verif.Spec.ULogFlight

namespace Verif.Spec

/-- A packet with number `n` arrived before all packets behind it. -/
def InTime (d : List (Nat × Msg)) (n : Nat) : Prop :=
  ∃ pre x post, d = pre ++ x :: post ∧ x.1 = n ∧ ∀ y ∈ pre, y.1 < n

/-- All bytes of message `j` came in packets that ask for an acknowledgement, each in time. -/
def AskedFor (hdr : List UInt8) (msgs chunks : List (List UInt8)) (d : List (Nat × Msg)) (j : Nat) : Prop :=
  ∀ x, msgAt hdr msgs j ≤ x → x < msgAt hdr msgs (j + 1) →
    ∃ y ∈ d, y.2.msgId = 267 ∧ InTime d y.1 ∧ chunkAt chunks y.1 ≤ x ∧ x < chunkAt chunks (y.1 + 1)

/-- The numbers on the wire of the packets that ask for an acknowledgement. -/
def asking (d : List (Nat × Msg)) : List UInt16 :=
  (d.filter fun x => x.2.msgId = 267).map fun x => UInt16.ofNat x.1

/-- The messages with the given places in the stream. -/
def picked (msgs : List (List UInt8)) (idx : List Nat) : List (List UInt8) := idx.flatMap fun j => (msgs[j]?).toList

end Verif.Spec
