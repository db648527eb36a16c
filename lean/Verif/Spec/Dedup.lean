/-
Specification of de-duplication: only times, contents and the list of accepted packets.
-/

namespace Verif.Spec

/-- Which packets of a timed sequence pass: a packet is dropped iff an accepted packet with the same content
hash is at most `P` ms old. `acc` are the packets accepted so far. -/
def dedupPass (hashFn : List UInt8 → UInt64) (P : Nat) :
    List (Nat × UInt64) → List (Nat × List UInt8) → List Bool
  | _, [] => []
  | acc, (t, pkt) :: es =>
    if ∃ a ∈ acc, a.2 = hashFn pkt ∧ t ≤ a.1 + P then false :: dedupPass hashFn P acc es
    else true :: dedupPass hashFn P ((t, hashFn pkt) :: acc) es

/-- The documented variant (src/dedup.h:25-33): a repeat restarts the period, so a packet is dropped iff any
copy, dropped or not, is at most `P` ms old. -/
def dedupPassReset (hashFn : List UInt8 → UInt64) (P : Nat) :
    List (Nat × UInt64) → List (Nat × List UInt8) → List Bool
  | _, [] => []
  | seen, (t, pkt) :: es =>
    (!decide (∃ a ∈ seen, a.2 = hashFn pkt ∧ t ≤ a.1 + P)) ::
      dedupPassReset hashFn P ((t, hashFn pkt) :: seen) es

end Verif.Spec
