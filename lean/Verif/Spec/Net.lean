import Verif.Model.Net

/- Executions of a network of routers, and networks without rings. -/

namespace Verif.Spec

/-- `Flows env wires n d n'`: from `n` the network can get to `n'` while `d` messages are received by routers; any message in
transit may come next, and any may get lost. -/
inductive Flows {σ : Type} (env : Nat → Env σ) (wires : Wires) : Net σ → Nat → Net σ → Prop
  | done (n) : Flows env wires n 0 n
  | receive {n n1 n2 : Net σ} {pre post : List Transit} {c : Transit} {d : Nat} : n.transit = pre ++ c :: post →
      n.receive env wires c (pre ++ post) = some n1 → Flows env wires n1 d n2 → Flows env wires n (d + 1) n2
  | lose {n n2 : Net σ} {pre post : List Transit} {c : Transit} {d : Nat} : n.transit = pre ++ c :: post →
      Flows env wires { n with transit := pre ++ post } d n2 → Flows env wires n d n2

/-- The network has no ring: leaving a router on another link than the one of arrival, one gets strictly closer to the
edge. -/
def NoRing (wires : Wires) (depth : Nat → Nat → Nat) : Prop :=
  ∀ r i j r' i', j ≠ i → wires r j = some (r', i') → depth r' i' < depth r i

/-- All readings of a router's clock lie within one de-duplication period (and below 2^32 ms, about 49 days after start). -/
def OnePeriod {σ : Type} (env : Env σ) (t : Nat) : Prop :=
  env.dedupPeriod ≠ 0 ∧ t + 2 * env.dedupPeriod.toNat < 4294967296 ∧
  ∀ k, ∃ now : Nat, env.clock k = now ∧ t ≤ now ∧ now ≤ t + env.dedupPeriod.toNat

end Verif.Spec
