import Verif.Spec.Net

/- Executions of a network of routers with which vehicles and ground stations talk, and where these are. -/

namespace Verif.Spec

/-- `Talk env wires enters keep n n'`: from `n` the network can get to `n'`, while vehicles and ground stations send messages (those
allowed by `enters`, at endpoints that are not connected to a router), messages in transit are received in any order, and messages
get lost except those in `keep`. -/
inductive Talk {σ : Type} (env : Nat → Env σ) (wires : Wires) (enters : Transit → Prop) (keep : Msg → Prop) : Net σ → Net σ → Prop
  | done (n) : Talk env wires enters keep n n
  | receive {n n1 n2 : Net σ} {pre post : List Transit} {c : Transit} : n.transit = pre ++ c :: post →
      n.receive env wires c (pre ++ post) = some n1 → Talk env wires enters keep n1 n2 → Talk env wires enters keep n n2
  | lose {n n2 : Net σ} {pre post : List Transit} {c : Transit} : n.transit = pre ++ c :: post → ¬ keep c.msg →
      Talk env wires enters keep { n with transit := pre ++ post } n2 → Talk env wires enters keep n n2
  | enter {n n2 : Net σ} {c : Transit} : wires c.router c.ep = none → c.ep ∈ (n.routers c.router).active → MsgOk c.msg → enters c →
      Talk env wires enters keep { n with transit := n.transit ++ [c] } n2 → Talk env wires enters keep n n2

/-- Somebody lives at endpoint `toward home` of the router `home`, and `toward r` is the endpoint of router `r` in their direction:
links lead away from them on all other endpoints. -/
structure Lives (wires : Wires) (home : Nat) (toward : Nat → Nat) : Prop where
  edge : wires home (toward home) = none
  away : ∀ r j r' i', j ≠ toward r → wires r j = some (r', i') → toward r' = i'

/-- Going from router to router in the direction `toward` one gets from the first router to the second. -/
inductive Way (wires : Wires) (toward : Nat → Nat) : Nat → Nat → Prop
  | here (r) : Way wires toward r r
  | hop {r r' j q} : wires r (toward r) = some (r', j) → Way wires toward r' q → Way wires toward r q

/-- A link has two ends. -/
def TwoEnded (wires : Wires) : Prop := ∀ r j r' i', wires r j = some (r', i') → wires r' i' = some (r, j)

/-- The message comes from the address. -/
def FromAddr (s c : UInt8) (m : Msg) : Prop := m.srcSys = s ∧ m.srcComp = c

/-- The message is addressed to the component, or to all components of the system. -/
def ToAddr (s c : UInt8) (m : Msg) : Prop :=
  m.targetSys = s.toNat ∧ s ≠ 0 ∧ (m.targetComp ≤ 0 ∨ (m.targetComp = c.toNat ∧ c ≠ 0))

end Verif.Spec
