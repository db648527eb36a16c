import Verif.Spec.Routing

/-
Several routers connected with each other: what one router writes on a link (src/mainloop.cpp:158-203) the router at
the other end of the link receives (src/endpoint.cpp:220-252). Links may lose messages (UDP, serial lines) and
deliver them in any order relative to other links.
-/

namespace Verif

/-- A message in transit: about to arrive at endpoint `ep` of router `router`. -/
structure Transit where
  router : Nat
  ep : Nat
  msg : Msg
deriving DecidableEq, Repr

/-- Routers and messages in transit. -/
structure Net (σ : Type) where
  routers : Nat → World σ
  transit : List Transit

/-- How routers are connected: the other end of each endpoint, if it is a router. -/
abbrev Wires := Nat → Nat → Option (Nat × Nat)

/-- What becomes of the writes of a routed message `m` (src/mainloop.cpp:158-203): those on links to other routers arrive there with
the bytes written (C01, C31). Messages made by log endpoints are not followed. -/
def outgoing (wires : Wires) (r : Nat) (m : Msg) (ss : List Sent) : List Transit :=
  ss.filterMap (fun s => (wires r s.ep).map (fun x => { router := x.1, ep := x.2, msg := { m with data := s.bytes } }))

/-- The network when the message `c` is received (src/endpoint.cpp:225-249) and routed. `none`: undefined behaviour. -/
def Net.receive {σ : Type} (env : Nat → Env σ) (wires : Wires) (n : Net σ) (c : Transit) (others : List Transit) : Option (Net σ) :=
  match handleMsg (env c.router) (n.routers c.router) c.ep c.msg with
  | none => none
  | some (w, _) => some {
      routers := fun r => if r = c.router then w else n.routers r
      transit := others ++ outgoing wires c.router c.msg (Spec.directSince (n.routers c.router) w) }

end Verif
