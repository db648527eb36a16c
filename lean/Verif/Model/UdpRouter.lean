import Verif.Model.Routing
import Verif.Model.Link

/-
The router with the address state of its UDP endpoints: which datagram goes where. Puts together `routerStep`
(Verif.Model.Routing) and `Udp.step` (Verif.Model.Link).
-/

namespace Verif

variable {σ : Type}

/-- The router, the address state of its UDP endpoints, and the writes to UDP endpoints with the destination of the `sendto`
call (`none`: no call), src/endpoint.h:346-360, src/endpoint.cpp:1326-1355. -/
structure UdpWorld (σ : Type) where
  w : World σ
  udp : Nat → Option Udp
  sent : List (Sent × Option Addr) := []

/-- What happens: `recvfrom` of UDP endpoint `i` returns a datagram (src/endpoint.cpp:1296-1324), its no-message timer is served
(1276-1294), or anything else happens to the router. -/
inductive NetEv where
  | datagram (i now : Nat) (sender : Addr) (data : List UInt8)
  | timer (i now : Nat)
  | other (ev : RouterEv)
deriving DecidableEq, Repr

/-- What it means for the router (src/endpoint.cpp:220-252). -/
def NetEv.toRouter : NetEv → Option RouterEv
  | .datagram i _ _ d => some (.read i (.got d))
  | .timer _ _ => none
  | .other ev => some ev

/-- What it means for the peer addresses (src/endpoint.cpp:1276-1324): `recvfrom` stores the sender before the messages of the
datagram are looked at. -/
def NetEv.heard (udp : Nat → Option Udp) : NetEv → Nat → Option Udp
  | .datagram i now a d => fun j => if j = i then (udp j).map (fun u => (u.step (.recv now (.datagram a d))).1) else udp j
  | .timer i now => fun j => if j = i then (udp j).map (fun u => (u.step (.timer now)).1) else udp j
  | .other _ => udp

/-- One event; writes to UDP endpoints are directed by their address state (src/endpoint.cpp:1326-1355). -/
def UdpWorld.step (env : Env σ) (s : UdpWorld σ) (ev : NetEv) : Option (UdpWorld σ × List Arrival) :=
  let udp := ev.heard s.udp
  match ev.toRouter with
  | none => some ({ s with udp := udp }, [])
  | some rev =>
    match routerStep env s.w rev with
    | none => none
    | some (w', as) =>
      some ({ w := w', udp := udp
              sent := s.sent ++ (w'.out.drop s.w.out.length).filterMap fun o =>
                (udp o.ep).map fun u => (o, (u.step (.write 0 o.bytes)).2) }, as)

/-- A history (src/mainloop.cpp:245-325): the events with the messages that arrived in each. -/
def UdpWorld.run (env : Env σ) (s : UdpWorld σ) : List NetEv → Option (UdpWorld σ × List (NetEv × List Arrival))
  | [] => some (s, [])
  | ev :: evs =>
    match s.step env ev with
    | none => none
    | some (s', as) =>
      match s'.run env evs with
      | none => none
      | some (s'', log) => some (s'', (ev, as) :: log)

end Verif
