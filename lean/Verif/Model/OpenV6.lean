import Verif.Model.Open

/-
Opening IPv6 links with the values of the variables that the code passes on, including those it never sets
(`ipv6_get_scope_id`, src/endpoint.cpp:159-193; `UdpEndpoint::open_ipv6`, 1133-1191; `TcpEndpoint::open_ipv6`, 1554-1589).
`Verif.Model.Open` has the same functions for the case that all library calls succeed.
-/

namespace Verif

/-- Results of the library: `inet_pton` and `inet_ntop` for IPv6 (16 bytes), and `getifaddrs` (`none`: it fails) with, for each IPv6
address of an interface, the text `getnameinfo` gives (without the interface name, `none`: it fails) and the index of the interface. -/
structure V6Lib where
  pton : List UInt8 → Option (List UInt8)
  ntop : List UInt8 → List UInt8
  ifs : Option (List (Option (List UInt8) × Nat))

/-- What happens to be in the local variables: `ip_addr.sin6_addr` (src/endpoint.cpp:1146), `group.ipv6mr_multiaddr` and
`group.ipv6mr_interface` (1157), the string in `ipAddress` (162; `none`: no end of a string in it). -/
structure V6Junk where
  ipAddr : List UInt8
  groupAddr : List UInt8
  groupIface : Nat
  host : Option (List UInt8)

/-- The loop of `ipv6_get_scope_id` (src/endpoint.cpp:167-189) with the content of `ipAddress`. `none`: undefined behaviour. -/
def scopeScan (ip : List UInt8) : List (Option (List UInt8) × Nat) → Option (List UInt8) → Option Nat
  | [], _ => some 0
  | (t, ix) :: as, buf =>
    match t.or buf with
    | none => none
    | some x => if x = ip then some ix else scopeScan ip as (some x)

/-- `ipv6_get_scope_id` (src/endpoint.cpp:159-193). If `getifaddrs` fails, the loop follows a pointer that was never set. -/
def scopeIdV6 (lib : V6Lib) (junk : V6Junk) (ip : List UInt8) : Option Nat :=
  match lib.ifs with
  | none => none
  | some as => scopeScan ip as junk.host

/-- What is asked of the kernel: group and interface to join, address and scope of the socket address. -/
structure V6Asks where
  join : Option (List UInt8 × Nat)
  addr : List UInt8
  scope : Nat
deriving DecidableEq, Repr

/-- The all-zero address (`bzero`, src/endpoint.cpp:1069, 1444; `in6addr_any`, 1155). -/
def v6Any : List UInt8 := List.replicate 16 0

/-- The text as rewritten in src/endpoint.cpp:1145-1148, from the text without brackets; `inet_ntop` leaves it alone if the new one does
not fit in the old one's place (`strlen(ip)` counts the brackets). -/
def udpTextV6 (lib : V6Lib) (junk : V6Junk) (t : List UInt8) : List UInt8 :=
  let x := lib.ntop ((lib.pton t).getD junk.ipAddr)
  if x.length < t.length + 2 then x else t

/-- `UdpEndpoint::open_ipv6` (src/endpoint.cpp:1133-1191) up to `bind`, for the text without brackets. -/
def udpOpenV6 (lib : V6Lib) (junk : V6Junk) (server : Bool) (t : List UInt8) : Option V6Asks :=
  let x := udpTextV6 lib junk t
  let scope := if v6LinkLocal x then scopeIdV6 lib junk x else some 0
  scope.map fun s =>
    if server && v6Multicast x then { join := some ((lib.pton x).getD junk.groupAddr, junk.groupIface), addr := v6Any, scope := s }
    else { join := none, addr := (lib.pton x).getD v6Any, scope := s }

/-- `TcpEndpoint::open_ipv6` (src/endpoint.cpp:1554-1589) for the text without brackets and an address that is no group; the address is
zero before the first attempt (1444). -/
def tcpOpenV6 (lib : V6Lib) (junk : V6Junk) (t : List UInt8) : Option V6Asks :=
  let scope := if v6LinkLocal t then scopeIdV6 lib junk t else some 0
  scope.map fun s => { join := none, addr := (lib.pton t).getD v6Any, scope := s }

end Verif
