import Verif.Model.Config

/-
Addresses of UDP and TCP endpoints: from the accepted text to the socket address
(/repo/src/endpoint.cpp:123-157, 1133-1222, 1554-1604).

`inet_addr` is modelled for texts of four groups of digits, the only ones it is called with.
`inet_pton` and `inet_ntop` for IPv6 are parameters; what is used is that `inet_pton` fails for text that is no IPv6 address
and reads back what `inet_ntop` writes.
-/

namespace Verif

/-- `ip_str_is_ipv6` (endpoint.cpp:123-127). -/
def ipIsV6 (ip : List UInt8) : Bool := ip.contains 91

/-- Stripping the brackets (endpoint.cpp:1141-1143, 1562-1564): `strdup(&ip[1])`, then the last
character is overwritten.  `none`: access outside the text. -/
def stripBrackets (ip : List UInt8) : Option (List UInt8) :=
  match ip with
  | [] => none
  | _ :: t => if t = [] then none else some t.dropLast

/-- One part of an address for `inet_addr`: a number in C notation. -/
def inetPart (p : List UInt8) : Option Nat :=
  match scanNum 0 p with
  | some n => if n.rest = [] ∧ n.neg = false ∧ n.mag ≤ 255 then some n.mag else none
  | none => none

/-- `INADDR_NONE`, also the address 255.255.255.255. -/
def inaddrNone : Nat := 0xffffffff

/-- `inet_addr` (endpoint.cpp:1203, 1600) in host byte order, for texts of four groups of digits;
`INADDR_NONE` if it fails. -/
def inetAddr (ip : List UInt8) : Nat :=
  match (splitB 46 [] ip).map inetPart with
  | [some a, some b, some c, some d] => a * 2 ^ 24 + b * 2 ^ 16 + c * 2 ^ 8 + d
  | _ => inaddrNone

/-- The address part of the socket address.  `v6Unset`: it is left as the constructor set it (zero); `uninit`: it depends on
a variable without value; `ub`: access outside the text. -/
inductive SockAddr (A : Type) where
  | v4 (addr : Nat)
  | v6 (addr : A)
  | v6Unset
  | uninit
  | ub
deriving DecidableEq, Repr

/-- `open_ipv4` and `open_ipv6` of TCP (endpoint.cpp:1553-1604).  The result of `inet_pton` is not checked: if it fails, the
address is not written. -/
def sockAddr {A : Type} (pton : List UInt8 → Option A) (ip : List UInt8) : SockAddr A :=
  if ipIsV6 ip then
    match stripBrackets ip with
    | none => .ub
    | some t =>
      match pton t with
      | some a => .v6 a
      | none => .v6Unset
  else .v4 (inetAddr ip)

/-- `open_ipv4` and `open_ipv6` of UDP (endpoint.cpp:1133-1221), clients and addresses other than multicast.  The text
without brackets is replaced by the canonical text of its address (1145-1148; `strlen(ip)` bytes are offered to
`inet_ntop`, which changes nothing if these do not suffice) and read again (1166); if it is no address, `inet_ntop`
gets a variable without value. -/
def sockAddrUdp {A : Type} (pton : List UInt8 → Option A) (ntop : A → List UInt8) (ip : List UInt8) : SockAddr A :=
  if ipIsV6 ip then
    match stripBrackets ip with
    | none => .ub
    | some t =>
      match pton t with
      | none => .uninit
      | some a =>
        match pton (if (ntop a).length < ip.length then ntop a else t) with
        | some a' => .v6 a'
        | none => .v6Unset
  else .v4 (inetAddr ip)

end Verif
