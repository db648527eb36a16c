import Verif.Model.Addr

/-
Opening links: the system calls made on descriptors, for every pattern of failing calls (src/endpoint.cpp:730-952,
1084-1267, 1456-1647, src/mainloop.cpp:224-243, 466-504), and the handling of IPv6 addresses there (123-139, 159-195).

Simplified: calls that neither create nor close a descriptor nor change whether it blocks only appear through their
result.  Every `Pollable` closes its descriptor when it is destroyed (src/pollable.cpp:21-26); a link whose set-up fails is
destroyed (src/mainloop.cpp:371-403).
-/

namespace Verif

/-- A system call on a descriptor. -/
inductive Call where
  | opened (fd : Nat) (nonblock : Bool)
  | setNonblock (fd : Nat)
  | connect (fd : Nat)
  | closed (fd : Nat)
deriving DecidableEq, Repr

/-- Results of the system calls of a UDP link; `socket` is the descriptor. -/
structure UdpRes where
  socket : Option Nat
  join : Bool := true
  bind : Bool := true
  broadcast : Bool := true
  fcntl : Bool := true
deriving DecidableEq, Repr

/-- `UdpEndpoint::open_ipv4`, `open_ipv6` (src/endpoint.cpp:1133-1221); `group`: an IPv6 address seen as multicast. -/
def udpSocket (server group : Bool) (r : UdpRes) : Option Nat × List Call :=
  match r.socket with
  | none => (none, [])
  | some fd =>
    if server && group && !r.join then (none, [.opened fd false, .closed fd])
    else if server && !r.bind then (none, [.opened fd false, .closed fd])
    else (some fd, [.opened fd false])

/-- `UdpEndpoint::open` (src/endpoint.cpp:1223-1267). -/
def udpOpen (server group : Bool) (r : UdpRes) : Option Nat × List Call :=
  match udpSocket server group r with
  | (none, cs) => (none, cs)
  | (some fd, cs) =>
    if !server && !r.broadcast then (none, cs ++ [.closed fd])
    else if !r.fcntl then (none, cs ++ [.closed fd])
    else (some fd, cs ++ [.setNonblock fd])

/-- `UartEndpoint::setup` (src/endpoint.cpp:730-758): `steps` are the results of the calls after `open`, those of
`UartEndpoint::open` and those of setting speed and flow control, where a failure destroys the endpoint. -/
def uartOpenFd (opened : Option Nat) (steps : List Bool) : Option Nat × List Call :=
  match opened with
  | none => (none, [])
  | some fd => if steps.all id then (some fd, [.opened fd true]) else (none, [.opened fd true, .closed fd])

/-- Results of the system calls of an attempt to connect. -/
structure TcpRes where
  socket : Option Nat
  connect : Bool := true
  fcntl : Bool := true
deriving DecidableEq, Repr

/-- `TcpEndpoint::open` (src/endpoint.cpp:1553-1647); `group`: an IPv6 address seen as multicast, where `open_ipv6` forgets
the descriptor (1565-1569, 1586-1589). -/
def tcpOpen (group : Bool) (r : TcpRes) : Option Nat × List Call :=
  match r.socket with
  | none => (none, [])
  | some fd =>
    if group then (none, [.opened fd false])
    else if !r.connect then (none, [.opened fd false, .connect fd, .closed fd])
    else if !r.fcntl then (none, [.opened fd false, .connect fd, .closed fd])
    else (some fd, [.opened fd false, .connect fd, .setNonblock fd])

/-- Accepting a client (`TcpEndpoint::accept`, src/endpoint.cpp:1522-1551, src/mainloop.cpp:224-243): `accept4` with
`SOCK_NONBLOCK`; if `TCP_NODELAY` cannot be set the endpoint is deleted. -/
def tcpAccept (accepted : Option Nat) (nodelay : Bool) : Option Nat × List Call :=
  match accepted with
  | none => (none, [])
  | some fd => if nodelay then (some fd, [.opened fd true]) else (none, [.opened fd true, .closed fd])

/-- `Mainloop::tcp_open` (src/mainloop.cpp:466-504). -/
def tcpListen (socket : Option Nat) (bind listen : Bool) : Option Nat × List Call :=
  match socket with
  | none => (none, [])
  | some fd =>
    if !bind then (none, [.opened fd true, .closed fd])
    else if !listen then (none, [.opened fd true, .closed fd])
    else (some fd, [.opened fd true])

/-- What happens to the links of the process: one is created (the results of its system calls given), a TCP client tries
again to connect (`_retry_timeout_cb`, src/endpoint.cpp:1810-1821), a link is closed or destroyed (1752-1762,
src/pollable.cpp:21-26). -/
inductive ProcEv where
  | uart (opened : Option Nat) (steps : List Bool)
  | udp (server group : Bool) (r : UdpRes)
  | tcp (group : Bool) (r : TcpRes)
  | listen (socket : Option Nat) (bind listen : Bool)
  | accept (accepted : Option Nat) (nodelay : Bool)
  | retry (i : Nat) (r : TcpRes)
  | close (i : Nat)
deriving DecidableEq, Repr

/-- A link of the process: a TCP client with its kind of address, or another link; the descriptor it holds. -/
structure ProcLink where
  tcpGroup : Option Bool := none
  fd : Option Nat
deriving DecidableEq, Repr

/-- One event.  Attempts to connect again are made only while there is no connection (the reconnect timer exists only
then, C28). -/
def procStep (ls : List ProcLink) : ProcEv → List ProcLink × List Call
  | .uart o st => let p := uartOpenFd o st; (ls ++ [{ fd := p.1 }], p.2)
  | .udp sv g r => let p := udpOpen sv g r; (ls ++ [{ fd := p.1 }], p.2)
  | .tcp g r => let p := tcpOpen g r; (ls ++ [{ tcpGroup := some g, fd := p.1 }], p.2)
  | .listen s b l => let p := tcpListen s b l; (ls ++ [{ fd := p.1 }], p.2)
  | .accept a n => let p := tcpAccept a n; (ls ++ [{ fd := p.1 }], p.2)
  | .retry i r =>
    match ls[i]? with
    | some { tcpGroup := some g, fd := none } =>
      let p := tcpOpen g r
      (ls.set i { tcpGroup := some g, fd := p.1 }, p.2)
    | _ => (ls, [])
  | .close i =>
    match ls[i]? with
    | some { tcpGroup := g, fd := some fd } => (ls.set i { tcpGroup := g, fd := none }, [.closed fd])
    | _ => (ls, [])

/-- A history of the process. -/
def procRun (ls : List ProcLink) : List ProcEv → List ProcLink × List Call
  | [] => (ls, [])
  | e :: es =>
    let s := procStep ls e
    let t := procRun s.1 es
    (t.1, s.2 ++ t.2)

/-- `ipv6_is_linklocal` (src/endpoint.cpp:129-133). -/
def v6LinkLocal (ip : List UInt8) : Bool :=
  (ascii "fe80").isPrefixOf ip || (ascii "fc").isPrefixOf ip || (ascii "fd").isPrefixOf ip

/-- `ipv6_is_multicast` (src/endpoint.cpp:135-139). -/
def v6Multicast (ip : List UInt8) : Bool := (ascii "ff0").isPrefixOf ip

/-- Does `TcpEndpoint::open` see an IPv6 multicast address (src/endpoint.cpp:1561-1566)? -/
def tcpSeesGroup (ip : List UInt8) : Bool :=
  ipIsV6 ip &&
    match stripBrackets ip with
    | some t => v6Multicast t
    | none => false

/-- An IPv6 address of an interface: the numeric text without interface name, the index of the interface. -/
structure IfAddr where
  text : List UInt8
  index : Nat
deriving DecidableEq, Repr

/-- `ipv6_get_scope_id` (src/endpoint.cpp:159-195) for the IPv6 addresses `getifaddrs` lists. If that fails the list is an
uninitialised pointer; not modelled. -/
def v6Scope (ifs : List IfAddr) (ip : List UInt8) : Nat :=
  match ifs.find? (fun a => a.text = ip) with
  | some a => a.index
  | none => 0

/-- The scope id of the socket address (src/endpoint.cpp:1143-1148, 1173-1175, 1575-1577); UDP rewrites the text to its
canonical form before, TCP does not. -/
def v6SockScope (canon : List UInt8 → List UInt8) (udp : Bool) (ifs : List IfAddr) (ip : List UInt8) : Nat :=
  let t := if udp then canon ip else ip
  if v6LinkLocal t then v6Scope ifs t else 0

/-- What `UdpEndpoint::open_ipv6` asks of the kernel for a server (src/endpoint.cpp:1141-1183). -/
structure UdpV6Plan where
  join : Bool
  bindAny : Bool
  scope : Nat
deriving DecidableEq, Repr

/-- The plan for the text without brackets. -/
def udpV6Server (canon : List UInt8 → List UInt8) (ifs : List IfAddr) (ip : List UInt8) : UdpV6Plan :=
  let m := v6Multicast (canon ip)
  { join := m, bindAny := m, scope := v6SockScope canon true ifs ip }

end Verif
