/-
The three link types: writing (`write_msg`), the UDP peer address with its fallback timer, and the UART baud rate
search.
-/

namespace Verif

/-! ### Writing -/

/-- The link types (src/endpoint.h:293-402). -/
inductive LinkKind where
  | uart | udp | tcp
deriving DecidableEq, Repr

/-- Result of `write`/`sendto`: bytes taken, or `errno`. -/
inductive SysRes where
  | took (n : Nat)
  | eagain | epipe | other (errno : Nat)
deriving DecidableEq, Repr

/-- What `write_msg` uses of an endpoint: descriptor, port of the UDP peer, transmit statistics
(src/endpoint.h:260-276; 32-bit and 64-bit counters). -/
structure Tx where
  fdOpen : Bool
  port : UInt16 := 0
  total : UInt32 := 0
  bytes : UInt64 := 0
  incomplete : UInt32 := 0
deriving DecidableEq, Repr

/-- Negative error numbers returned by `write_msg`. -/
def SysRes.neg : SysRes → Int
  | .took n => n
  | .eagain => -11
  | .epipe => -32
  | .other e => -e

/-- The common tail: statistics (src/endpoint.cpp:1014-1029, 1363-1379, 1722-1738). -/
def Tx.count (tx : Tx) (len : Nat) (full : Bool) : Tx :=
  { tx with
    total := tx.total + 1
    bytes := tx.bytes + UInt64.ofNat len
    incomplete := if full then tx.incomplete else tx.incomplete + 1 }

/-- `write_msg` of the three link types (src/endpoint.cpp:998-1030, 1326-1380, 1685-1739): new statistics, the
system call issued (data handed to the kernel) if any, and the return value. `res` is what the system call returns,
should it be issued. The reconnect handling of TCP is in `Verif.Model.Loop`. -/
def writeLink (k : LinkKind) (tx : Tx) (msg : List UInt8) (res : SysRes) : Tx × Option (List UInt8) × Int :=
  match k with
  | .uart =>
    if tx.fdOpen = false then (tx, none, -22)
    else match res with
      | .eagain => (tx, some msg, -11)
      | .took n => (tx.count msg.length (n = msg.length), some msg, n)
      | _ => (tx.count msg.length false, some msg, -1)
  | .udp =>
    if tx.fdOpen = false then (tx, none, -22)
    else if tx.port = 0 then (tx, none, 0)
    else match res with
      | .took n => (tx.count msg.length (n = msg.length), some msg, n)
      | r => (tx, some msg, r.neg)
  | .tcp =>
    if tx.fdOpen = false then (tx, none, 0)
    else match res with
      | .took n => (tx.count msg.length (n = msg.length), some msg, n)
      | r => (tx, some msg, r.neg)

/-- What happens to an endpoint as far as writing is concerned: a message is offered (`Mainloop::write_msg`,
src/mainloop.cpp:143-156), the descriptor is reported writable (`handle_canwrite`, src/endpoint.cpp:214-218, with
`flush_pending_msgs` returning `-ENOSYS`), the connection opens or closes, the UDP peer changes. -/
inductive TxEv where
  | offer (msg : List UInt8) (res : SysRes)
  | canWrite
  | conn (opened : Bool)
  | peer (port : UInt16)
deriving DecidableEq, Repr

/-- State: statistics, system calls issued so far, whether `EPOLLOUT` is requested (src/mainloop.cpp:143-156,
285-291). -/
structure TxSt where
  tx : Tx
  calls : List (List UInt8) := []
  pollOut : Bool := false
deriving DecidableEq, Repr

/-- One event. -/
def txStep (k : LinkKind) (s : TxSt) : TxEv → TxSt
  | .offer msg res =>
    let (tx, call, r) := writeLink k s.tx msg res
    { tx := tx
      calls := match call with
        | some d => s.calls ++ [d]
        | none => s.calls
      pollOut := s.pollOut || decide (r = -11) }
  | .canWrite =>
    -- `handle_canwrite` returns `-ENOSYS == -EAGAIN`, false: only `EPOLLIN` is kept
    { s with pollOut := false }
  | .conn o =>
    -- closing removes the descriptor from the poll set, a new one is added with `EPOLLIN` only
    -- (src/endpoint.cpp:1513, 1752-1762, 1818)
    { s with
      tx := { s.tx with fdOpen := o }
      pollOut := false }
  | .peer p => { s with tx := { s.tx with port := p } }

/-- A history. -/
def txRun (k : LinkKind) (s : TxSt) (es : List TxEv) : TxSt := es.foldl (txStep k) s

/-! ### UDP peer address -/

/-- Socket address (IPv4 or IPv6: `ip` is the rest of the structure). -/
structure Addr where
  ip : Nat
  port : UInt16
deriving DecidableEq, Repr

/-- Address state of a UDP endpoint (src/endpoint.h:346-360). `deadline`: when `nomessage_timeout` expires
(milliseconds; `none`: disarmed); `hasTimer`: `nomessage_timeout != nullptr`. -/
structure Udp where
  peer : Addr
  config : Addr
  hasTimer : Bool
  deadline : Option Nat := none
deriving DecidableEq, Repr

/-- State after `open` (src/endpoint.cpp:1133-1274): `htons` truncates the port to 16 bits; a server forgets the port
after binding; a client has a disarmed timer (`timerOk`: it could be created). -/
def Udp.opened (server : Bool) (ip port : Nat) (timerOk : Bool) : Udp :=
  let a := { ip := ip, port := if server then 0 else UInt16.ofNat port }
  { peer := a, config := a, hasTimer := !server && timerOk }

/-- `recvfrom` results: a datagram (of any length, also empty) with its sender, or an error. -/
inductive RecvRes where
  | datagram (from_ : Addr) (data : List UInt8)
  | error
deriving DecidableEq, Repr

/-- Events at a UDP endpoint, with the time in milliseconds. -/
inductive UdpEv where
  | recv (now : Nat) (r : RecvRes)
  | timer (now : Nat)
  | write (now : Nat) (msg : List UInt8)
deriving DecidableEq, Repr

/-- One event; the output is the destination of the `sendto` call, if one is issued.
`_read_msg` (src/endpoint.cpp:1296-1324): `recvfrom` overwrites the peer address, the timer is re-armed to 5 s.
`Timeout::handle_read` (src/timeout.cpp:31-45): nothing happens unless the timer expired since it was last set
(setting a timer discards earlier expirations); `_nomessage_timeout_cb` (src/endpoint.cpp:1276-1294).
`write_msg` (src/endpoint.cpp:1326-1355). -/
def Udp.step (u : Udp) : UdpEv → Udp × Option Addr
  | .recv now r =>
    match r with
    | .error => (u, none)
    | .datagram a _ =>
      ({ u with
          peer := a
          deadline := if u.hasTimer then some (now + 5000) else u.deadline }, none)
  | .timer now =>
    match u.deadline with
    | none => (u, none)
    | some d =>
      if d ≤ now then
        ({ u with
            peer := u.config
            deadline := none }, none)
      else (u, none)
  | .write _ _ => (u, if u.peer.port = 0 then none else some u.peer)

/-- A history, with the destinations of all `sendto` calls. -/
def Udp.run (u : Udp) : List UdpEv → Udp × List Addr
  | [] => (u, [])
  | e :: es =>
    let (u1, o) := u.step e
    let (u2, os) := u1.run es
    (u2, match o with
      | some a => a :: os
      | none => os)

/-! ### UART baud rate search -/

/-- How `set_speed` (src/endpoint.cpp:799-832) ends: the rate was not set (`TCGETS2` or `TCSETS2` failed), it was set
but the flush after it failed (the result is an error all the same), or it was set. -/
inductive RateRes where
  | notSet
  | unflushed
  | set
deriving DecidableEq, Repr

/-- State of the search (src/endpoint.h:319-325): configured rates, index, rate programmed into the device,
`_change_baud_timeout != nullptr` and the next expiry of the timer (milliseconds).  `asked` is not in the code: the
rates `set_speed` was called with, newest last, and whether the device took them. -/
structure Uart where
  rates : List Nat
  idx : Nat := 0
  speed : Option Nat := none
  searching : Bool := false
  due : Nat := 0
  asked : List (Nat × Bool) := []
deriving DecidableEq, Repr

/-- `set_speed` (src/endpoint.cpp:799-832) on an open port, what it does to the rate in use. -/
def Uart.setSpeed (u : Uart) (r : Nat) (sp : RateRes) : Uart :=
  match sp with
  | .notSet => { u with asked := u.asked ++ [(r, false)] }
  | _ =>
    { u with
      asked := u.asked ++ [(r, true)]
      speed := some r }

/-- The speed part of `setup` (src/endpoint.cpp:740-748), `add_speeds` (1032-1048); `now`: the time it is called,
`sp`: how the first `set_speed` ends, which `add_speeds` does not look at.  `none`: rejected. -/
def Uart.setup (rates : List Nat) (now : Nat) (sp : RateRes) (timerOk : Bool) : Option Uart :=
  match rates with
  | [] => none
  | [r] => if sp = .set then some (Uart.setSpeed { rates := [r] } r sp) else none
  | r :: rs =>
    some
      { Uart.setSpeed { rates := r :: rs } r sp with
        searching := timerOk
        due := now + 5000 }

/-- Events: `read_msg` returned (`known`: `ReadOk`, otherwise any other result), the timer descriptor is reported
readable (`sp`: how `set_speed` ends if it is called). -/
inductive UartEv where
  | read (known : Bool)
  | timer (now : Nat) (sp : RateRes)
deriving DecidableEq, Repr

/-- `read_msg` (src/endpoint.cpp:968-983) cancels the timer. `_change_baud_cb` (954-966) runs if the timer expired
and is not cancelled (src/timeout.cpp:31-45, theorem `C34_cancelled_never_runs`); several expirations are reported as
one. A failing `set_speed` is ignored by the code. -/
def Uart.step (u : Uart) : UartEv → Uart
  | .read known => if u.searching && known then { u with searching := false } else u
  | .timer now sp =>
    if u.searching && decide (u.due ≤ now) then
      let i := (u.idx + 1) % u.rates.length
      { (match u.rates[i]? with
          | some r => u.setSpeed r sp
          | none => u) with
        idx := i
        due := u.due + 5000 * ((now - u.due) / 5000 + 1) }
    else u

/-- A history. -/
def Uart.run (u : Uart) (es : List UartEv) : Uart := es.foldl Uart.step u

end Verif
