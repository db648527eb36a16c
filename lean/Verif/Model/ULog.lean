/-
The PX4 log endpoint, model of /repo/src/ulog.cpp and /repo/src/ulog.h.

The valid part of `_buffer` (`_buffer_len` bytes from `_buffer_index`) is the list `pend`, the
valid part of `_buffer_partial` the list `part`; `idx` is `_buffer_index`.  Nothing outside the
valid parts is ever read.  `none` results mean that the code does not return (endless loop).
Accesses outside an object set the flag `oob`; the code after such an access is undefined
behaviour, the model then continues with the bytes found in memory.

The flags `oob`, `oobWrite`, `wrapped`, `lost`, `cut` and `dropped` are bookkeeping: they record
that something happened and are never read by the modelled code.
-/
import Verif.Model.LogCore

namespace Verif

/-- State of `ULog` (ulog.h:44-57).  Bookkeeping: `oob` an access outside an object happened,
`oobWrite` such a write; `wrapped` a message size plus 3 did not fit `uint16_t` (ulog.cpp:332);
`lost` the remainder of a short write was too long (ulog.cpp:357-364, logged); `cut` a file was
closed with bytes still pending after a write error (ulog.cpp:96-98, logged); `dropped` the buffer
was full and emptied (ulog.cpp:275-280, logged). -/
structure ULog where
  base : LogBase
  expSeq : UInt16 := 0
  waitHdr : Bool := true
  waitFirst : Bool := false
  pend : List UInt8 := []
  idx : Nat := 0
  part : List UInt8 := []
  oob : Bool := false
  oobWrite : Bool := false
  wrapped : Bool := false
  lost : Bool := false
  cut : Bool := false
  dropped : Bool := false
deriving DecidableEq, Repr

/-- `BUFFER_LEN`, the size of `_buffer_partial`, the header size, the size of the data field
(ulog.h:22, 53; ulog.cpp:29; `mavlink_logging_data_t`). -/
def ulogBuf : Nat := 2048
def ulogPart : Nat := 1024
def ulogHdr : Nat := 16
def ulogData : Nat := 249

/-- `ULOG_MAGIC` (ulog.cpp:30-33). -/
def ulogMagic : List UInt8 := [0x55, 0x4C, 0x6F, 0x67, 0x01, 0x12, 0x35]

/-- `mavlink_logging_data_t` as the code accesses it: `mem` is the memory from `msg->data` on,
the 249 bytes of the field followed by whatever comes after. -/
structure Pkt where
  seq : UInt16
  length : UInt8
  first : UInt8
  mem : List UInt8
deriving DecidableEq, Repr

/-- `ULog::_logging_seq` (ulog.cpp:201-226): `none` for "do not handle", else the drop flag and
the new expected number. -/
def logSeq (exp seq : UInt16) : Option (Bool × UInt16) :=
  if exp = seq then some (false, exp + 1)
  else if seq > exp then
    if seq - exp > 32767 then none else some (true, seq + 1)
  else
    if exp - seq < 32767 then none else some (true, seq + 1)

/-- How the first loop of `_logging_flush` ends. -/
inductive PartRes where
  | empty
  | wait
  | fail
deriving DecidableEq, Repr

/-- The first loop of `_logging_flush` (ulog.cpp:316-328).  Every round that continues removes at
least one byte, so `fuel = part.length` rounds are enough. -/
def flushPart (env : LogEnv) : Nat → LogBase → List UInt8 → LogBase × List UInt8 × PartRes
  | _, b, [] => (b, [], .empty)
  | 0, b, p => (b, p, .wait)
  | fuel + 1, b, p =>
    match b.write env p with
    | (b, .wrote 0) => (b, p, .wait)
    | (b, .again) => (b, p, .wait)
    | (b, .err) => (b, p, .fail)
    | (b, .wrote (k + 1)) => flushPart env fuel b (p.drop (k + 1))

/-- `full_msg_size`: `msg_size` of the header at the front, plus 3, as `uint16_t`
(ulog.cpp:331-332). -/
def fullSize (p : List UInt8) : Nat :=
  match p with
  | lo :: hi :: _ => (lo.toNat + 256 * hi.toNat + 3) % 65536
  | _ => 0

/-- The size at the front does not fit `uint16_t` after adding 3 (ulog.cpp:332). -/
def sizeWraps (p : List UInt8) : Bool :=
  match p with
  | lo :: hi :: _ => lo.toNat + 256 * hi.toNat + 3 ≥ 65536
  | _ => false

/-- The second loop of `_logging_flush` (ulog.cpp:330-370).  `none`: a message of size 0
is written again and again (`r == full_msg_size`, 341-346). -/
def flushBuf (env : LogEnv) : Nat → ULog → Option (ULog × Bool)
  | 0, u => some (u, true)
  | fuel + 1, u =>
    if u.pend.length < 3 ∨ u.part ≠ [] then some (u, true)
    else
      let full := fullSize u.pend
      let u := { u with wrapped := u.wrapped || sizeWraps u.pend }
      if full > u.pend.length then some (u, true)
      else
        match u.base.write env (u.pend.take full) with
        | (b, .again) => some ({ u with base := b }, true)
        | (b, .err) => some ({ u with base := b }, false)
        | (b, .wrote k) =>
          if k = full then
            if full = 0 then none
            else flushBuf env fuel { u with base := b, pend := u.pend.drop full, idx := u.idx + full }
          else if k = 0 then some ({ u with base := b }, true)
          else if full - k > ulogPart then
            some ({ u with base := b, part := [], lost := true }, true)
          else
            some ({ u with base := b, part := (u.pend.take full).drop k, pend := u.pend.drop full, idx := u.idx + full }, true)

/-- `ULog::_logging_flush` (ulog.cpp:313-371). -/
def ULog.flush (env : LogEnv) (u : ULog) : Option (ULog × Bool) :=
  match flushPart env u.part.length u.base u.part with
  | (b, p, .empty) => flushBuf env (u.pend.length + 1) { u with base := b, part := p }
  | (b, p, .wait) => some ({ u with base := b, part := p }, true)
  | (b, p, .fail) => some ({ u with base := b, part := p }, false)

/-- `ULog::start` (ulog.cpp:58-72). -/
def ULog.start (env : LogEnv) (u : ULog) : ULog × Bool :=
  match u.base.start env with
  | (b, true) =>
    ({ u with base := b, waitHdr := true, waitFirst := false, expSeq := 0, pend := [], idx := 0, part := [] }, true)
  | (b, false) => ({ u with base := b }, false)

/-- The loop of `ULog::stop` (ulog.cpp:95-99), followed for at most `n` rounds; `none` if it does
not end within them. -/
def stopLoop (env : LogEnv) : Nat → ULog → Option ULog
  | 0, u => if u.part = [] then some u else none
  | n + 1, u =>
    if u.part = [] then some u
    else
      match u.flush env with
      | none => none
      | some (u, false) => some u
      | some (u, true) => stopLoop env n u

/-- `ULog::stop` (ulog.cpp:74-101). -/
def ULog.stop (env : LogEnv) (u : ULog) : Option ULog :=
  if u.base.file = none then some u
  else
    match stopLoop env env.fuel { u with base := u.base.send .cmdStop, pend := [] } with
    | none => none
    | some u => some { u with base := u.base.stop, cut := u.cut || !u.part.isEmpty }

/-- `stop(); start();` after an invalid header (ulog.cpp:240-253). -/
def ULog.restart (env : LogEnv) (u : ULog) : Option ULog :=
  match u.stop env with
  | none => none
  | some u => some (u.start env).1

/-- The header part of `_logging_data_process` (ulog.cpp:255-261): the first 16 bytes go to
`_buffer_partial`, the rest is moved down in place by `msg->length` bytes (not
`msg->length - 16`). -/
def takeHeader (u : ULog) (p : Pkt) : ULog × Pkt :=
  ({ u with
      part := p.mem.take ulogHdr
      waitHdr := false
      oob := u.oob || ulogHdr + p.length.toNat > ulogData
      oobWrite := u.oobWrite || p.length.toNat > ulogData },
   { p with
      mem := (p.mem.drop ulogHdr).take p.length.toNat ++ p.mem.drop p.length.toNat
      length := p.length - 16 })

/-- `_logging_data_process`, lost packets: write what is complete, forget the rest
(ulog.cpp:263-269). -/
def ULog.afterLoss (env : LogEnv) (u : ULog) (drops : Bool) : Option ULog :=
  if drops then
    match u.flush env with
    | none => none
    | some (u, _) => some { u with pend := [], idx := 0, waitFirst := true }
  else some u

/-- `_logging_data_process`, room for `n` more bytes: empty a full buffer (ulog.cpp:275-280), move
the data to the front (286-289). -/
def ULog.makeRoom (u : ULog) (n : Nat) : ULog :=
  let u := if u.pend.length + n > ulogBuf then
      { u with pend := [], waitFirst := true, dropped := true } else u
  if u.idx + u.pend.length + n > ulogBuf then { u with idx := 0 } else u

/-- `_logging_data_process`, append the data and flush (ulog.cpp:291-310). -/
def ULog.store (env : LogEnv) (u : ULog) (p : Pkt) : Option (ULog × Pkt) :=
  if u.waitFirst ∧ p.first = 255 then some (u, p)
  else
    let begin : UInt8 := if u.waitFirst then p.first else 0
    let u := { u with waitFirst := false }
    if p.length = 0 then some (u, p)
    else
      let p := { p with length := p.length - begin }
      let bs := (p.mem.drop begin.toNat).take p.length.toNat
      let u := { u with
        oob := u.oob || begin.toNat + p.length.toNat > ulogData || u.idx + u.pend.length + p.length.toNat > ulogBuf
        oobWrite := u.oobWrite || u.idx + u.pend.length + p.length.toNat > ulogBuf
        pend := u.pend ++ bs }
      match u.flush env with
      | none => none
      | some (u, _) => some (u, p)

/-- `_logging_data_process` from the check for lost packets on (ulog.cpp:263-311). -/
def ULog.append (env : LogEnv) (u : ULog) (p : Pkt) (drops : Bool) : Option (ULog × Pkt) :=
  match u.afterLoss env drops with
  | none => none
  | some u => (u.makeRoom p.length.toNat).store env p

/-- `ULog::_logging_data_process` (ulog.cpp:228-311).  Returns the packet as it is left in
memory. -/
def ULog.process (env : LogEnv) (u : ULog) (p : Pkt) : Option (ULog × Pkt) :=
  match logSeq u.expSeq p.seq with
  | none => some (u, p)
  | some (drops, exp) =>
    let u := { u with expSeq := exp }
    if u.waitHdr then
      if p.length.toNat < ulogHdr ∨ p.mem.take 7 ≠ ulogMagic then
        (u.restart env).map fun u => (u, p)
      else
        let r := takeHeader u p
        r.1.append env r.2 drops
    else u.append env p drops

/-- Several data packets in a row (ulog.cpp:228-311). -/
def ULog.processAll (env : LogEnv) (u : ULog) : List Pkt → Option ULog
  | [] => some u
  | p :: ps =>
    match u.process env p with
    | none => none
    | some (u, _) => u.processAll env ps

/-- The packet a LOGGING_DATA message designates (ulog.cpp:169-179): the payload in place if
nothing was trimmed, else a copy filled up with zeros, followed by stack memory. -/
def Msg.pkt (env : LogEnv) (m : Msg) : Pkt :=
  let f : Nat → UInt8 := fun k =>
    if m.trimmed 255 = 0 then m.rawByte env k
    else if k < m.payloadLen.toNat then m.rawByte env k
    else if k < 255 then 0
    else env.stale k
  { seq := (f 0).toUInt16 + 256 * (f 1).toUInt16
    length := f 4
    first := f 5
    mem := (List.range 520).map fun j => f (6 + j) }

/-- The memory from the start of the message on after the packet was edited in place (ulog.cpp:177-178, 259-260, 307): byte 4 of
the payload is the length, the data field starts at byte 6.  The number of bytes stays the same. -/
def Msg.edited (m : Msg) (p : Pkt) : List UInt8 :=
  if m.trimmed 255 = 0 then
    (m.data.take (m.hdrLen + 4) ++ [p.length] ++ (m.data.drop (m.hdrLen + 5)).take 1 ++ p.mem ++
      m.data.drop (m.hdrLen + 6 + p.mem.length)).take m.data.length
  else m.data

/-- `_handle_auto_start_stop` for ULog (logendpoint.cpp:480-514). -/
def ULog.auto (env : LogEnv) (u : ULog) (m : Msg) : Option ULog :=
  match u.base.autoAct env m with
  | .nothing => some u
  | .start =>
    match u.start env with
    | (u, true) => some u
    | (u, false) => some { u with base := { u.base with mode := .disabled } }
  | .stop => u.stop env

/-- Count a handled message (ulog.cpp:191-192). -/
def ULog.count (u : ULog) : ULog := { u with base := { u.base with wrTotal := u.base.wrTotal + 1 } }

/-- A byte of the local copy of a COMMAND_ACK: bytes cut off by MAVLink 2 are zero, the rest of a
short MAVLink 1 payload is not initialised (ulog.cpp:141-146). -/
def Msg.cmdByte (env : LogEnv) (m : Msg) (k : Nat) : UInt8 :=
  if k < m.payloadLen.toNat then m.rawByte env k
  else if m.data.head? = some 0xFD then 0 else env.stale k

/-- COMMAND_ACK: command at 0, result at 2 (ulog.cpp:140-162). -/
def ULog.commandAck (env : LogEnv) (u : ULog) (m : Msg) : ULog :=
  if !u.base.startTimer ∨ (m.cmdByte env 0).toNat + 256 * (m.cmdByte env 1).toNat ≠ 2510 then u
  else if m.cmdByte env 2 = 0 then
    ULog.count { u with base := { u.base with startTimer := false, aliveTimer := env.aliveOk } }
  else u.count

/-- LOGGING_DATA_ACKED is acknowledged, the number read without regard to trimming
(ulog.cpp:163-174). -/
def ULog.acknowledge (env : LogEnv) (u : ULog) (m : Msg) : ULog :=
  let ack := LogOut.ulogAck ((m.rawByte env 0).toUInt16 + 256 * (m.rawByte env 1).toUInt16)
  if m.msgId = 267 then { u with base := u.base.send ack } else u

/-- `ULog::write_msg` (ulog.cpp:103-196).  Returns the frame as it is left in the shared buffer. -/
def ULog.writeMsg (env : LogEnv) (u : ULog) (m : Msg) : Option (ULog × List UInt8) :=
  match ULog.auto env { u with base := u.base.learnTarget m } m with
  | none => none
  | some u =>
    if m.msgId ≠ 77 ∧ m.msgId ≠ 267 ∧ m.msgId ≠ 266 then some (u, m.data)
    else if env.tbl m.msgId = none then some (u, m.data)
    else if m.msgId = 77 then some (u.commandAck env m, m.data)
    else
      match (u.acknowledge env m).process env (m.pkt env) with
      | none => none
      | some (u, p) => some (u.count, m.edited p)

/-- `ULog::_logging_start_timeout` (ulog.cpp:42-56), called every second while the timer exists. -/
def ULog.startTimeout (u : ULog) : ULog :=
  if u.base.startTimer then { u with base := u.base.send .cmdStart } else u

/-- `LogEndpoint::_alive_timeout` for ULog (logendpoint.cpp:435-445), called every 5 s while the
timer exists. -/
def ULog.aliveTimeout (env : LogEnv) (u : ULog) : Option ULog :=
  if u.base.aliveTimer then
    let r := if u.base.toTotal = u.base.wrTotal then u.restart env else some u
    r.map fun u => { u with base := { u.base with toTotal := u.base.wrTotal } }
  else some u

/-- What happens to a ULog endpoint. -/
inductive ULogEv where
  | msg (m : Msg)
  | startTimeout
  | aliveTimeout
  | stop
deriving DecidableEq, Repr

/-- One event. -/
def ULog.step (env : LogEnv) (u : ULog) : ULogEv → Option ULog
  | .msg m => (u.writeMsg env m).map (·.1)
  | .startTimeout => some u.startTimeout
  | .aliveTimeout => u.aliveTimeout env
  | .stop => u.stop env

/-- A history of events. -/
def ULog.run (env : LogEnv) (u : ULog) : List ULogEv → Option ULog
  | [] => some u
  | ev :: evs =>
    match u.step env ev with
    | none => none
    | some u => u.run env evs

/-- A ULog endpoint as constructed (ulog.h:26-29, logendpoint.cpp:61-81). -/
def ULog.init (target : Option UInt8) (mode : LogMode) : ULog := { base := { target, mode } }

end Verif
