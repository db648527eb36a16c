import Verif.Model.Crc

/-
Receive path: `Endpoint::read_msg`, `Endpoint::_check_crc` and the read loop of `Endpoint::handle_read`
(src/endpoint.cpp:220-459, 646-668), on the list of the `rx_buf.len` valid bytes of the buffer.
The array-level version with explicit bounds checks is in `Verif.Model.RxMem`; it is proved to refine
this one.
-/

namespace Verif

/-- `MAVLINK_STX` (library constant; used at src/endpoint.cpp:299). -/
def stxV2 : UInt8 := 0xFD
/-- `MAVLINK_STX_MAVLINK1` (library constant; used at src/endpoint.cpp:300). -/
def stxV1 : UInt8 := 0xFE

/-- `RX_BUF_MAX_SIZE = MAVLINK_MAX_PACKET_LEN * 4` (src/endpoint.cpp:50); `MAVLINK_MAX_PACKET_LEN`
is 280 (10 header + 255 payload + 2 checksum + 13 signature). -/
def rxBufMax : Nat := 1120

/-- The part of `mavlink_msg_entry_t` (library) the router reads: src/endpoint.cpp:416-432, 666, 704-708.
`maxMsgLen` and the offsets are `uint8_t` in C; any natural number is allowed here. -/
structure MsgEntry where
  msgid : Nat
  crcExtra : UInt8
  maxMsgLen : Nat
  hasTargetSys : Bool
  hasTargetComp : Bool
  targetSysOfs : Nat
  targetCompOfs : Nat
deriving DecidableEq, Repr

/-- `mavlink_get_msg_entry` (library; called at src/endpoint.cpp:392): an arbitrary partial function. -/
abbrev MsgTable := Nat → Option MsgEntry

/-- `struct buffer` with its `curr` member (src/comm.h).  `data` are the `len` bytes at `data`;
`payloadOfs` is `payload - data` (`none` for the null pointer used by generated messages). -/
structure Msg where
  data : List UInt8
  msgId : Nat
  targetSys : Int
  targetComp : Int
  srcSys : UInt8
  srcComp : UInt8
  payloadLen : UInt8
  payloadOfs : Option Nat
deriving DecidableEq, Repr

/-- `_stat.read` (src/endpoint.h:261-269). -/
structure RxStat where
  crcErrorBytes : UInt64 := 0
  handledBytes : UInt64 := 0
  total : UInt32 := 0
  crcError : UInt32 := 0
  handled : UInt32 := 0
  dropSeq : UInt32 := 0
  expectedSeq : UInt8 := 0
deriving DecidableEq, Repr

/-- Receive state of an endpoint: `rx_buf` (first `rx_buf.len` bytes), `_last_packet_len`, `_stat.read`
(src/endpoint.h:239, 254, 261-269). -/
structure Rx where
  buf : List UInt8 := []
  lastLen : Nat := 0
  stat : RxStat := {}
deriving DecidableEq, Repr

/-- Result of the virtual `_read_msg` (kernel read): some bytes, or a return value `r <= 0`. -/
inductive SysRead where
  | got (bs : List UInt8)
  | fail (r : Int)
deriving DecidableEq, Repr

/-- Result of `read_msg` (src/endpoint.cpp:254-459): `stop r` is a return value `r <= 0`; `msg m known`
is `ReadOk` (`known`) or `ReadUnkownMsg` with `*pbuf` filled in. -/
inductive ReadOut where
  | stop (r : Int)
  | msg (m : Msg) (known : Bool)
deriving DecidableEq, Repr

/-- Locals filled from the two header structs (src/endpoint.cpp:342-379, src/endpoint.h:110-136). -/
structure Hdr where
  hdrLen : Nat
  payloadLen : UInt8
  seq : UInt8
  sysid : UInt8
  compid : UInt8
  msgid : Nat
  size : Nat
deriving DecidableEq, Repr

/-- src/endpoint.cpp:299-300, 313-317: is the byte a start marker. -/
def isStx (b : UInt8) : Bool := b == stxV2 || b == stxV1

/-- src/endpoint.cpp:299-337: drop everything before the first start marker.  With no marker the result
is empty (`rx_buf.len = 0; return 0`, 326-329). When the buffer is empty (`rx_buf.len == 0` after 281) the
code looks at the stale byte `rx_buf.data[0]`; both branches then return 0 with `rx_buf.len == 0`
(345-347 / 326-329), as does this model; the array-level model keeps the stale byte. -/
def resync (b : List UInt8) : List UInt8 := b.dropWhile (fun x => !isStx x)

/-- src/endpoint.cpp:339-379: header decoding and `expected_size`; `none` when the header is
incomplete (`return 0` at 346 / 366). -/
def decodeHdr (b : List UInt8) : Option Hdr :=
  if b.getD 0 0 = stxV2 then
    if b.length < 10 then none
    else some {
      hdrLen := 10
      payloadLen := b.getD 1 0
      seq := b.getD 4 0
      sysid := b.getD 5 0
      compid := b.getD 6 0
      msgid := (b.getD 7 0).toNat + 256 * (b.getD 8 0).toNat + 65536 * (b.getD 9 0).toNat
      size := 10 + (b.getD 1 0).toNat + 2 + (if b.getD 2 0 &&& 0x01 ≠ 0 then 13 else 0) }
  else
    if b.length < 6 then none
    else some {
      hdrLen := 6
      payloadLen := b.getD 1 0
      seq := b.getD 2 0
      sysid := b.getD 3 0
      compid := b.getD 4 0
      msgid := (b.getD 5 0).toNat
      size := 6 + (b.getD 1 0).toNat + 2 }

/-- `Endpoint::_check_crc` (src/endpoint.cpp:646-668). -/
def checkCrc (e : MsgEntry) (b : List UInt8) : Bool :=
  let hdrLen := if b.getD 0 0 = stxV2 then 10 else 6
  let plen := (b.getD 1 0).toNat
  let crcMsg : UInt16 :=
    (b.getD (hdrLen + plen) 0).toUInt16 ||| ((b.getD (hdrLen + plen + 1) 0).toUInt16 <<< 8)
  let crcCalc := crcAccumulate e.crcExtra (crcCalculate ((b.drop 1).take (hdrLen + plen - 1)))
  crcCalc == crcMsg

/-- src/endpoint.cpp:437-453: sequence accounting. -/
def seqUpdate (s : RxStat) (seq : UInt8) : RxStat :=
  let s :=
    if s.expectedSeq ≠ seq then
      let s :=
        if s.total > 1 then
          let diff : UInt8 :=
            if seq > s.expectedSeq then seq - s.expectedSeq
            else (255 - s.expectedSeq) + seq
          { s with dropSeq := s.dropSeq + diff.toUInt32, total := s.total + diff.toUInt32 }
        else s
      { s with expectedSeq := seq }
    else s
  { s with expectedSeq := s.expectedSeq + 1 }

/-- src/endpoint.cpp:416-423 and 424-431: one target field; `-1` when the message has none, 0 when the
field was trimmed off. -/
def targetField (present : Bool) (ofs : Nat) (b : List UInt8) (hdrLen : Nat) (plen : UInt8) : Int :=
  if present then
    if ofs < plen.toNat then ((b.getD (hdrLen + ofs) 0).toNat : Int) else 0
  else -1

/-- src/endpoint.cpp:386-458: a complete packet of `h.size` bytes is at the start of the buffer. -/
def finishPacket (tbl : MsgTable) (b : List UInt8) (stat : RxStat) (h : Hdr) : Rx × ReadOut :=
  let stat := { stat with total := stat.total + 1 }
  let entry := tbl h.msgid
  let crcOk := match entry with
    | some e => checkCrc e b
    | none => true
  if !crcOk then
    ({ buf := b, lastLen := h.size,
       stat := { stat with crcError := stat.crcError + 1,
                           crcErrorBytes := stat.crcErrorBytes + UInt64.ofNat h.size } },
     .stop 0)
  else
    let stat := { stat with handled := stat.handled + 1,
                            handledBytes := stat.handledBytes + UInt64.ofNat h.size }
    let tsys := match entry with
      | some e => targetField e.hasTargetSys e.targetSysOfs b h.hdrLen h.payloadLen
      | none => -1
    let tcomp := match entry with
      | some e => targetField e.hasTargetComp e.targetCompOfs b h.hdrLen h.payloadLen
      | none => -1
    let mid := match entry with
      | some e => e.msgid
      | none => h.msgid
    let m : Msg := {
      data := b.take h.size, msgId := mid, targetSys := tsys, targetComp := tcomp,
      srcSys := h.sysid, srcComp := h.compid, payloadLen := h.payloadLen, payloadOfs := some h.hdrLen }
    ({ buf := b, lastLen := h.size, stat := seqUpdate stat h.seq }, .msg m entry.isSome)

/-- src/endpoint.cpp:299-458: everything after the bytes are in the buffer (`_last_packet_len == 0`). -/
def parseBuf (tbl : MsgTable) (buf : List UInt8) (stat : RxStat) : Rx × ReadOut :=
  let b := resync buf
  match decodeHdr b with
  | none => ({ buf := b, lastLen := 0, stat := stat }, .stop 0)
  | some h =>
    if b.length < h.size then ({ buf := b, lastLen := 0, stat := stat }, .stop 0)
    else finishPacket tbl b stat h

/-- `Endpoint::read_msg` (src/endpoint.cpp:254-459).  `fdOpen` is `fd >= 0`; `io` is what the kernel
returns if the code reads.  A read never returns more than the space offered (for a datagram the excess is
discarded by the kernel), hence `take`. -/
def readMsg (tbl : MsgTable) (fdOpen : Bool) (rx : Rx) (io : SysRead) : Rx × ReadOut :=
  if !fdOpen then (rx, .stop (-22))  -- -EINVAL, 263-266
  else if rx.lastLen ≠ 0 then        -- 268-287
    parseBuf tbl (rx.buf.drop rx.lastLen) rx.stat
  else                               -- 289-297
    match io with
    | .fail r => (rx, .stop r)
    | .got bs =>
      match bs.take (rxBufMax - rx.buf.length) with
      | [] => (rx, .stop 0)
      | c :: cs => parseBuf tbl (rx.buf ++ (c :: cs)) rx.stat

/-- The loop of `Endpoint::handle_read` (src/endpoint.cpp:225-229), collecting the messages handed to the
de-duplication/filter/routing code. `fuel` bounds the number of `read_msg` calls; `handleReadRx` passes
enough (theorem `drain_fuel`). -/
def drain (tbl : MsgTable) (fdOpen : Bool) : Nat → Rx → SysRead → Rx × List (Msg × Bool) × Int
  | 0, rx, _ => (rx, [], 0)
  | n + 1, rx, io =>
    match readMsg tbl fdOpen rx io with
    | (rx', .stop r) => (rx', [], r)
    | (rx', .msg m k) =>
      let (rx'', ms, r) := drain tbl fdOpen n rx' io
      (rx'', (m, k) :: ms, r)

/-- `Endpoint::handle_read` (src/endpoint.cpp:220-252) seen from the receive buffer only. -/
def handleReadRx (tbl : MsgTable) (rx : Rx) (io : SysRead) : Rx × List (Msg × Bool) × Int :=
  drain tbl true (rxBufMax + 1) rx io

/-- The main loop calls `handle_read` once per readable event of the endpoint (src/mainloop.cpp:277-278);
`ios` is what the kernel would return in each event. Result: final receive state and all messages handed to
the de-duplication/filter/routing code, in order. -/
def runRx (tbl : MsgTable) : Rx → List SysRead → Rx × List (Msg × Bool)
  | rx, [] => (rx, [])
  | rx, io :: ios =>
    let r := handleReadRx tbl rx io
    let q := runRx tbl r.1 ios
    (q.1, r.2.1 ++ q.2)

end Verif
