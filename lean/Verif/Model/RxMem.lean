import Verif.Model.Rx

/-
`Endpoint::read_msg` (src/endpoint.cpp:254-459) and `_check_crc` (646-668) again, on the allocated array
`rx_buf.data` (malloc of `RX_BUF_MAX_SIZE` bytes, src/endpoint.cpp:195-206) with every load, store and memmove
bounds-checked.  Cells start uninitialised (`none`).  The result `none` is undefined behaviour: an access
outside the array, a load of an uninitialised cell, or an unsigned underflow of `rx_buf.len`.
-/

namespace Verif.RxMem

open Verif

abbrev Cells := List (Option UInt8)

/-- `rx_buf` with its array, `_last_packet_len`, `_stat.read` (src/endpoint.h:239, 254, 261-269). -/
structure RxM where
  cells : Cells
  len : Nat
  lastLen : Nat
  stat : RxStat
deriving DecidableEq, Repr

/-- src/endpoint.cpp:195-206: a new endpoint's buffer. -/
def fresh : RxM := { cells := List.replicate rxBufMax none, len := 0, lastLen := 0, stat := {} }

/-- A byte load `rx_buf.data[i]`. -/
def ld (m : Cells) (i : Nat) : Option UInt8 := (m[i]?).join

/-- Loading `n` bytes from index `i` (argument of `crc_calculate`, src/endpoint.cpp:665; the bytes handed to
other endpoints, 455-456). -/
def ldRange (m : Cells) (i n : Nat) : Option (List UInt8) :=
  if i + n ≤ m.length then ((m.drop i).take n).mapM id else none

/-- `memmove(rx_buf.data, rx_buf.data + src, n)` (src/endpoint.cpp:283, 336). -/
def move0 (m : Cells) (src n : Nat) : Option Cells :=
  if src + n ≤ m.length then some ((m.drop src).take n ++ m.drop n) else none

/-- The kernel stores `bs` at index `pos` (src/endpoint.cpp:290). -/
def store (m : Cells) (pos : Nat) (bs : List UInt8) : Option Cells :=
  if pos + bs.length ≤ m.length then some (m.take pos ++ bs.map some ++ m.drop (pos + bs.length)) else none

/-- Unsigned subtraction on `rx_buf.len`; wrapping is reported as undefined behaviour. -/
def subLen (a b : Nat) : Option Nat := if b ≤ a then some (a - b) else none

/-- src/endpoint.cpp:312-323: search for a start marker from index `i`, `n` indices left. -/
def findStx (m : Cells) : Nat → Nat → Option (Option (Nat × Bool))
  | 0, _ => some none
  | n + 1, i => do
    let b ← ld m i
    if b = stxV2 then return some (i, true)
    else if b = stxV1 then return some (i, false)
    else findStx m n (i + 1)

/-- src/endpoint.cpp:299-337: result is the array, the length and whether the packet is MAVLink 2; or
nothing left (`rx_buf.len = 0; return 0`). -/
def resyncM (m : Cells) (len : Nat) : Option (Cells × Nat × Option Bool) := do
  let b ← ld m 0
  if b = stxV2 then return (m, len, some true)
  else if b = stxV1 then return (m, len, some false)
  else
    match ← findStx m (len - 1) 1 with
    | none => return (m, 0, none)
    | some (pos, v2) =>
      let len' ← subLen len pos
      let m' ← move0 m pos len'
      return (m', len', some v2)

/-- src/endpoint.cpp:342-379. -/
def decodeM (m : Cells) (len : Nat) (v2 : Bool) : Option (Option Hdr) :=
  if v2 then
    if len < 10 then some none
    else do
      let pl ← ld m 1
      let inc ← ld m 2
      let seq ← ld m 4
      let sys ← ld m 5
      let comp ← ld m 6
      let m0 ← ld m 7
      let m1 ← ld m 8
      let m2 ← ld m 9
      return some { hdrLen := 10, payloadLen := pl, seq := seq, sysid := sys, compid := comp,
                    msgid := m0.toNat + 256 * m1.toNat + 65536 * m2.toNat,
                    size := 10 + pl.toNat + 2 + (if inc &&& 0x01 ≠ 0 then 13 else 0) }
  else
    if len < 6 then some none
    else do
      let pl ← ld m 1
      let seq ← ld m 2
      let sys ← ld m 3
      let comp ← ld m 4
      let m0 ← ld m 5
      return some { hdrLen := 6, payloadLen := pl, seq := seq, sysid := sys, compid := comp,
                    msgid := m0.toNat, size := 6 + pl.toNat + 2 }

/-- `_check_crc` (src/endpoint.cpp:646-668). -/
def checkCrcM (e : MsgEntry) (m : Cells) : Option Bool := do
  let b0 ← ld m 0
  let hdrLen := if b0 = stxV2 then 10 else 6
  let pl ← ld m 1
  let lo ← ld m (hdrLen + pl.toNat)
  let hi ← ld m (hdrLen + pl.toNat + 1)
  let body ← ldRange m 1 (hdrLen + pl.toNat - 1)
  return crcAccumulate e.crcExtra (crcCalculate body) == (lo.toUInt16 ||| (hi.toUInt16 <<< 8))

/-- src/endpoint.cpp:416-431: load of one target field. -/
def targetM (present : Bool) (ofs : Nat) (m : Cells) (hdrLen : Nat) (plen : UInt8) : Option Int :=
  if present then
    if ofs < plen.toNat then (ld m (hdrLen + ofs)).map (fun b => (b.toNat : Int)) else some 0
  else some (-1)

/-- src/endpoint.cpp:386-458. -/
def finishM (tbl : MsgTable) (m : Cells) (len : Nat) (stat : RxStat) (h : Hdr) : Option (RxM × ReadOut) :=
  let stat := { stat with total := stat.total + 1 }
  let entry := tbl h.msgid
  match entry with
  | some e => do
    let ok ← checkCrcM e m
    if !ok then
      return ({ cells := m, len := len, lastLen := h.size,
                stat := { stat with crcError := stat.crcError + 1,
                                    crcErrorBytes := stat.crcErrorBytes + UInt64.ofNat h.size } }, .stop 0)
    else
      let tsys ← targetM e.hasTargetSys e.targetSysOfs m h.hdrLen h.payloadLen
      let tcomp ← targetM e.hasTargetComp e.targetCompOfs m h.hdrLen h.payloadLen
      let data ← ldRange m 0 h.size
      let stat := { stat with handled := stat.handled + 1,
                              handledBytes := stat.handledBytes + UInt64.ofNat h.size }
      return ({ cells := m, len := len, lastLen := h.size, stat := seqUpdate stat h.seq },
        .msg { data := data, msgId := e.msgid, targetSys := tsys, targetComp := tcomp,
               srcSys := h.sysid, srcComp := h.compid, payloadLen := h.payloadLen,
               payloadOfs := some h.hdrLen } true)
  | none => do
    let data ← ldRange m 0 h.size
    let stat := { stat with handled := stat.handled + 1,
                            handledBytes := stat.handledBytes + UInt64.ofNat h.size }
    return ({ cells := m, len := len, lastLen := h.size, stat := seqUpdate stat h.seq },
      .msg { data := data, msgId := h.msgid, targetSys := -1, targetComp := -1,
             srcSys := h.sysid, srcComp := h.compid, payloadLen := h.payloadLen,
             payloadOfs := some h.hdrLen } false)

/-- src/endpoint.cpp:299-458. -/
def parseM (tbl : MsgTable) (m : Cells) (len : Nat) (stat : RxStat) : Option (RxM × ReadOut) := do
  let (m, len, v2) ← resyncM m len
  match v2 with
  | none => return ({ cells := m, len := len, lastLen := 0, stat := stat }, .stop 0)
  | some v2 =>
    match ← decodeM m len v2 with
    | none => return ({ cells := m, len := len, lastLen := 0, stat := stat }, .stop 0)
    | some h =>
      if len < h.size then return ({ cells := m, len := len, lastLen := 0, stat := stat }, .stop 0)
      else finishM tbl m len stat h

/-- src/endpoint.cpp:281-284: move the bytes left behind to the front, if there are any. -/
def shift (m : Cells) (k len : Nat) : Option Cells := if len > 0 then move0 m k len else some m

/-- `read_msg` (src/endpoint.cpp:254-459). Also reports the size of the region offered to the kernel when it
reads (290). -/
def readMsgM (tbl : MsgTable) (fdOpen : Bool) (rx : RxM) (io : SysRead) :
    Option (RxM × ReadOut × Option Nat) :=
  if !fdOpen then some (rx, .stop (-22), none)
  else if rx.lastLen ≠ 0 then do
    let len ← subLen rx.len rx.lastLen
    let m ← shift rx.cells rx.lastLen len
    let (rx', o) ← parseM tbl m len rx.stat
    return (rx', o, none)
  else do
    let free ← subLen rxBufMax rx.len
    match io with
    | .fail r => return (rx, .stop r, some free)
    | .got bs =>
      match bs.take free with
      | [] => return (rx, .stop 0, some free)
      | c :: cs =>
        let m ← store rx.cells rx.len (c :: cs)
        let (rx', o) ← parseM tbl m (rx.len + (c :: cs).length) rx.stat
        return (rx', o, some free)

/-- The loop of `handle_read` (src/endpoint.cpp:225-229) on the array; also collects the sizes offered to the
kernel. -/
def drainM (tbl : MsgTable) : Nat → RxM → SysRead → Option (RxM × List (Msg × Bool) × Int × List Nat)
  | 0, rx, _ => some (rx, [], 0, [])
  | n + 1, rx, io => do
    match ← readMsgM tbl true rx io with
    | (rx', .stop r, f) => return (rx', [], r, f.toList)
    | (rx', .msg m k, f) =>
      let (rx'', ms, r, fs) ← drainM tbl n rx' io
      return (rx'', (m, k) :: ms, r, f.toList ++ fs)

/-- One `handle_read` call per readable event (src/mainloop.cpp:277-278). -/
def runM (tbl : MsgTable) : RxM → List SysRead → Option (RxM × List (Msg × Bool) × List Nat)
  | rx, [] => some (rx, [], [])
  | rx, io :: ios => do
    let (rx', ms, _, fs) ← drainM tbl (rxBufMax + 1) rx io
    let (rx'', ms', fs') ← runM tbl rx' ios
    return (rx'', ms ++ ms', fs ++ fs')

end Verif.RxMem
