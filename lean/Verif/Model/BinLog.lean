/-
The ArduPilot log endpoint, model of /repo/src/binlog.cpp and /repo/src/binlog.h.

`lseek` on an open regular file always succeeds (offsets are below 2^32 and `off_t` has 64 bits);
a write beyond the end of the file leaves a hole that reads as zeros.
-/
import Verif.Model.ULog

namespace Verif

/-- State of `BinLog` (binlog.h:29-50). -/
structure BinLog where
  base : LogBase
  lastAcked : UInt32 := 0
deriving DecidableEq, Repr

/-- `mavlink_remote_log_data_block_t` as the code uses it: block number and the 200 data bytes. -/
structure Block where
  seqno : UInt32
  data : List UInt8
deriving DecidableEq, Repr

/-- `MAVLINK_MSG_REMOTE_LOG_DATA_BLOCK_FIELD_DATA_LEN`. -/
def blockLen : Nat := 200

/-- File content after writing `bs` at offset `off`: a hole before it is filled with zeros, writing
nothing changes nothing (POSIX `lseek`, `write`; binlog.cpp:198, 204). -/
def writeAt (c : List UInt8) (off : Nat) (bs : List UInt8) : List UInt8 :=
  if bs = [] then c
  else c.take off ++ List.replicate (off - c.length) 0 ++ bs ++ c.drop (off + bs.length)

/-- The offset given to `lseek`: the product is computed in `uint32_t` (binlog.cpp:198). -/
def blockOffset (seqno : UInt32) : Nat := (seqno * 200).toNat

/-- `BinLog::start` (binlog.cpp:48-57). -/
def BinLog.start (env : LogEnv) (l : BinLog) : BinLog × Bool :=
  match l.base.start env with
  | (b, true) => ({ base := b, lastAcked := 0 }, true)
  | (b, false) => ({ l with base := b }, false)

/-- `BinLog::stop` (binlog.cpp:59-69). -/
def BinLog.stop (l : BinLog) : BinLog :=
  if l.base.file = none then l else { l with base := (l.base.send .blockStop).stop }

/-- `BinLog::_restart` (binlog.cpp:221-226). -/
def BinLog.restart (env : LogEnv) (l : BinLog) : BinLog := (l.stop.start env).1

/-- The loop over "unseen" block numbers (binlog.cpp:170-179): the message carries `seqno`, not
the loop variable.  The first argument bounds the number of rounds. -/
def nackFrom (seqno : UInt32) : Nat → UInt32 → List LogOut
  | 0, _ => []
  | fuel + 1, i => if i < seqno then .blockNack seqno :: nackFrom seqno fuel (i + 1) else []

/-- The loop starting at `i`; a `uint32_t` loop variable allows fewer than 2^32 rounds. -/
def nackLoop (i seqno : UInt32) : List LogOut := nackFrom seqno 4294967296 i

/-- `BinLog::_send_ack` (binlog.cpp:151-192). -/
def BinLog.sendAck (l : BinLog) (seqno : UInt32) : BinLog :=
  if seqno < l.lastAcked then { l with base := l.base.send (.blockAck seqno) }
  else
    { base := { l.base with out := l.base.out ++ nackLoop (l.lastAcked + 1) seqno ++ [.blockAck seqno] }
      lastAcked := seqno }

/-- `BinLog::_logging_data_process` (binlog.cpp:194-219). -/
def BinLog.process (env : LogEnv) (l : BinLog) (p : Block) : BinLog :=
  match l.base.file with
  | none => l.restart env
  | some c =>
    match env.wr l.base.nwrite with
    | .n k =>
      let l' := { l with base :=
        { l.base with file := some (writeAt c (blockOffset p.seqno) (p.data.take k))
                      nwrite := l.base.nwrite + 1 } }
      if min k p.data.length = blockLen then l'.sendAck p.seqno else l'
    | .again => { l with base := { l.base with nwrite := l.base.nwrite + 1 } }
    | .err => BinLog.restart env { l with base := { l.base with nwrite := l.base.nwrite + 1 } }

/-- Byte `k` of the block message: the payload in place if nothing was trimmed, else a copy filled
up with zeros (binlog.cpp:111-127). -/
def Msg.blockByte (env : LogEnv) (m : Msg) (k : Nat) : UInt8 :=
  if m.trimmed 206 = 0 then m.rawByte env k
  else if k < m.payloadLen.toNat then m.rawByte env k else 0

/-- The block a REMOTE_LOG_DATA_BLOCK message designates: number at 0 (little endian), data at 6
(binlog.cpp:111-127). -/
def Msg.block (env : LogEnv) (m : Msg) : Block :=
  { seqno := (m.blockByte env 0).toUInt32 + 256 * (m.blockByte env 1).toUInt32 +
      65536 * (m.blockByte env 2).toUInt32 + 16777216 * (m.blockByte env 3).toUInt32
    data := (List.range blockLen).map fun j => m.blockByte env (6 + j) }

/-- `_handle_auto_start_stop` for BinLog (logendpoint.cpp:480-514). -/
def BinLog.auto (env : LogEnv) (l : BinLog) (m : Msg) : BinLog :=
  match l.base.autoAct env m with
  | .nothing => l
  | .start =>
    match l.start env with
    | (l, true) => l
    | (l, false) => { l with base := { l.base with mode := .disabled } }
  | .stop => l.stop

/-- Count a handled message (binlog.cpp:145-146). -/
def BinLog.count (l : BinLog) : BinLog := { l with base := { l.base with wrTotal := l.base.wrTotal + 1 } }

/-- A block message that was recognised (binlog.cpp:129-146): until block 0 arrives every other
block is answered by a stop request. -/
def BinLog.takeBlock (env : LogEnv) (l : BinLog) (p : Block) : BinLog :=
  if l.base.startTimer then
    if p.seqno = 0 then
      BinLog.count (BinLog.process env
        { l with base := { l.base with startTimer := false, aliveTimer := env.aliveOk } } p)
    else { l with base := l.base.send .blockStop }
  else (l.process env p).count

/-- `BinLog::write_msg` (binlog.cpp:85-149). -/
def BinLog.writeMsg (env : LogEnv) (l : BinLog) (m : Msg) : BinLog :=
  let l := BinLog.auto env { l with base := l.base.learnTarget m } m
  if m.msgId ≠ 184 then l
  else if env.tbl m.msgId = none then l
  else l.takeBlock env (m.block env)

/-- `BinLog::_logging_start_timeout` (binlog.cpp:30-46), called every second while the timer
exists. -/
def BinLog.startTimeout (l : BinLog) : BinLog :=
  if l.base.startTimer then { l with base := l.base.send .blockStart } else l

/-- `LogEndpoint::_alive_timeout` for BinLog (logendpoint.cpp:435-445), called every 5 s while the
timer exists. -/
def BinLog.aliveTimeout (env : LogEnv) (l : BinLog) : BinLog :=
  if l.base.aliveTimer then
    let l := if l.base.toTotal = l.base.wrTotal then l.restart env else l
    { l with base := { l.base with toTotal := l.base.wrTotal } }
  else l

/-- One event (the events are those of ULog). -/
def BinLog.step (env : LogEnv) (l : BinLog) : ULogEv → BinLog
  | .msg m => l.writeMsg env m
  | .startTimeout => l.startTimeout
  | .aliveTimeout => l.aliveTimeout env
  | .stop => l.stop

/-- A history of events. -/
def BinLog.run (env : LogEnv) (l : BinLog) (evs : List ULogEv) : BinLog := evs.foldl (BinLog.step env) l

/-- A BinLog endpoint as constructed (binlog.h:31-34, logendpoint.cpp:61-81). -/
def BinLog.init (target : Option UInt8) (mode : LogMode) : BinLog := { base := { target, mode } }

end Verif
