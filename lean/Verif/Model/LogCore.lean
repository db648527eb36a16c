/-
Common part of the log endpoints (/repo/src/logendpoint.cpp, /repo/src/logendpoint.h): the open
file, start and stop, the automatic start/stop decision, and the messages log endpoints generate.
The log directory itself (names, deletion) is in Verif.Model.LogDir; here creating a file either
succeeds or fails as the environment says.
-/
import Verif.Model.Rx

namespace Verif

/-- `enum class LogMode` (logendpoint.h:32-37). -/
inductive LogMode where
  | always
  | whileArmed
  | disabled
deriving DecidableEq, Repr

/-- Result of `write()` as the kernel decides it: up to `n` bytes written, `EAGAIN`, another
error (ulog.cpp:317, 341; binlog.cpp:204; tlog.cpp:74-75). -/
inductive FileRes where
  | n (k : Nat)
  | again
  | err
deriving DecidableEq, Repr

/-- Messages generated by log endpoints: ULog start/stop commands and acknowledgements
(ulog.cpp:42-56, 84-90, 153-163), BinLog block status messages (binlog.cpp:30-46, 71-83,
151-192). -/
inductive LogOut where
  | cmdStart
  | cmdStop
  | ulogAck (seq : UInt16)
  | blockStart
  | blockStop
  | blockAck (seqno : UInt32)
  | blockNack (seqno : UInt32)
deriving DecidableEq, Repr

/-- What the system decides for a log endpoint: result of the n-th `LogEndpoint::start`, of the
n-th `write`; the bytes found in memory after a frame (or after a local copy of a message);
whether timers can be created for the liveness check; how often a spinning loop is followed; the
message table; the library's encoding of generated messages. -/
structure LogEnv where
  startOk : Nat → Bool
  wr : Nat → FileRes
  stale : Nat → UInt8
  aliveOk : Bool
  fuel : Nat
  tbl : MsgTable
  encode : LogOut → List UInt8

/-- The members of `LogEndpoint` (logendpoint.h:72-83) and of the statistics the liveness check
uses.  `target` is `_target_system_id` (`none` for -1), `file` the content of the open file
(`none` for `_file == -1`), `done` the contents of the files closed so far, `startTimer` and
`aliveTimer` say whether `_timeout.logging_start`/`alive` exist, `out` the messages sent. -/
structure LogBase where
  target : Option UInt8
  mode : LogMode
  file : Option (List UInt8) := none
  done : List (List UInt8) := []
  startTimer : Bool := false
  aliveTimer : Bool := false
  wrTotal : UInt32 := 0
  toTotal : UInt32 := 0
  nstart : Nat := 0
  nwrite : Nat := 0
  out : List LogOut := []
deriving DecidableEq, Repr

/-- `_send_msg` (logendpoint.cpp:83-103), recorded. -/
def LogBase.send (b : LogBase) (o : LogOut) : LogBase := { b with out := b.out ++ [o] }

/-- Outcome of `write()` seen by the caller: bytes written, `EAGAIN`, other error. -/
inductive WOut where
  | wrote (k : Nat)
  | again
  | err
deriving DecidableEq, Repr

/-- Appending `write()` on `_file`; on the descriptor -1 it fails with `EBADF`
(ulog.cpp:317, 341; tlog.cpp:74-75). -/
def LogBase.write (env : LogEnv) (b : LogBase) (bs : List UInt8) : LogBase × WOut :=
  match b.file with
  | none => (b, .err)
  | some c =>
    match env.wr b.nwrite with
    | .n k => ({ b with file := some (c ++ bs.take k), nwrite := b.nwrite + 1 }, .wrote (min k bs.length))
    | .again => ({ b with nwrite := b.nwrite + 1 }, .again)
    | .err => ({ b with nwrite := b.nwrite + 1 }, .err)

/-- `LogEndpoint::start` (logendpoint.cpp:388-433). -/
def LogBase.start (env : LogEnv) (b : LogBase) : LogBase × Bool :=
  if b.file.isSome then (b, false)
  else if env.startOk b.nstart then
    ({ b with file := some [], startTimer := true, nstart := b.nstart + 1 }, true)
  else ({ b with startTimer := false, nstart := b.nstart + 1 }, false)

/-- `LogEndpoint::stop` (logendpoint.cpp:357-386). -/
def LogBase.stop (b : LogBase) : LogBase :=
  { b with file := none, startTimer := false, aliveTimer := false
           done := match b.file with | some c => b.done ++ [c] | none => b.done }

/-- Frame header length: start of the payload in the frame (endpoint.h:110-136). -/
def Msg.hdrLen (m : Msg) : Nat := if m.data.head? = some 0xFD then 10 else 6

/-- A byte at offset `k` of `curr.payload`, read without regard to the payload length: after the
payload come the checksum and whatever follows in memory
(logendpoint.cpp:501, autolog.cpp:43, ulog.cpp:149, binlog.cpp:126). -/
def Msg.rawByte (env : LogEnv) (m : Msg) (k : Nat) : UInt8 :=
  match m.data[m.hdrLen + k]? with
  | some b => b
  | none => env.stale (m.hdrLen + k)

/-- "set the expected system id to the first autopilot that we get a heartbeat from"
(ulog.cpp:108-112, binlog.cpp:91-95, tlog.cpp:61-65, autolog.cpp:31-35). -/
def LogBase.learnTarget (b : LogBase) (m : Msg) : LogBase :=
  if b.target = none ∧ m.msgId = 0 ∧ m.srcComp = 1 then { b with target := some m.srcSys } else b

/-- What `_handle_auto_start_stop` decides. -/
inductive AutoAct where
  | nothing
  | start
  | stop
deriving DecidableEq, Repr

/-- `MAV_MODE_FLAG_SAFETY_ARMED` in `base_mode`, byte 6 of a heartbeat
(logendpoint.cpp:501-503). -/
def Msg.armed (env : LogEnv) (m : Msg) : Bool := m.rawByte env 6 &&& 128 != 0

/-- `LogEndpoint::_handle_auto_start_stop` (logendpoint.cpp:480-514), the decision; if the start
then fails the mode becomes `disabled` (489-491, 506-508). -/
def LogBase.autoAct (env : LogEnv) (b : LogBase) (m : Msg) : AutoAct :=
  if b.target = none then .nothing
  else
    match b.mode with
    | .always => if b.file = none then .start else .nothing
    | .whileArmed =>
      if m.msgId = 0 ∧ b.target = some m.srcSys ∧ m.srcComp = 1 then
        if b.file = none ∧ m.armed env then .start
        else if b.file ≠ none ∧ ¬m.armed env then .stop
        else .nothing
      else .nothing
    | .disabled => .nothing

/-- A generated message as routed by `_send_msg` (logendpoint.cpp:83-103): source 2/0, target
system the logged system (`-1` while unknown), target component 0. -/
def LogOut.toMsg (env : LogEnv) (target : Option UInt8) (o : LogOut) : Msg :=
  { data := env.encode o
    msgId := match o with
      | .cmdStart => 76
      | .cmdStop => 76
      | .ulogAck _ => 268
      | .blockStart => 185
      | .blockStop => 185
      | .blockAck _ => 185
      | .blockNack _ => 185
    targetSys := match target with | some t => t.toNat | none => -1
    targetComp := 0
    srcSys := 2
    srcComp := 0
    payloadLen := 0
    payloadOfs := none }

/-- `get_trimmed_zeros` (endpoint.cpp:693-709): number of zero bytes cut off a MAVLink 2
payload. -/
def Msg.trimmed (maxLen : Nat) (m : Msg) : Nat :=
  if m.data.head? = some 0xFD then maxLen - m.payloadLen.toNat else 0

end Verif
