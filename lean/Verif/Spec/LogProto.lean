/-
What a user relies on about the conversation between a flight log and the autopilot, independent of
how the log endpoints work.
-/
import Verif.Spec.Armed

namespace Verif.Spec

/-- Number of log files opened so far. -/
def opened (b : LogBase) : Nat := b.done.length + if b.file.isSome then 1 else 0

/-- A log file is open. -/
def isOpen (b : LogBase) : Prop := b.file.isSome = true

/-- The message by which an ArduPilot log stream begins: block number 0. -/
def FirstBlock (m : Msg) : Prop := m.msgId = 184 ∧ (blockIn m).seqno = 0

/-- The writes of a file begin with block 0. -/
def FirstOk (ws : List BlockWrite) : Prop := ∀ w, ws.head? = some w → w.seqno = 0

/-- The command a COMMAND_ACK answers. -/
def ackCommand (m : Msg) : Nat := (payloadByte m 0).toNat + 256 * (payloadByte m 1).toNat

/-- The message by which a PX4 log stream begins: the command to start logging (2510) was accepted
(result 0). -/
def StartAccepted (m : Msg) : Prop := m.msgId = 77 ∧ ackCommand m = 2510 ∧ payloadByte m 2 = 0

/-- A COMMAND_ACK whose command and result are transmitted, or were trimmed by MAVLink 2. -/
def AckWhole (m : Msg) : Prop := m.msgId = 77 →
  headerLen m + m.payloadLen.toNat ≤ m.data.length ∧ (m.data.head? = some 0xFD ∨ 3 ≤ m.payloadLen.toNat)

/-- A block message whose payload is present up to trailing zeros. -/
def BlockWhole (m : Msg) : Prop := m.msgId = 184 → BlockMsg m

/-- Messages that show that a PX4 log stream is alive. -/
def ULogData (m : Msg) : Prop := m.msgId = 266 ∨ m.msgId = 267

/-- Messages that answer the command to start logging. -/
def StartAnswer (m : Msg) : Prop := m.msgId = 77 ∧ ackCommand m = 2510

/-- The numbers acknowledged in a list of outgoing messages, in order. -/
def ulogAcks (out : List LogOut) : List UInt16 :=
  out.filterMap fun o => match o with | .ulogAck n => some n | _ => none

/-- The number of a LOGGING_DATA_ACKED message: the first two bytes of the payload. -/
def ulogNumber (m : Msg) : UInt16 :=
  UInt16.ofNat ((payloadByte m 0).toNat + 256 * (payloadByte m 1).toNat)

/-- The numbers of the messages that ask for an acknowledgement, in order of arrival. -/
def numbersToAck (evs : List ULogEv) : List UInt16 :=
  (messages evs).filterMap fun m => if m.msgId = 267 then some (ulogNumber m) else none

/-- The number of a message that asks for an acknowledgement is transmitted. -/
def NumberPresent (m : Msg) : Prop := m.msgId = 267 →
  2 ≤ m.payloadLen.toNat ∧ headerLen m + m.payloadLen.toNat ≤ m.data.length

end Verif.Spec
