/-
What "log while armed" means, independent of the log endpoints.
-/
import Verif.Spec.BinLog

namespace Verif.Spec

/-- A heartbeat of an autopilot (component 1). -/
def AutopilotHb (m : Msg) : Prop := m.msgId = 0 ∧ m.srcComp = 1

instance (m : Msg) : Decidable (AutopilotHb m) := inferInstanceAs (Decidable (_ ∧ _))

/-- The armed flag of a heartbeat: bit 7 of `base_mode`, byte 6 of the payload (zero if MAVLink 2
trimmed it). -/
def saysArmed (m : Msg) : Bool := 128 ≤ (payloadByte m 6).toNat

/-- The logged system, once known, and what its autopilot last said. -/
structure ArmSt where
  sys : Option UInt8
  armed : Bool := false
deriving DecidableEq, Repr

/-- Unless configured, the logged system is the one whose autopilot is heard first. -/
def ArmSt.msg (st : ArmSt) (m : Msg) : ArmSt :=
  let sys := if st.sys = none ∧ AutopilotHb m then some m.srcSys else st.sys
  if AutopilotHb m ∧ sys = some m.srcSys then ⟨sys, saysArmed m⟩ else ⟨sys, st.armed⟩

/-- After a list of messages. -/
def ArmSt.msgs (st : ArmSt) (ms : List Msg) : ArmSt := ms.foldl ArmSt.msg st

/-- The messages of a history of events. -/
def messages (evs : List ULogEv) : List Msg :=
  evs.filterMap fun ev => match ev with | .msg m => some m | _ => none

/-- A heartbeat whose `base_mode` byte is transmitted. -/
def HbWhole (m : Msg) : Prop := m.msgId = 0 → 7 ≤ m.payloadLen.toNat ∧ headerLen m + m.payloadLen.toNat ≤ m.data.length

/-- A message that carries log data for the ArduPilot or the PX4 log. -/
def LogData (m : Msg) : Prop := m.msgId = 184 ∨ m.msgId = 266 ∨ m.msgId = 267

instance (m : Msg) : Decidable (LogData m) := inferInstanceAs (Decidable (_ ∨ _ ∨ _))

/-- Log data arrive only while the logged autopilot is armed. -/
def DataWhileArmed (st : ArmSt) : List Msg → Prop
  | [] => True
  | m :: ms => (LogData m → st.armed = true) ∧ DataWhileArmed (st.msg m) ms

/-- Log files can always be created. -/
def StartsOk (env : LogEnv) : Prop := ∀ i, env.startOk i = true

end Verif.Spec
