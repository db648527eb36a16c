import Verif.Spec.Stream

/- Concrete data used in the `example`s beside the property theorems. -/

namespace Verif.Sample

open Verif.Spec

/-- HEARTBEAT: id 0, extra 50, no target fields. -/
def heartbeatEntry : MsgEntry :=
  { msgid := 0, crcExtra := 50, maxMsgLen := 9, hasTargetSys := false, hasTargetComp := false,
    targetSysOfs := 0, targetCompOfs := 0 }

/-- COMMAND_LONG: id 76, extra 152, target system at offset 30, component at 31. -/
def commandLongEntry : MsgEntry :=
  { msgid := 76, crcExtra := 152, maxMsgLen := 33, hasTargetSys := true, hasTargetComp := true,
    targetSysOfs := 30, targetCompOfs := 31 }

def tbl : MsgTable := fun id =>
  if id = 0 then some heartbeatEntry else if id = 76 then some commandLongEntry else none

/-- Valid MAVLink 2 heartbeat from 1/1, sequence 7. -/
def hb2 : Frame :=
  { v2 := true, seq := 7, sys := 1, comp := 1, msgid := 0, payload := [0, 0, 0, 0, 2, 3, 81, 4, 3],
    crcLo := 164, crcHi := 172 }

/-- Valid MAVLink 1 heartbeat from 1/1, sequence 7. -/
def hb1 : Frame :=
  { v2 := false, seq := 7, sys := 1, comp := 1, msgid := 0, payload := [0, 0, 0, 0, 2, 3, 81, 4, 3],
    crcLo := 250, crcHi := 173 }

/-- A heartbeat with a wrong checksum. -/
def hbBad : Frame := { hb2 with crcLo := 0 }

/-- A signed frame with an id not in the table. -/
def unk : Frame :=
  { v2 := true, incompat := 1, seq := 9, sys := 42, comp := 200, msgid := 300, payload := [0xFD, 0xFE],
    crcLo := 1, crcHi := 2, signature := [1, 2, 3, 4, 5, 6, 7, 8, 9, 10, 11, 12, 13] }

theorem hb2_wf : hb2.WF := by simp [Frame.WF, hb2]
theorem hb1_wf : hb1.WF := by simp [Frame.WF, hb1]
theorem hbBad_wf : hbBad.WF := by simp [Frame.WF, hbBad, hb2]
theorem unk_wf : unk.WF := by simp [Frame.WF, unk]

theorem hb2_crc : hb2.CrcOk tbl := by
  intro e h; have h : some heartbeatEntry = some e := h; cases h; decide
theorem hb1_crc : hb1.CrcOk tbl := by
  intro e h; have h : some heartbeatEntry = some e := h; cases h; decide
theorem unk_crc : unk.CrcOk tbl := by
  intro e h; have h : none = some e := h; cases h

end Verif.Sample
