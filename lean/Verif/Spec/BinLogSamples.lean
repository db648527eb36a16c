/- Concrete data used in the `example`s and counterexamples about BinLog, TLog and AutoLog. -/
import Verif.Spec.BinLog
import Verif.Spec.ULogSamples

namespace Verif.Sample

open Verif.Spec

def binTbl : MsgTable := fun id =>
  if id = 184 then
    some { msgid := 184, crcExtra := 159, maxMsgLen := 206, hasTargetSys := true, hasTargetComp := true,
           targetSysOfs := 4, targetCompOfs := 5 }
  else ulogTbl id

def binEnv : LogEnv := { logEnv with tbl := binTbl }

theorem binEnv_writes : WritesBlocks binEnv := fun _ => ⟨4096, rfl, by decide⟩

/-- A REMOTE_LOG_DATA_BLOCK with block number `n` whose data are `d` followed by zeros (which
MAVLink 2 does not transmit). -/
def binMsg (n : UInt8) (d : List UInt8) : Msg :=
  { data := [0xFD, UInt8.ofNat (6 + d.length), 0, 0, 0, 1, 1, 184, 0, 0] ++ [n, 0, 0, 0, 2, 0] ++ d ++ [0x34, 0x12]
    msgId := 184, targetSys := 2, targetComp := 0, srcSys := 1, srcComp := 1
    payloadLen := UInt8.ofNat (6 + d.length), payloadOfs := some 10 }

/-- A heartbeat of component `comp` of system `sys`: autopilot `ap`, base mode `bm`. -/
def logHb (sys comp ap bm : UInt8) : Msg :=
  { data := [0xFD, 9, 0, 0, 0, sys, comp, 0, 0, 0] ++ [0, 0, 0, 0, 2, ap, bm, 4, 3] ++ [0x34, 0x12]
    msgId := 0, targetSys := -1, targetComp := -1, srcSys := sys, srcComp := comp, payloadLen := 9
    payloadOfs := some 10 }

/-- Start of a log by a heartbeat, then block 0 and three more blocks, one of them twice. -/
def binHist : List ULogEv :=
  [.msg (logHb 1 1 3 128), .msg (binMsg 0 [1, 2]), .msg (binMsg 2 [7]), .msg (binMsg 1 [5, 5]),
   .msg (binMsg 2 [8, 9])]

end Verif.Sample
