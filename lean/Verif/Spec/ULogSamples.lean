/- Concrete data used in the `example`s and counterexamples about ULog. -/
import Verif.Spec.ULog
import Verif.Spec.Samples

namespace Verif.Sample

open Verif.Spec

def ulogTbl : MsgTable := fun id =>
  if id = 266 ∨ id = 267 then
    some { msgid := id, crcExtra := 193, maxMsgLen := 255, hasTargetSys := true, hasTargetComp := true,
           targetSysOfs := 2, targetCompOfs := 3 }
  else if id = 77 then
    some { msgid := 77, crcExtra := 143, maxMsgLen := 10, hasTargetSys := true, hasTargetComp := true,
           targetSysOfs := 8, targetCompOfs := 9 }
  else tbl id

/-- Files can be created, every write is carried out. -/
def logEnv : LogEnv :=
  { startOk := fun _ => true, wr := fun _ => .n 4096, stale := fun _ => 0xAA, aliveOk := true, fuel := 10
    tbl := ulogTbl, encode := fun _ => [0xFD] }

theorem logEnv_writesAll : WritesAll logEnv := fun _ => ⟨4096, rfl, by decide⟩

/-- The same with writes of one byte at a time. -/
def slowEnv : LogEnv := { logEnv with wr := fun _ => .n 1 }

/-- The same with a file that never takes anything. -/
def stuckEnv : LogEnv := { logEnv with wr := fun _ => .again }

/-- A data packet. -/
def pkt (seq : UInt16) (first : UInt8) (data : List UInt8) : Pkt :=
  { seq, length := UInt8.ofNat data.length, first, mem := data ++ List.replicate (520 - data.length) 0 }

theorem pkt_mem (seq : UInt16) (first : UInt8) (data : List UInt8) : 520 ≤ (pkt seq first data).mem.length := by
  unfold pkt
  rw [List.length_append, List.length_replicate]
  omega

def ulogHdrBytes : List UInt8 := [0x55, 0x4C, 0x6F, 0x67, 0x01, 0x12, 0x35, 1, 2, 3, 4, 5, 6, 7, 8, 9]

def ulogMsgA : List UInt8 := [2, 0, 0x41, 7, 8]
def ulogMsgB : List UInt8 := [0, 0, 0x42]

/-- A ULog endpoint logging system 1 that has just opened its file. -/
def ulogStarted : ULog := { base := { target := some 1, mode := .always, file := some [], startTimer := true } }

theorem ulogStarted_started : Started ulogStarted := ⟨rfl, rfl, rfl, rfl, rfl, rfl, rfl⟩

/-- The stream cut into three packets. -/
def ulogChunks : List (List UInt8) :=
  [ulogHdrBytes ++ [2, 0], [0x41, 7, 8, 0, 0], [0x42, 2]]

theorem ulogCut : Cut ulogHdrBytes [ulogMsgA, ulogMsgB, ulogMsgA] ulogChunks where
  hdrLen := rfl
  magic := rfl
  whole := by
    intro m hm
    simp only [List.mem_cons, List.not_mem_nil, or_false] at hm
    rcases hm with rfl | rfl | rfl
    · exact ⟨⟨2, 0, 0x41, [7, 8], rfl, rfl⟩, by decide⟩
    · exact ⟨⟨0, 0, 0x42, [], rfl, rfl⟩, by decide⟩
    · exact ⟨⟨2, 0, 0x41, [7, 8], rfl, rfl⟩, by decide⟩
  stream := ⟨[0, 0x41, 7, 8], rfl⟩
  short := by decide
  head := by
    intro c hc
    simp [ulogChunks] at hc
    subst hc
    decide

/-- The packets, the second one received twice. -/
def ulogArrivals : List Pkt :=
  [pkt 0 0 (ulogHdrBytes ++ [2, 0]), pkt 1 3 [0x41, 7, 8, 0, 0], pkt 1 3 [0x41, 7, 8, 0, 0], pkt 2 1 [0x42, 2]]

theorem ulogArrivals_ok : Arrivals ulogChunks 0 ulogArrivals 3 :=
  .next (chunk := ulogHdrBytes ++ [2, 0]) rfl ⟨rfl, rfl, rfl, pkt_mem _ _ _⟩
    (.next (chunk := [0x41, 7, 8, 0, 0]) rfl ⟨rfl, rfl, rfl, pkt_mem _ _ _⟩
      (.again (j := 1) (by decide) (by decide) rfl
        (.next (chunk := [0x42, 2]) rfl ⟨rfl, rfl, rfl, pkt_mem _ _ _⟩ (.nil 3))))

/-- A LOGGING_DATA message carrying packet data `d` (MAVLink 2, nothing trimmed). -/
def ulogMsg (seq : UInt8) (length first : UInt8) (d : List UInt8) : Msg :=
  let payload := [seq, 0, 0, 0, length, first] ++ d ++ List.replicate (249 - d.length) 1
  { data := [0xFD, 255, 0, 0, 0, 1, 1, 10, 1, 0] ++ payload ++ [0x34, 0x12]
    msgId := 266, targetSys := 0, targetComp := 0, srcSys := 1, srcComp := 1, payloadLen := 255
    payloadOfs := some 10 }

end Verif.Sample
