/-
What a user relies on about ArduPilot logs, independent of how the log endpoint works.
-/
import Verif.Model.BinLog
import Verif.Spec.Payload

namespace Verif.Spec

/-- Number of blocks whose place can be expressed in the 32 bits the program computes it with. -/
def blockLimit : Nat := 21474837

example : 200 * (blockLimit - 1) < 2 ^ 32 ∧ ¬ 200 * blockLimit < 2 ^ 32 := by decide

/-- A write that reached the file: block number and the leading bytes of the block that were
written (all 200 for a complete write). -/
structure BlockWrite where
  seqno : UInt32
  bytes : List UInt8
deriving DecidableEq, Repr

/-- Where the file ends: after the highest byte written. -/
def binSize : List BlockWrite → Nat
  | [] => 0
  | w :: ws => if w.bytes = [] then binSize ws else max (200 * w.seqno.toNat + w.bytes.length) (binSize ws)

/-- The byte at position `i`: byte `i % 200` of block `i / 200` as last written, zero if never
written. -/
def binByte (ws : List BlockWrite) (i : Nat) : UInt8 :=
  match ws.reverse.find? (fun w => w.seqno.toNat = i / 200 ∧ i % 200 < w.bytes.length) with
  | some w => w.bytes.getD (i % 200) 0
  | none => 0

/-- The content of a log file after the writes `ws`. -/
def BinFile (ws : List BlockWrite) (c : List UInt8) : Prop :=
  ∀ i, c[i]? = if i < binSize ws then some (binByte ws i) else none

/-- The data last written for a block number. -/
def lastData (ws : List BlockWrite) (n : Nat) : Option (List UInt8) :=
  (ws.reverse.find? (fun w => w.seqno.toNat = n)).map (·.bytes)

/-- `ws` are writes of (some of) the blocks `ps`, in their order, each write a leading part of the
block. -/
inductive WritesOf : List Block → List BlockWrite → Prop where
  | nil : WritesOf [] []
  | skip {p ps ws} : WritesOf ps ws → WritesOf (p :: ps) ws
  | wrote {p ps ws} (k : Nat) : WritesOf ps ws → WritesOf (p :: ps) (⟨p.seqno, p.data.take k⟩ :: ws)

/-- Byte `k` of the payload of a message, zero where MAVLink 2 trimmed it. -/
def payloadByte (m : Msg) (k : Nat) : UInt8 :=
  if k < m.payloadLen.toNat then m.data.getD (headerLen m + k) 0 else 0

/-- A message that carries a log block: a REMOTE_LOG_DATA_BLOCK whose payload is present up to
trailing zeros (MAVLink 2) or completely (MAVLink 1). -/
structure BlockMsg (m : Msg) : Prop where
  id : m.msgId = 184
  present : headerLen m + m.payloadLen.toNat ≤ m.data.length
  whole : m.data.head? = some 0xFD ∨ 206 ≤ m.payloadLen.toNat

/-- The block it carries. -/
def blockIn (m : Msg) : Block :=
  { seqno := UInt32.ofNat ((payloadByte m 0).toNat + 256 * (payloadByte m 1).toNat +
      65536 * (payloadByte m 2).toNat + 16777216 * (payloadByte m 3).toNat)
    data := (List.range 200).map fun j => payloadByte m (6 + j) }

/-- The block numbers acknowledged in a list of outgoing messages, in order. -/
def acks (out : List LogOut) : List UInt32 :=
  out.filterMap fun o => match o with | .blockAck n => some n | _ => none

/-- The negative acknowledgements. -/
def nacks (out : List LogOut) : List UInt32 :=
  out.filterMap fun o => match o with | .blockNack n => some n | _ => none

/-- The block numbers strictly between the last acknowledged and the received one. -/
def skipped (last seqno : UInt32) : List UInt32 :=
  (List.range' (last.toNat + 1) (seqno.toNat - (last.toNat + 1))).map UInt32.ofNat

/-- The blocks brought by a history of events. -/
def received (evs : List ULogEv) : List Block :=
  evs.flatMap fun ev => match ev with
    | .msg m => if m.msgId = 184 then [blockIn m] else []
    | _ => []

/-- Every write on the log file is carried out completely (200 bytes). -/
def WritesBlocks (env : LogEnv) : Prop := ∀ i, ∃ k, env.wr i = .n k ∧ 200 ≤ k

end Verif.Spec
