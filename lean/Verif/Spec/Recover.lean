import Verif.Spec.Routing
import Verif.Spec.Stream

/-
Specification of recovery after a disturbance (C118): the stream is `g`, any bytes at all (what is left of what was sent before
and during the disturbance), followed by the frames sent afterwards.
-/

namespace Verif.Spec

/-- The bytes of a list of frames on the wire. -/
def wire (fs : List Frame) : List UInt8 := fs.flatMap Frame.encode

/-- No byte behind the start marker looks like a start marker. -/
def Frame.PlainInside (f : Frame) : Prop := ∀ b ∈ f.encode.tail, b ≠ 0xFD ∧ b ≠ 0xFE

/-- The longest possible frame is 280 bytes long; frames that begin further behind the disturbance than that cannot be
touched by a frame cut short. `Near fs i` – frame `i` begins among the first 280 bytes. -/
def Near (fs : List Frame) (i : Nat) : Prop := (wire (fs.take i)).length < 280

/-- What the kernel answered to the reads on endpoint `i` while its descriptor was open (`o`: open at first). -/
def openReads (i : Nat) : Bool → List RouterEv → List SysRead
  | _, [] => []
  | o, .read j io :: evs => if j = i ∧ o = true then io :: openReads i o evs else openReads i o evs
  | o, .fd j o' :: evs => openReads i (if j = i then o' else o) evs
  | o, .accept :: evs => openReads i o evs
  | o, .hangups _ :: evs => openReads i o evs
  | o, .logCall _ _ :: evs => openReads i o evs
  | o, .aggregate :: evs => openReads i o evs

end Verif.Spec
