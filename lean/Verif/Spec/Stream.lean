import Verif.Model.Rx

/-
Specification of the receive path: what a byte stream means, with no buffers, reads or chunk boundaries.
Only the message table, `Msg` as data carrier and the library checksum are shared with the model.
-/

namespace Verif.Spec

/-- Total length of the frame starting here, once its header is complete (MAVLink wire format). -/
def frameLen : List UInt8 → Option Nat
  | 0xFD :: len :: inc :: _cmp :: _seq :: _sys :: _comp :: _m0 :: _m1 :: _m2 :: _ =>
      some (12 + len.toNat + if inc.toNat % 2 = 1 then 13 else 0)
  | 0xFE :: len :: _seq :: _sys :: _comp :: _m :: _ => some (8 + len.toNat)
  | _ => none

/-- The first complete frame of a stream and what follows it; bytes before the first start marker
(0xFD, 0xFE) are noise. -/
def firstFrame (bs : List UInt8) : Option (List UInt8 × List UInt8) :=
  let q := bs.dropWhile (fun b => !(b == 0xFD || b == 0xFE))
  match frameLen q with
  | some n => if n ≤ q.length then some (q.take n, q.drop n) else none
  | none => none

/-- Header facts of a complete frame: (header length, payload length, sequence, source system, source
component, message id). -/
def frameInfo : List UInt8 → Option (Nat × UInt8 × UInt8 × UInt8 × UInt8 × Nat)
  | 0xFD :: len :: _ :: _ :: seq :: sys :: comp :: m0 :: m1 :: m2 :: _ =>
      some (10, len, seq, sys, comp, m0.toNat + 256 * m1.toNat + 65536 * m2.toNat)
  | 0xFE :: len :: seq :: sys :: comp :: m :: _ => some (6, len, seq, sys, comp, m.toNat)
  | _ => none

/-- The checksum stored in a frame equals the X.25 checksum of everything between the start marker and the
checksum, followed by the message's extra byte. -/
def crcValid (extra : UInt8) (hdrLen plen : Nat) (fr : List UInt8) : Prop :=
  ∃ body lo hi sig, fr.drop 1 = body ++ lo :: hi :: sig ∧ body.length = hdrLen - 1 + plen ∧
    ((body ++ [extra]).foldl (fun c b => crcAccumulate b c) 0xffff).toNat = lo.toNat + 256 * hi.toNat

/-- The target address named by a message: the byte at the field's offset of the payload padded with
zeros; `-1` when the message has no such field. -/
def target (present : Bool) (ofs : Nat) (payload : List UInt8) : Int :=
  if present then ((payload ++ List.replicate (ofs + 1) 0).getD ofs 0).toNat else -1

/-- `Delivers tbl fr m known`: frame `fr` must be handed to the router as message `m`. -/
structure Delivers (tbl : MsgTable) (fr : List UInt8) (m : Msg) (known : Bool) : Prop where
  bytes : m.data = fr
  info : ∃ h len seq sys comp mid, frameInfo fr = some (h, len, seq, sys, comp, mid) ∧
    m.srcSys = sys ∧ m.srcComp = comp ∧ m.payloadLen = len ∧ m.payloadOfs = some h ∧
    ((known = false ∧ tbl mid = none ∧ m.msgId = mid ∧ m.targetSys = -1 ∧ m.targetComp = -1) ∨
     (known = true ∧ ∃ e, tbl mid = some e ∧ crcValid e.crcExtra h len.toNat fr ∧ m.msgId = e.msgid ∧
       m.targetSys = target e.hasTargetSys e.targetSysOfs ((fr.drop h).take len.toNat) ∧
       m.targetComp = target e.hasTargetComp e.targetCompOfs ((fr.drop h).take len.toNat)))

/-- `Corrupt tbl fr`: the frame has a known id and a wrong checksum. -/
def Corrupt (tbl : MsgTable) (fr : List UInt8) : Prop :=
  ∃ h len seq sys comp mid e, frameInfo fr = some (h, len, seq, sys, comp, mid) ∧ tbl mid = some e ∧
    ¬ crcValid e.crcExtra h len.toNat fr

/-- A stream with leading noise removed. -/
def stripNoise (bs : List UInt8) : List UInt8 := bs.dropWhile (fun b => !(b == 0xFD || b == 0xFE))

/-- `Means tbl stream ms rest`: reading `stream` from a frame boundary yields exactly the messages `ms`,
in order, and leaves `rest`: an incomplete frame (or nothing). -/
inductive Means (tbl : MsgTable) : List UInt8 → List (Msg × Bool) → List UInt8 → Prop
  | done {bs} : firstFrame bs = none → Means tbl bs [] (stripNoise bs)
  | deliver {bs fr rest m k ms tail} : firstFrame bs = some (fr, rest) → Delivers tbl fr m k →
      Means tbl rest ms tail → Means tbl bs ((m, k) :: ms) tail
  | drop {bs fr rest ms tail} : firstFrame bs = some (fr, rest) → Corrupt tbl fr →
      Means tbl rest ms tail → Means tbl bs ms tail

/-- A MAVLink frame by its fields (wire format of MAVLink 1 and 2). -/
structure Frame where
  v2 : Bool
  incompat : UInt8 := 0
  compat : UInt8 := 0
  seq : UInt8
  sys : UInt8
  comp : UInt8
  msgid : Nat
  payload : List UInt8
  crcLo : UInt8
  crcHi : UInt8
  signature : List UInt8 := []

/-- Field ranges: payload length fits its byte, message id fits 24 (8) bits, a signature of 13 bytes is
present exactly when the signed flag is set (MAVLink 2 only). -/
def Frame.WF (f : Frame) : Prop :=
  f.payload.length < 256 ∧
  (if f.v2 then f.msgid < 2 ^ 24 ∧ f.signature.length = (if f.incompat.toNat % 2 = 1 then 13 else 0)
   else f.msgid < 256 ∧ f.signature = [])

/-- Everything between the start marker and the checksum. -/
def Frame.body (f : Frame) : List UInt8 :=
  if f.v2 then
    [UInt8.ofNat f.payload.length, f.incompat, f.compat, f.seq, f.sys, f.comp,
     UInt8.ofNat f.msgid, UInt8.ofNat (f.msgid / 256), UInt8.ofNat (f.msgid / 65536)] ++ f.payload
  else
    [UInt8.ofNat f.payload.length, f.seq, f.sys, f.comp, UInt8.ofNat f.msgid] ++ f.payload

/-- Bytes on the wire. -/
def Frame.encode (f : Frame) : List UInt8 :=
  (if f.v2 then 0xFD else 0xFE) :: (f.body ++ f.crcLo :: f.crcHi :: f.signature)

/-- The checksum is right for the table's definition of the message; unknown ids carry no obligation. -/
def Frame.CrcOk (tbl : MsgTable) (f : Frame) : Prop :=
  ∀ e, tbl f.msgid = some e →
    ((f.body ++ [e.crcExtra]).foldl (fun c b => crcAccumulate b c) 0xffff).toNat
      = f.crcLo.toNat + 256 * f.crcHi.toNat

/-- The message a frame denotes: its own bytes, source, and target as the table defines it. -/
def Frame.toMsg (tbl : MsgTable) (f : Frame) : Msg × Bool :=
  ({ data := f.encode
     msgId := match tbl f.msgid with | some e => e.msgid | none => f.msgid
     targetSys := match tbl f.msgid with
       | some e => target e.hasTargetSys e.targetSysOfs f.payload | none => -1
     targetComp := match tbl f.msgid with
       | some e => target e.hasTargetComp e.targetCompOfs f.payload | none => -1
     srcSys := f.sys, srcComp := f.comp
     payloadLen := UInt8.ofNat f.payload.length
     payloadOfs := some (if f.v2 then 10 else 6) },
   (tbl f.msgid).isSome)

end Verif.Spec
