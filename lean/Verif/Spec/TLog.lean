/-
The telemetry log format (as ground stations read it) and what should be in it.
-/
import Verif.Model.TLog
import Verif.Spec.Stream

namespace Verif.Spec

/-- Value of a big-endian number. -/
def beVal (bs : List UInt8) : Nat := bs.foldl (fun v b => v * 256 + b.toNat) 0

/-- One record: microseconds since the epoch and a frame. -/
structure TRec where
  time : Nat
  frame : List UInt8
deriving DecidableEq, Repr

/-- A reader takes eight bytes of timestamp, and the frame whose length its header gives. -/
def readRecord (bs : List UInt8) : Option (TRec × List UInt8) :=
  if bs.length < 8 then none
  else
    match frameLen (bs.drop 8) with
    | none => none
    | some n =>
      if n ≤ (bs.drop 8).length then some (⟨beVal (bs.take 8), (bs.drop 8).take n⟩, (bs.drop 8).drop n) else none

/-- A reader of a whole file: `none` if it is not a sequence of records (at most `fuel` of
them). -/
def readRecords : Nat → List UInt8 → Option (List TRec)
  | _, [] => some []
  | 0, _ => none
  | fuel + 1, bs =>
    match readRecord bs with
    | none => none
    | some (r, rest) => (readRecords fuel rest).map (r :: ·)

/-- Reading a telemetry log file. -/
def readTlog (bs : List UInt8) : Option (List TRec) := readRecords bs.length bs

/-- The bytes are exactly one frame. -/
def OneFrame (fr : List UInt8) : Prop := frameLen fr = some fr.length

/-- A telemetry log file with these records. -/
inductive TlogFile : List TRec → List UInt8 → Prop where
  | nil : TlogFile [] []
  | cons {r rs ts rest} : ts.length = 8 → beVal ts = r.time → TlogFile rs rest →
      TlogFile (r :: rs) (ts ++ r.frame ++ rest)

/-- The record a routed message should leave. -/
def recOf (ev : TLogEv) : TRec := ⟨ev.now.toNat, ev.msg.data⟩

/-- Every write up to `n` bytes is carried out completely. -/
def WritesUpTo (n : Nat) (env : LogEnv) : Prop := ∀ i, ∃ k, env.wr i = .n k ∧ n ≤ k

end Verif.Spec
