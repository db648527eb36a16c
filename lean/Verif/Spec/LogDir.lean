/-
Specification vocabulary for the log directory: what a log name is, which files are finished
logs, when a limit is exceeded.  Independent of the scanning and map code of the model.
-/
import Verif.Model.LogDir

namespace Verif.Spec

/-- Value of a string of decimal digits. -/
def value : List Char → Nat
  | [] => 0
  | c :: l => (c.toNat - 48) * 10 ^ l.length + value l

/-- A decimal digit. -/
def Digit (c : Char) : Prop := '0'.toNat ≤ c.toNat ∧ c.toNat ≤ '9'.toNat

/-- White space. -/
def Space (c : Char) : Prop := c ∈ [' ', '\t', '\n', Char.ofNat 11, Char.ofNat 12, '\r']

/-- A name that starts with the number `n`, whatever follows. -/
def Numbered (name : List Char) (n : Nat) : Prop :=
  ∃ ds rest, name = ds ++ rest ∧ ds ≠ [] ∧ (∀ c ∈ ds, Digit c) ∧
    (∀ c, rest.head? = some c → ¬Digit c) ∧ n = value ds

/-- The text of one number as the C library reads it: white space, sign, digits; the value is
the one an `unsigned int` gets. -/
def NumText (w : List Char) (v : Nat) : Prop :=
  ∃ ws sg ds, w = ws ++ sg ++ ds ∧ (∀ c ∈ ws, Space c) ∧ (sg = [] ∨ sg = ['-'] ∨ sg = ['+']) ∧
    ds ≠ [] ∧ (∀ c ∈ ds, Digit c) ∧
    v = (if value ds < 2 ^ 64 then
          if sg = ['-'] then (2 ^ 64 - value ds) % 2 ^ 32 else value ds % 2 ^ 32
         else 2 ^ 32 - 1)

/-- A name of the form `index-year-month-day_hour-minute-second…`. -/
def LogPattern (name : List Char) (i : Nat) : Prop :=
  ∃ w1 w2 w3 w4 w5 w6 w7 rest v2 v3 v4 v5 v6 v7,
    NumText w1 i ∧ NumText w2 v2 ∧ NumText w3 v3 ∧ NumText w4 v4 ∧ NumText w5 v5 ∧
    NumText w6 v6 ∧ NumText w7 v7 ∧ (∀ c, rest.head? = some c → ¬Digit c) ∧
    name = w1 ++ '-' :: (w2 ++ '-' :: (w3 ++ '-' :: (w4 ++ '_' :: (w5 ++ '-' :: (w6 ++ '-' ::
      (w7 ++ rest))))))

/-- A finished log with index `i`: a file that is not a directory, is no longer writable by its
owner and has a log name. -/
def Finished (e : Entry) (i : Nat) : Prop :=
  LogPattern e.name i ∧ e.stat = true ∧ e.kind ≠ .dir ∧ e.ownerW = false

/-- The finished logs of a directory. -/
noncomputable def finishedLogs (d : List Entry) : List Entry :=
  haveI : DecidablePred fun e => ∃ i, Finished e i := fun _ => Classical.propDecidable _
  d.filter fun e => decide (∃ i, Finished e i)

/-- No two finished logs share an index. -/
def DistinctIndices (d : List Entry) : Prop :=
  d.Pairwise fun a b => ∀ i, Finished a i → ¬Finished b i

/-- Bytes freed by the successful removals. -/
def freed (calls : List (Entry × Bool)) : Nat :=
  (calls.map fun c => if c.2 then c.1.data.length else 0).sum

/-- Number of successful removals. -/
def removed (calls : List (Entry × Bool)) : Nat := (calls.filter (·.2)).length

/-- A limit is exceeded when `n` finished logs were present and `free` bytes were free before
the removals `calls`. -/
def Exceeded (lim : Limits) (free n : Nat) (calls : List (Entry × Bool)) : Prop :=
  free + freed calls < lim.minFree.toNat ∨
    (0 < lim.maxFiles.toNat ∧ lim.maxFiles.toNat + removed calls < n)

/-- Sizes and limits below 2^63 (number of files 2^62), as on any real file system. -/
def Sane (lim : Limits) (free : UInt64) (d : List Entry) : Prop :=
  free.toNat + (d.map (·.data.length)).sum < 2 ^ 63 ∧ lim.minFree.toNat < 2 ^ 63 ∧
    lim.maxFiles.toNat < 2 ^ 63 ∧ d.length < 2 ^ 62

/-- A directory with only foreign files: no two with the same name, none whose name starts with a
number. -/
def Foreign (d : List Entry) : Prop :=
  (d.Pairwise fun a b => a.name ≠ b.name) ∧
    ∀ e ∈ d, ¬∃ w r v, e.name = w ++ r ∧ NumText w v

/-- The state of the log directory before the router ever ran. -/
def initial (d : List Entry) : LogFs := { dir := d, file := fun _ => none }

/-- Number of log starts in a history. -/
def starts (evs : List FsEv) : Nat :=
  (evs.filter fun ev => match ev with | .start .. => true | _ => false).length

/-- No other process creates files in the log directory. -/
def Alone (evs : List FsEv) : Prop :=
  ∀ ev ∈ evs, match ev with | .start _ _ env => ∀ j, env.openEnv.others j = [] | _ => True

/-- Timers can be created whenever a log is started. -/
def TimersOk (evs : List FsEv) : Prop :=
  ∀ ev ∈ evs, match ev with | .start _ _ env => env.timers = true | _ => True

end Verif.Spec
