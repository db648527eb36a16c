import Verif.Spec.Conf
import Verif.Model.Cli

/-
The configuration files, stated on file contents: which count as correct, in which order those of a
directory are read.
-/

namespace Verif.Spec.Conf

/-- Byte-wise alphabetical order: a beginning of a text comes before the text; otherwise the first
different byte decides. -/
inductive Precedes : List UInt8 → List UInt8 → Prop
  | start (a b : List UInt8) : Precedes a (a ++ b)
  | differ (p : List UInt8) {a b : UInt8} (as bs : List UInt8) : a.toNat < b.toNat → Precedes (p ++ a :: as) (p ++ b :: bs)

/-- A file that is read without complaint: not empty, and all its complete lines mean something. -/
def GoodFile (f : List UInt8) : Prop := f ≠ [] ∧ ∃ ls rest ds, Lines f ls rest ∧ Reads none ls ds true

/-- The regular files of a directory. -/
def regularFiles (es : List DirEnt) : List (List UInt8 × FileState) :=
  es.filterMap fun e => e.file.map fun f => (e.name, f)

/-- The contents, if every file can be read. -/
def Contents (fs : List (List UInt8 × FileState)) (cs : List (List UInt8)) : Prop :=
  fs.map (·.2) = cs.map .content

/-- The main file does not exist, or exists with the given content. -/
def MainContent (main : FileState) (cs : List (List UInt8)) : Prop :=
  (main = .missing ∧ cs = []) ∨ ∃ c, main = .content c ∧ cs = [c]

end Verif.Spec.Conf
