/-
What a configuration file means, stated on the text itself: an ini-style file whose lines are blank,
comments, section headers or settings, and in which a later setting of the same key of the same
section replaces an earlier one.
-/

namespace Verif.Spec.Conf

/-- White space: space, tab, newline, vertical tab, form feed, carriage return. -/
def Space (b : UInt8) : Prop := b.toNat = 32 ∨ (9 ≤ b.toNat ∧ b.toNat ≤ 13)

instance (b : UInt8) : Decidable (Space b) := by unfold Space; infer_instance

/-- Nothing but white space. -/
def Blank (w : List UInt8) : Prop := ∀ b ∈ w, Space b

/-- Neither begins nor ends with white space, and is not empty. -/
def Tight (t : List UInt8) : Prop :=
  (∃ b r, t = b :: r ∧ ¬ Space b) ∧ (∃ r b, t = r ++ [b] ∧ ¬ Space b)

/-- Lower case of a letter A–Z. -/
def lower (b : UInt8) : UInt8 := if 65 ≤ b.toNat ∧ b.toNat ≤ 90 then UInt8.ofNat (b.toNat + 32) else b

/-- The part of a text before its first NUL, in lower case. -/
def fold : List UInt8 → List UInt8
  | [] => []
  | b :: bs => if b = 0 then [] else lower b :: fold bs

/-- Two names are the same: equal up to case.  (Text behind a NUL byte is ignored, except for its
length; names without NUL are the same exactly if they are equal up to case.) -/
def Same (a b : List UInt8) : Prop := a.length = b.length ∧ fold a = fold b

instance (a b : List UInt8) : Decidable (Same a b) := by unfold Same; infer_instance

/-- A name a section can have: no ']' and at most 100 bytes; no white space, or one single blank
inside. -/
def SectionName (n : List UInt8) : Prop :=
  93 ∉ n ∧ n.length ≤ 100 ∧
    ((∀ b ∈ n, ¬ Space b) ∨
     ∃ x y, n = x ++ 32 :: y ∧ x ≠ [] ∧ y ≠ [] ∧ (∀ b ∈ x, ¬ Space b) ∧ (∀ b ∈ y, ¬ Space b))

/-- What a line says. -/
inductive Says where
  | nothing
  | header (name : List UInt8)
  | setting (key value : List UInt8)
deriving DecidableEq

/-- Meaning of a line: blank; comment (`;` or `#` first); `[name]`; `key = value`, where only the
first '=' counts.  Any line can be surrounded by white space, and so can key and value. -/
inductive Means : List UInt8 → Says → Prop
  | blank {l} : Blank l → Means l .nothing
  | comment {w c r} : Blank w → c = 59 ∨ c = 35 → Means (w ++ c :: r) .nothing
  | header {w n w'} : Blank w → SectionName n → Blank w' → Means (w ++ 91 :: (n ++ 93 :: w')) (.header n)
  | setting {w₁ k w₂ w₃ v w₄} : Blank w₁ → Blank w₂ → Blank w₃ → Blank w₄ → Tight k → Tight v →
      61 ∉ k → (∀ b, k.head? = some b → b ≠ 91 ∧ b ≠ 59 ∧ b ≠ 35) →
      Means (w₁ ++ (k ++ (w₂ ++ 61 :: (w₃ ++ (v ++ w₄))))) (.setting k v)

/-- A line longer than the largest `int` is refused. -/
def TooLong (l : List UInt8) : Prop := 2147483647 < l.length

/-- What a file declares, in order. -/
inductive Decl where
  | section (name : List UInt8)
  | set (sec key value : List UInt8)
deriving DecidableEq

/-- Reading lines one after the other, in the section whose header came last: the declarations up to
the first bad line, and whether there was none. -/
inductive Reads : Option (List UInt8) → List (List UInt8) → List Decl → Bool → Prop
  | done {cur} : Reads cur [] [] true
  | nothing {cur l ls ds ok} : ¬ TooLong l → Means l .nothing → Reads cur ls ds ok →
      Reads cur (l :: ls) ds ok
  | header {cur l ls n ds ok} : ¬ TooLong l → Means l (.header n) → Reads (some n) ls ds ok →
      Reads cur (l :: ls) (.section n :: ds) ok
  | setting {n l ls k v ds ok} : ¬ TooLong l → Means l (.setting k v) → Reads (some n) ls ds ok →
      Reads (some n) (l :: ls) (.set n k v :: ds) ok
  | orphan {l ls k v} : Means l (.setting k v) → Reads none (l :: ls) [] false
  | bad {cur l ls} : TooLong l ∨ (∀ m, ¬ Means l m) → Reads cur (l :: ls) [] false

/-- `text` consists of the newline-terminated lines `ls` and `rest` without newline. -/
def Lines (text : List UInt8) (ls : List (List UInt8)) (rest : List UInt8) : Prop :=
  text = (ls.map (· ++ [10])).flatten ++ rest ∧ (∀ l ∈ ls, 10 ∉ l) ∧ 10 ∉ rest

/-- Declarations of a sequence of files: each is read on its own, starting outside any section. -/
inductive FilesRead : List (List UInt8) → List Decl → Prop
  | nil : FilesRead [] []
  | cons {f fs ls rest ds ok ds'} : Lines f ls rest → Reads none ls ds ok → FilesRead fs ds' →
      FilesRead (f :: fs) (ds ++ ds')

/-- The value of a key of a section after one more declaration. -/
def setStep (sec key : List UInt8) (r : Option (List UInt8)) : Decl → Option (List UInt8)
  | .set s k v => if Same s sec ∧ Same k key then some v else r
  | .section _ => r

/-- The value of a key of a section: the one set last. -/
def lastSet (ds : List Decl) (sec key : List UInt8) : Option (List UInt8) := ds.foldl (setStep sec key) none

/-- A section was declared. -/
def Declared (ds : List Decl) (sec : List UInt8) : Prop := ∃ n, Decl.section n ∈ ds ∧ Same n sec

end Verif.Spec.Conf
