import Verif.Spec.Conf

/-
Numbers as text.
-/

namespace Verif.Spec.Conf

/-- A digit and its value: 0–9, a–f, A–F. -/
def Digit (b : UInt8) (d : Nat) : Prop :=
  (b.toNat = 48 + d ∧ d ≤ 9) ∨ (b.toNat = 87 + d ∧ 10 ≤ d ∧ d ≤ 15) ∨ (b.toNat = 55 + d ∧ 10 ≤ d ∧ d ≤ 15)

/-- A non-empty text of digits of a base, and its value. -/
inductive Numeral (base : Nat) : List UInt8 → Nat → Prop
  | one {b d} : Digit b d → d < base → Numeral base [b] d
  | more {s n b d} : Numeral base s n → Digit b d → d < base → Numeral base (s ++ [b]) (n * base + d)

/-- A number in the notation of C: white space, sign, then decimal without leading 0, octal with
leading 0, or hexadecimal with leading 0x. -/
def CNumber (s : List UInt8) (neg : Bool) (n : Nat) : Prop :=
  ∃ w sg body, s = w ++ (sg ++ body) ∧ Blank w ∧
    ((neg = false ∧ (sg = [] ∨ sg = [43])) ∨ (neg = true ∧ sg = [45])) ∧
    ((∃ h x, body = 48 :: x :: h ∧ (x = 120 ∨ x = 88) ∧ Numeral 16 h n) ∨
     (∃ r, body = 48 :: r ∧ Numeral 8 body n) ∨
     ((∀ r, body ≠ 48 :: r) ∧ Numeral 10 body n))

/-- Items separated by commas. -/
def commaSep : List (List UInt8) → List UInt8
  | [] => []
  | [x] => x
  | x :: y :: r => x ++ 44 :: commaSep (y :: r)

/-- An item of a list of decimal numbers: white space may surround the number. -/
def Item (s : List UInt8) (n : Nat) : Prop :=
  ∃ w v ds, s = w ++ (ds ++ v) ∧ Blank w ∧ Blank v ∧ Numeral 10 ds n

/-- A list of items. -/
inductive Items : List (List UInt8) → List Nat → Prop
  | nil : Items [] []
  | cons {s n ss ns} : Item s n → Items ss ns → Items (s :: ss) (n :: ns)

end Verif.Spec.Conf
