import Verif.Spec.Config

/-
Addresses as text.
-/

namespace Verif.Spec.Conf

/-- Decimal digits. -/
def Digits (p : List UInt8) : Prop := ∀ b ∈ p, 48 ≤ b.toNat ∧ b.toNat ≤ 57

/-- Lower case hexadecimal digits. -/
def HexDigits (p : List UInt8) : Prop :=
  ∀ b ∈ p, (48 ≤ b.toNat ∧ b.toNat ≤ 57) ∨ (97 ≤ b.toNat ∧ b.toNat ≤ 102)

/-- Texts joined by a separator. -/
def joined (c : UInt8) : List (List UInt8) → List UInt8
  | [] => []
  | [x] => x
  | x :: y :: r => x ++ c :: joined c (y :: r)

/-- Four groups of one to three digits, separated by dots. -/
def Quad (ip : List UInt8) : Prop :=
  ∃ a b c d, ip = joined 46 [a, b, c, d] ∧ ∀ p ∈ [a, b, c, d], Digits p ∧ 1 ≤ p.length ∧ p.length ≤ 3

/-- At least two groups of at most four hexadecimal digits, separated by colons. -/
def Colons (t : List UInt8) : Prop :=
  ∃ gs, 2 ≤ gs.length ∧ t = joined 58 gs ∧ ∀ g ∈ gs, HexDigits g ∧ g.length ≤ 4

/-- The address `a.b.c.d` in plain decimal notation. -/
def Ipv4Text (ip : List UInt8) (a b c d : Nat) : Prop :=
  ∃ ta tb tc td, ip = joined 46 [ta, tb, tc, td] ∧
    (Decimal ta a ∧ a ≤ 255) ∧ (Decimal tb b ∧ b ≤ 255) ∧ (Decimal tc c ∧ c ≤ 255) ∧ (Decimal td d ∧ d ≤ 255)

/-- A group of an IPv6 address. -/
def Group6 (g : List UInt8) : Prop := g ≠ [] ∧ HexDigits g ∧ g.length ≤ 4

/-- An IPv6 address (RFC 4291, 2.2, forms 1 and 2, lower case): eight groups, or fewer with one `::`. -/
def Ipv6Text (t : List UInt8) : Prop :=
  (∃ gs, gs.length = 8 ∧ (∀ g ∈ gs, Group6 g) ∧ t = joined 58 gs) ∨
  (∃ l r, l.length + r.length ≤ 7 ∧ (∀ g ∈ l ++ r, Group6 g) ∧ t = joined 58 l ++ 58 :: 58 :: joined 58 r)

end Verif.Spec.Conf
