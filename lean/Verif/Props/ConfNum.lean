import Verif.Lemmas.ConfNum

/-
C59 and C60: numbers and lists of numbers in the configuration.
-/

namespace Verif
open Spec.Conf

/-! ### C59 -/

/-- What C59 says of an option of type `unsigned long`: decimal numbers that fit are stored exactly,
all other text is rejected. -/
def Spec.Conf.ExactUnsigned (parse : List UInt8 → Option Nat) : Prop :=
  (∀ s n, Numeral 10 s n → n < 2 ^ 64 → parse s = some n) ∧
  (∀ s v, parse s = some v → (∃ neg n, CNumber s neg n) ∧ ∀ neg n, CNumber s neg n → neg = false ∧ v = n)

/-- Exactly the numbers in C notation below 2^64 are accepted; a negative one is stored modulo
2^64. -/
theorem C59_unsigned_partial (s : List UInt8) (v : Nat) :
    parseUl s = some v ↔
      ∃ neg n, CNumber (s.takeWhile (· != 0)) neg n ∧ n < 2 ^ 64 ∧
        v = if neg then (2 ^ 64 - n) % 2 ^ 64 else n := by
  show safeAtoul (cstrB s) = some v ↔ ∃ neg n, CNumber (cstrB s) neg n ∧ _
  unfold safeAtoul
  constructor
  · intro h
    cases hs : scanNum 0 (cstrB s) with
    | none => rw [hs] at h; cases h
    | some x =>
      obtain ⟨neg, n, rest⟩ := x
      rw [hs] at h
      simp only at h
      split at h
      · cases h
      · next hr =>
        have hr : rest = [] := Classical.byContradiction hr
        subst hr
        split at h
        · cases h
        · exact ⟨neg, n, (scanNum0_iff _ _ _).1 hs, by omega, (Option.some.inj h).symm⟩
  · rintro ⟨neg, n, hc, hn, rfl⟩
    rw [(scanNum0_iff _ _ _).2 hc]
    simp only [ne_eq, not_true_eq_false, if_false]
    rw [if_neg (by omega)]

theorem numeral10_cnumber {s : List UInt8} {n : Nat} (h : Numeral 10 s n) (hz : s = [48] ∨ ∀ r, s ≠ 48 :: r) :
    CNumber s false n := by
  refine ⟨[], [], s, rfl, blank_nil, Or.inl ⟨rfl, Or.inl rfl⟩, ?_⟩
  rcases hz with rfl | hz
  · right; left
    refine ⟨[], rfl, ?_⟩
    have : n = 0 := h.unique (.one (d := 0) (Or.inl ⟨by decide, by decide⟩) (by decide))
    subst this
    exact .one (Or.inl ⟨by decide, by decide⟩) (by decide)
  · exact Or.inr (Or.inr ⟨hz, h⟩)

theorem numeral_nul {base : Nat} {s : List UInt8} {n : Nat} (h : Numeral base s n) : 0 ∉ s := fun hm =>
  (digit_not_space (((numeral_iff _ _ _).1 h).2.1 _ hm)).2.2.2.2 rfl

/-- C59 for decimal numbers without leading zeros: exact if they fit, else rejected.  Missing from
C59: leading zeros and negative numbers, see `C59_violated`. -/
theorem C59_decimal_partial (s : List UInt8) (n : Nat) (h : Numeral 10 s n)
    (hz : s = [48] ∨ ∀ r, s ≠ 48 :: r) : parseUl s = if n < 2 ^ 64 then some n else none := by
  have hc := numeral10_cnumber h hz
  have hs : s.takeWhile (· != 0) = s := cstrB_id (numeral_nul h)
  split
  · next hn =>
    rw [C59_unsigned_partial]
    exact ⟨false, n, by rw [hs]; exact hc, hn, rfl⟩
  · next hn =>
    cases hp : parseUl s with
    | none => rfl
    | some v =>
      obtain ⟨neg, m, h1, h2, _⟩ := (C59_unsigned_partial s v).1 hp
      rw [hs] at h1
      obtain ⟨_, rfl⟩ := hc.unique h1
      exact absurd h2 hn

/-- Exactly the numbers in C notation in the range of `int` are accepted, with their value. -/
theorem C59_int (s : List UInt8) (v : Int) :
    parseI s = some v ↔
      ∃ neg n, CNumber (s.takeWhile (· != 0)) neg n ∧ v = (if neg then - (n : Int) else n) ∧
        - 2 ^ 31 ≤ v ∧ v < 2 ^ 31 := by
  show safeAtoi (cstrB s) = some v ↔ ∃ neg n, CNumber (cstrB s) neg n ∧ _
  unfold safeAtoi
  constructor
  · intro h
    cases hs : scanNum 0 (cstrB s) with
    | none => rw [hs] at h; cases h
    | some x =>
      obtain ⟨neg, n, rest⟩ := x
      rw [hs] at h
      simp only at h
      split at h
      · cases h
      · next hr =>
        have hr : rest = [] := Classical.byContradiction hr
        subst hr
        refine ⟨neg, n, (scanNum0_iff _ _ _).1 hs, ?_⟩
        generalize (if neg then - (n : Int) else n) = x at h
        split at h
        · cases h
        · split at h
          · cases h
          · have hv := Option.some.inj h
            subst hv
            exact ⟨rfl, by omega, by omega⟩
  · rintro ⟨neg, n, hc, hv, h1, h2⟩
    rw [(scanNum0_iff _ _ _).2 hc]
    simp only [ne_eq, not_true_eq_false, if_false, ← hv]
    rw [if_neg (by omega), if_neg (by omega)]

/-- C59: text that is not a number is rejected by both. -/
theorem C59_rejects (s : List UInt8) (h : ¬ ∃ neg n, CNumber (s.takeWhile (· != 0)) neg n) :
    parseUl s = none ∧ parseI s = none := by
  constructor
  · cases hp : parseUl s with
    | none => rfl
    | some v =>
      obtain ⟨neg, n, h1, _⟩ := (C59_unsigned_partial s v).1 hp
      exact absurd ⟨neg, n, h1⟩ h
  · cases hp : parseI s with
    | none => rfl
    | some v =>
      obtain ⟨neg, n, h1, _⟩ := (C59_int s v).1 hp
      exact absurd ⟨neg, n, h1⟩ h

/-- C59 for switches: `true`, `false` in any case, or an integer, where 0 is off. -/
theorem C59_bool (s : List UInt8) (v : Bool) :
    parseBool s = some v ↔
      (Same (ascii "true") s ∧ v = true) ∨
      (¬ Same (ascii "true") s ∧ Same (ascii "false") s ∧ v = false) ∨
      (¬ Same (ascii "true") s ∧ ¬ Same (ascii "false") s ∧ ∃ i, parseI s = some i ∧ (v = true ↔ i ≠ 0)) := by
  unfold parseBool
  by_cases h1 : Same (ascii "true") s
  · simp only [(memCaseEq_iff _ _).2 h1, if_true, Option.some.injEq, h1, true_and, not_true_eq_false, false_and,
      or_false]
    exact eq_comm
  · have e1 := memCaseEq_false.2 h1
    by_cases h2 : Same (ascii "false") s
    · simp only [e1, (memCaseEq_iff _ _).2 h2, if_true, Option.some.injEq, h1, h2, false_and, not_true_eq_false,
        or_false, false_or, not_false_eq_true, true_and, Bool.false_eq_true, if_false]
      exact eq_comm
    · have e2 := memCaseEq_false.2 h2
      simp only [e1, e2, h1, h2, Bool.false_eq_true, if_false, false_and, not_false_eq_true, true_and, false_or,
        Option.map_eq_some_iff]
      constructor
      · rintro ⟨i, hi, rfl⟩; exact ⟨i, hi, by simp⟩
      · rintro ⟨i, hi, hv⟩
        refine ⟨i, hi, ?_⟩
        cases v <;> simp_all

/-- C59 is false: `010` is stored as 8, and `-1` is accepted for an unsigned option, as 2^64-1. -/
theorem C59_violated : ¬ ExactUnsigned parseUl ∧
    (∃ s, Numeral 10 s 10 ∧ parseUl s = some 8) ∧
    (∃ s, CNumber s true 1 ∧ parseUl s = some (2 ^ 64 - 1)) := by
  have h010 : Numeral 10 (ascii "010") 10 := (numeral_iff _ _ _).2 (by decide +kernel)
  have p010 : parseUl (ascii "010") = some 8 := by decide +kernel
  refine ⟨?_, ⟨_, h010, p010⟩, ⟨ascii "-1", (scanNum0_iff _ _ _).1 (by decide +kernel), by decide +kernel⟩⟩
  rintro ⟨h, _⟩
  have := h _ _ h010 (by decide)
  rw [p010] at this
  exact absurd this (by decide)

example : Numeral 10 (ascii "14550") 14550 ∧ parseUl (ascii "14550") = some 14550 ∧
    parseUl (ascii "14550a") = none ∧ parseI (ascii "-5") = some (-5) ∧ parseBool (ascii "TRUE") = some true ∧
    ¬ ∃ neg n, CNumber ((ascii "12 volts").takeWhile (· != 0)) neg n := by
  refine ⟨(numeral_iff _ _ _).2 (by decide +kernel), by decide +kernel, by decide +kernel, by decide +kernel,
    by decide +kernel, ?_⟩
  rintro ⟨neg, n, h⟩
  have h := (scanNum0_iff _ _ _).2 h
  have h' : scanNum 0 ((ascii "12 volts").takeWhile (· != 0)) = some ⟨false, 12, ascii " volts"⟩ := by decide +kernel
  rw [h'] at h
  revert h
  simp [ascii]

/-! ### C60 -/

/-- C60 for message ids and baud rates: a list of decimal numbers below 2^32, separated by commas
with white space allowed around the numbers, is parsed to exactly these numbers (appended to what
the vector held).  Missing: larger numbers, see `C60_violated`. -/
theorem C60_uint32_partial (items : List (List UInt8)) (ns : List Nat) (v : List Nat)
    (h : Items items ns) (hr : ∀ n ∈ ns, n < 2 ^ 32) :
    parseU32s (commaSep items) v = v ++ ns := by
  have hc : ∀ t ∈ items, t ≠ [] ∧ 44 ∉ t ∧ 0 ∉ t := by
    clear hr
    induction h with
    | nil => intro t ht; cases ht
    | cons h _ ih =>
      intro t ht
      rcases List.mem_cons.1 ht with rfl | ht
      · exact item_clean h
      · exact ih t ht
  unfold parseU32s
  rw [cstrB_id (commaSep_nul fun t ht => (hc t ht).2.2),
    strtokB_commaSep fun t ht => ⟨(hc t ht).1, (hc t ht).2.1⟩]
  congr 1
  clear hc
  induction h with
  | nil => rfl
  | @cons t n ts ns h _ ih =>
    have hn := hr n (by simp)
    rw [List.map_cons, ih fun m hm => hr m (by simp [hm]), strtol10_item h (by omega)]
    congr 1
    omega

/-- C60 for system and component ids, likewise for numbers up to 255. -/
theorem C60_uint8_partial (items : List (List UInt8)) (ns : List Nat) (v : List UInt8)
    (h : Items items ns) (hr : ∀ n ∈ ns, n < 256) :
    parseU8s (commaSep items) v = v ++ ns.map UInt8.ofNat ∧ (ns.map UInt8.ofNat).map UInt8.toNat = ns := by
  have hc : ∀ t ∈ items, t ≠ [] ∧ 44 ∉ t ∧ 0 ∉ t := by
    clear hr
    induction h with
    | nil => intro t ht; cases ht
    | cons h _ ih =>
      intro t ht
      rcases List.mem_cons.1 ht with rfl | ht
      · exact item_clean h
      · exact ih t ht
  unfold parseU8s
  rw [cstrB_id (commaSep_nul fun t ht => (hc t ht).2.2),
    strtokB_commaSep fun t ht => ⟨(hc t ht).1, (hc t ht).2.1⟩]
  clear hc
  constructor
  · congr 1
    induction h with
    | nil => rfl
    | @cons t n ts ns h _ ih =>
      have hn := hr n (by simp)
      rw [List.map_cons, ih fun m hm => hr m (by simp [hm]), strtol10_item h (by omega), List.map_cons]
      congr 2
      omega
  · rw [List.map_map]
    conv => rhs; rw [← List.map_id ns]
    apply List.map_congr_left
    intro n hn
    have := hr n hn
    simp only [Function.comp, id, UInt8.toNat_ofNat']
    omega

/-- C60, what becomes of every list of numbers, in range or not: each is cut to the largest number of 63 bits and then to the low 32 or 8
bits, in place and in order. -/
theorem C60_any_partial (items : List (List UInt8)) (ns : List Nat) (v : List Nat) (v' : List UInt8) (h : Items items ns) :
    parseU32s (commaSep items) v = v ++ ns.map (fun n => min n (2 ^ 63 - 1) % 2 ^ 32) ∧
    (parseU8s (commaSep items) v').map UInt8.toNat = v'.map UInt8.toNat ++ ns.map (fun n => min n (2 ^ 63 - 1) % 2 ^ 8) := by
  have hc : ∀ t ∈ items, t ≠ [] ∧ 44 ∉ t ∧ 0 ∉ t := by
    induction h with
    | nil => intro t ht; cases ht
    | cons h _ ih =>
      intro t ht
      rcases List.mem_cons.1 ht with rfl | ht
      · exact item_clean h
      · exact ih t ht
  unfold parseU32s parseU8s
  rw [cstrB_id (commaSep_nul fun t ht => (hc t ht).2.2),
    strtokB_commaSep fun t ht => ⟨(hc t ht).1, (hc t ht).2.1⟩]
  clear hc
  rw [List.map_append, List.map_map]
  constructor
  · congr 1
    induction h with
    | nil => rfl
    | @cons t n ts ns h _ ih =>
      rw [List.map_cons, ih, strtol10_sat h, List.map_cons]
      congr 1
  · congr 1
    induction h with
    | nil => rfl
    | @cons t n ts ns h _ ih =>
      rw [List.map_cons, ih, List.map_cons]
      congr 1
      simp only [Function.comp, UInt8.toNat_ofNat', strtol10_sat h]
      omega

example : parseU32s (ascii "33, 4294967296,99999999999999999999") [1] = [1, 33, 0, 4294967295] ∧
    parseU8s (ascii "257,99999999999999999999") [1] = [1, 1, 255] := by decide +kernel

/-- C60 is false of negative numbers, too: they become identifiers, and below -2^63 all of them the same. -/
theorem C60_violated_negative : parseU8s (ascii "-1") [] = [255] ∧ parseU8s (ascii "-255") [] = [1] ∧
    parseU32s (ascii "-4294967263") [] = [33] ∧ parseU32s (ascii "-9223372036854775775") [] = [33] ∧
    parseU32s (ascii "-9223372036854775841") [] = [0] := by decide +kernel

/-- C60 is false: identifiers out of range become others, and text that is no number becomes 0. -/
theorem C60_violated :
    (∃ s, Item s 256 ∧ parseU8s s [] = [0]) ∧
    (∃ s, Item s 257 ∧ parseU8s s [] = [1]) ∧
    (∃ s, Item s 4294967296 ∧ parseU32s s [] = [0]) ∧
    (∃ s, (∀ n, ¬ Item s n) ∧ parseU8s s [] = [0]) := by
  have it : ∀ s n, Numeral 10 s n → Item s n := fun s n h => ⟨[], [], s, by simp, blank_nil, blank_nil, h⟩
  refine ⟨⟨ascii "256", it _ _ ((numeral_iff _ _ _).2 (by decide +kernel)), by decide +kernel⟩,
    ⟨ascii "257", it _ _ ((numeral_iff _ _ _).2 (by decide +kernel)), by decide +kernel⟩,
    ⟨ascii "4294967296", it _ _ ((numeral_iff _ _ _).2 (by decide +kernel)), by decide +kernel⟩,
    ⟨ascii "heartbeat", ?_, by decide +kernel⟩⟩
  rintro n ⟨w, v, ds, hs, hw, hv, hd⟩
  obtain ⟨_, hall, _⟩ := (numeral_iff _ _ _).1 hd
  have hmem : (104 : UInt8) ∈ w ++ (ds ++ v) := by rw [← hs]; decide +kernel
  simp only [List.mem_append] at hmem
  rcases hmem with h | h | h
  · exact absurd (hw _ h) (by decide)
  · exact absurd (hall _ h) (by decide)
  · exact absurd (hv _ h) (by decide)

example : Items [ascii "0", ascii " 33", ascii "66 "] [0, 33, 66] ∧
    parseU32s (ascii "0, 33,66 ") [] = [0, 33, 66] ∧ parseU8s (ascii "1,255") [] = [1, 255] := by
  refine ⟨.cons ?_ (.cons ?_ (.cons ?_ .nil)), by decide +kernel, by decide +kernel⟩
  · exact ⟨[], [], ascii "0", by decide +kernel, blank_nil, blank_nil, (numeral_iff _ _ _).2 (by decide +kernel)⟩
  · exact ⟨[32], [], ascii "33", by decide +kernel, (by intro b hb; simp at hb; subst hb; decide), blank_nil,
      (numeral_iff _ _ _).2 (by decide +kernel)⟩
  · exact ⟨[], [32], ascii "66", by decide +kernel, blank_nil, (by intro b hb; simp at hb; subst hb; decide),
      (numeral_iff _ _ _).2 (by decide +kernel)⟩

end Verif
