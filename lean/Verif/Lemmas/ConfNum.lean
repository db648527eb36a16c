import Verif.Model.ConfNum
import Verif.Spec.ConfNum
import Verif.Lemmas.Conf

/- Reading numbers. -/

namespace Verif
open Spec.Conf

theorem digitVal_iff (b : UInt8) (d : Nat) : digitVal b = some d ↔ Digit b d := by
  unfold digitVal Digit
  simp only [UInt8.le_iff_toNat_le, UInt8.reduceToNat]
  have := b.toNat_lt
  split
  · simp only [Option.some.injEq]; omega
  · split
    · simp only [Option.some.injEq]; omega
    · split
      · simp only [Option.some.injEq]; omega
      · simp only [reduceCtorEq, false_iff]; omega

theorem digitIn_iff (base : Nat) (b : UInt8) (d : Nat) : digitIn base b = some d ↔ Digit b d ∧ d < base := by
  unfold digitIn
  cases h : digitVal b with
  | none =>
    simp only [reduceCtorEq, false_iff]
    rintro ⟨h', _⟩
    rw [(digitVal_iff b d).2 h'] at h; cases h
  | some e =>
    have he := (digitVal_iff b e).1 h
    simp only
    constructor
    · intro h'
      split at h'
      · cases h'; exact ⟨he, by assumption⟩
      · cases h'
    · rintro ⟨h1, h2⟩
      have : e = d := by
        have := (digitVal_iff b d).2 h1
        rw [h] at this; exact Option.some.inj this
      subst this
      rw [if_pos h2]

/-- Positional value. -/
def numVal (base acc : Nat) (s : List UInt8) : Nat := s.foldl (fun a b => a * base + (digitIn base b).getD 0) acc

theorem scanDigits_all {base : Nat} (acc : Nat) {s : List UInt8} (h : ∀ b ∈ s, (digitIn base b).isSome)
    (t : List UInt8) (ht : ∀ b r, t = b :: r → digitIn base b = none) :
    scanDigits base acc (s ++ t) = (numVal base acc s, t) := by
  induction s generalizing acc with
  | nil =>
    cases t with
    | nil => rfl
    | cons b t => simp [scanDigits, ht b t rfl, numVal]
  | cons b s ih =>
    obtain ⟨d, hd⟩ := Option.isSome_iff_exists.1 (h b (by simp))
    simp only [List.cons_append, scanDigits, hd]
    rw [ih _ (fun x hx => h x (by simp [hx]))]
    simp [numVal, hd]

theorem scanDigits_rest {base acc : Nat} {s : List UInt8} (h : (scanDigits base acc s).2 = []) :
    ∀ b ∈ s, (digitIn base b).isSome := by
  induction s generalizing acc with
  | nil => intro b hb; cases hb
  | cons b s ih =>
    simp only [scanDigits] at h
    cases hd : digitIn base b with
    | none => rw [hd] at h; cases h
    | some d =>
      rw [hd] at h
      intro c hc
      rcases List.mem_cons.1 hc with rfl | hc
      · simp [hd]
      · exact ih h c hc

theorem numeral_iff (base : Nat) (s : List UInt8) (n : Nat) :
    Numeral base s n ↔ s ≠ [] ∧ (∀ b ∈ s, (digitIn base b).isSome) ∧ n = numVal base 0 s := by
  constructor
  · intro h
    induction h with
    | one h1 h2 =>
      have := (digitIn_iff base _ _).2 ⟨h1, h2⟩
      exact ⟨by simp, by simp [this], by simp [numVal, this]⟩
    | more _ h1 h2 ih =>
      have := (digitIn_iff base _ _).2 ⟨h1, h2⟩
      refine ⟨by simp, ?_, ?_⟩
      · intro b hb
        rcases List.mem_append.1 hb with hb | hb
        · exact ih.2.1 b hb
        · simp at hb; subst hb; simp [this]
      · rw [ih.2.2]; simp [numVal, List.foldl_append, this]
  · rintro ⟨hne, hall, rfl⟩
    obtain ⟨k, hk⟩ : ∃ k, s.length = k := ⟨_, rfl⟩
    induction k generalizing s with
    | zero => exact absurd (List.length_eq_zero_iff.1 hk) hne
    | succ k ih =>
      rcases List.eq_nil_or_concat s with rfl | ⟨r, b, rfl⟩
      · exact absurd rfl hne
      · simp only [List.concat_eq_append] at *
        obtain ⟨d, hd⟩ := Option.isSome_iff_exists.1 (hall b (by simp))
        have hd' := (digitIn_iff base b d).1 hd
        have e : numVal base 0 (r ++ [b]) = numVal base 0 r * base + d := by
          simp [numVal, List.foldl_append, hd]
        rw [e]
        by_cases hr : r = []
        · subst hr
          have : numVal base 0 [] * base + d = d := by simp [numVal]
          rw [this]
          exact .one hd'.1 hd'.2
        · refine .more (ih r hr (fun x hx => hall x (by simp [hx])) ?_) hd'.1 hd'.2
          simp at hk; exact hk

theorem Spec.Conf.Numeral.head {base : Nat} {s : List UInt8} {n : Nat} (h : Numeral base s n) :
    ∃ b r, s = b :: r ∧ (digitIn base b).isSome := by
  obtain ⟨hne, hall, _⟩ := (numeral_iff base s n).1 h
  cases s with
  | nil => exact absurd rfl hne
  | cons b r => exact ⟨b, r, rfl, hall b (by simp)⟩

theorem digit_not_space {base : Nat} {b : UInt8} (h : (digitIn base b).isSome) :
    ¬ Space b ∧ b ≠ 43 ∧ b ≠ 45 ∧ b ≠ 44 ∧ b ≠ 0 := by
  obtain ⟨d, hd⟩ := Option.isSome_iff_exists.1 h
  have := ((digitIn_iff base b d).1 hd).1
  unfold Digit at this
  unfold Space
  refine ⟨by omega, ?_, ?_, ?_, ?_⟩ <;> rintro rfl <;> simp at this <;> omega

theorem scanSign_split (s : List UInt8) :
    ∃ sg, s = sg ++ (scanSign s).2 ∧
      (((scanSign s).1 = false ∧ (sg = [] ∨ sg = [43])) ∨ ((scanSign s).1 = true ∧ sg = [45])) := by
  unfold scanSign
  split
  · exact ⟨[45], rfl, Or.inr ⟨rfl, rfl⟩⟩
  · exact ⟨[43], rfl, Or.inl ⟨rfl, Or.inr rfl⟩⟩
  · exact ⟨[], rfl, Or.inl ⟨rfl, Or.inl rfl⟩⟩

theorem scanSign_of {neg : Bool} {sg body : List UInt8}
    (h : (neg = false ∧ (sg = [] ∨ sg = [43])) ∨ (neg = true ∧ sg = [45]))
    (hb : ∀ b r, body = b :: r → b ≠ 43 ∧ b ≠ 45) : scanSign (sg ++ body) = (neg, body) := by
  rcases h with ⟨rfl, rfl | rfl⟩ | ⟨rfl, rfl⟩
  · cases body with
    | nil => rfl
    | cons b r =>
      have := hb b r rfl
      unfold scanSign
      split
      · next h => simp at h; exact absurd h.1 this.2
      · next h => simp at h; exact absurd h.1 this.1
      · rfl
  · rfl
  · rfl

/-- The text `strtoul(.., 0)` accepts entirely. -/
theorem scanNum0_iff (s : List UInt8) (neg : Bool) (n : Nat) :
    scanNum 0 s = some { neg, mag := n, rest := [] } ↔ CNumber s neg n := by
  constructor
  · intro h
    unfold scanNum at h
    obtain ⟨w, hw, hs, _⟩ := dropWhile_split s
    obtain ⟨sg, hsg, hneg⟩ := scanSign_split (s.dropWhile isSpaceB)
    generalize hsg2 : scanSign (s.dropWhile isSpaceB) = sgn at h hsg hneg
    obtain ⟨ng, body⟩ := sgn
    simp only at h hsg hneg
    have hall : ∀ (base : Nat) (t : List UInt8), (match t with
        | [] => none
        | b :: _ => if (digitIn base b).isSome then
            some { neg := ng, mag := (scanDigits base 0 t).1, rest := (scanDigits base 0 t).2 }
          else none : Option NumScan) = some { neg, mag := n, rest := [] } → ng = neg ∧ Numeral base t n := by
      intro base t h
      cases t with
      | nil => cases h
      | cons b t =>
        simp only at h
        split at h
        · simp only [Option.some.injEq, NumScan.mk.injEq] at h
          obtain ⟨h1, h2, h3⟩ := h
          have hd := scanDigits_rest h3
          refine ⟨h1, (numeral_iff base _ n).2 ⟨by simp, hd, ?_⟩⟩
          have := scanDigits_all 0 hd [] (by intro b r e; cases e)
          rw [List.append_nil] at this
          rw [← h2, this]
        · cases h
    have hx := hall _ _ h
    obtain ⟨rfl, hx⟩ := hx
    refine ⟨w, sg, body, by rw [← hsg]; exact hs, hw, hneg, ?_⟩
    unfold scanBase at hx
    rw [if_neg (by simp)] at hx
    split at hx
    · next x d t =>
      split at hx
      · next hc => exact Or.inl ⟨d :: t, x, rfl, hc.1, hx⟩
      · exact Or.inr (Or.inl ⟨_, rfl, hx⟩)
    · exact Or.inr (Or.inl ⟨_, rfl, hx⟩)
    · next h1 h2 => exact Or.inr (Or.inr ⟨fun r e => h2 r e, hx⟩)
  · rintro ⟨w, sg, body, rfl, hw, hsg, hbody⟩
    have hb0 : ∃ b r, body = b :: r ∧ ¬ Space b ∧ b ≠ 43 ∧ b ≠ 45 := by
      rcases hbody with ⟨h, x, rfl, _, _⟩ | ⟨r, rfl, _⟩ | ⟨_, h⟩
      · exact ⟨48, _, rfl, by decide, by decide, by decide⟩
      · exact ⟨48, _, rfl, by decide, by decide, by decide⟩
      · obtain ⟨b, r, rfl, hb⟩ := h.head
        have := digit_not_space hb
        exact ⟨b, r, rfl, this.1, this.2.1, this.2.2.1⟩
    obtain ⟨b0, r0, hb0, hsp, h43, h45⟩ := hb0
    have hdw : (w ++ (sg ++ body)).dropWhile isSpaceB = sg ++ body := by
      rw [dropWhile_blank hw]
      rcases hsg with ⟨_, rfl | rfl⟩ | ⟨_, rfl⟩
      · rw [List.nil_append, hb0, dropWhile_tight hsp]
      · exact dropWhile_tight (by decide)
      · exact dropWhile_tight (by decide)
    have hss : scanSign (sg ++ body) = (neg, body) :=
      scanSign_of hsg (by intro b r e; rw [hb0] at e; cases e; exact ⟨h43, h45⟩)
    unfold scanNum
    simp only [hdw, hss]
    have fin : ∀ {base t}, scanBase 0 body = (base, t) → Numeral base t n →
        (match (scanBase 0 body).2 with
        | [] => none
        | b :: _ => if (digitIn (scanBase 0 body).1 b).isSome then
            some { neg := neg, mag := (scanDigits (scanBase 0 body).1 0 (scanBase 0 body).2).1,
                   rest := (scanDigits (scanBase 0 body).1 0 (scanBase 0 body).2).2 }
          else none : Option NumScan) = some { neg, mag := n, rest := [] } := by
      intro base t e hn
      rw [e]
      obtain ⟨hne, hall, hv⟩ := (numeral_iff base t n).1 hn
      have hsd := scanDigits_all 0 hall [] (by intro b r e; cases e)
      rw [List.append_nil] at hsd
      cases t with
      | nil => exact absurd rfl hne
      | cons b t =>
        simp only [hall b (by simp), if_true, hsd, ← hv]
    rcases hbody with ⟨h, x, rfl, hx, hn⟩ | ⟨r, rfl, hn⟩ | ⟨h48, hn⟩
    · obtain ⟨d, t, rfl, hd⟩ := hn.head
      refine fin (base := 16) (t := d :: t) ?_ hn
      simp [scanBase, hx, hd]
    · refine fin (base := 8) (t := 48 :: r) ?_ hn
      obtain ⟨_, hall, _⟩ := (numeral_iff 8 _ n).1 hn
      unfold scanBase
      rw [if_neg (by simp)]
      split
      · next x d t e =>
        cases e
        have : ¬ ((x = 120 ∨ x = 88) ∧ (digitIn 16 d).isSome = true) := by
          rintro ⟨hx, _⟩
          have := hall x (by simp)
          rcases hx with rfl | rfl <;> exact absurd this (by decide)
        rw [if_neg this]
      · rfl
      · next h1 h2 => exact absurd rfl (h2 r)
    · refine fin (base := 10) (t := body) ?_ hn
      unfold scanBase
      rw [if_neg (by simp)]
      split
      · exact absurd rfl (h48 _)
      · exact absurd rfl (h48 _)
      · rfl

theorem Spec.Conf.Numeral.unique {base : Nat} {s : List UInt8} {n n' : Nat} (h : Numeral base s n)
    (h' : Numeral base s n') : n = n' := by
  rw [((numeral_iff _ _ _).1 h).2.2, ((numeral_iff _ _ _).1 h').2.2]

/-- A text is at most one number. -/
theorem Spec.Conf.CNumber.unique {s : List UInt8} {a b : Bool} {n m : Nat} (h : CNumber s a n)
    (h' : CNumber s b m) : a = b ∧ n = m := by
  have h1 := (scanNum0_iff _ _ _).2 h
  have h2 := (scanNum0_iff _ _ _).2 h'
  rw [h1] at h2
  simpa using h2

/-! ### `atoi` and `atol` -/

theorem strtol10_sat {s : List UInt8} {n : Nat} (h : Item s n) : strtol10 s = (min n (2 ^ 63 - 1) : Nat) := by
  obtain ⟨w, v, ds, rfl, hw, hv, hd⟩ := h
  obtain ⟨b, r, rfl, hb⟩ := hd.head
  obtain ⟨hne, hall, hval⟩ := (numeral_iff _ _ _).1 hd
  have hns := digit_not_space hb
  unfold strtol10 scanNum
  have e1 : (w ++ (b :: r ++ v)).dropWhile isSpaceB = b :: r ++ v := by
    rw [dropWhile_blank hw]; exact dropWhile_tight hns.1
  have e2 : scanSign (b :: r ++ v) = (false, b :: r ++ v) :=
    scanSign_of (sg := []) (Or.inl ⟨rfl, Or.inl rfl⟩) (by
      intro c t e; cases e; exact ⟨hns.2.1, hns.2.2.1⟩)
  have e3 : scanBase 10 (b :: r ++ v) = (10, b :: r ++ v) := by simp [scanBase]
  have e4 := scanDigits_all 0 hall v (by
    intro c t e
    subst e
    cases hc : digitIn 10 c with
    | none => rfl
    | some d => exact absurd (hv c (by simp)) (digit_not_space (by simp [hc] : (digitIn 10 c).isSome)).1)
  simp only [e1, e2, e3]
  simp only [List.cons_append] at e4 ⊢
  simp only [hb, if_true, e4, ← hval, Bool.false_eq_true, if_false]
  by_cases hn : n < 2 ^ 63
  · rw [if_neg (by omega), if_neg (by omega)]
    omega
  · rw [if_pos (by omega)]
    omega

theorem strtol10_item {s : List UInt8} {n : Nat} (h : Item s n) (hn : n < 2 ^ 63) : strtol10 s = n := by
  rw [strtol10_sat h]
  omega

/-! ### `strtok` -/

theorem strtokGo_token (acc : List UInt8) {t : List UInt8} (ht : 44 ∉ t) (rest : List UInt8) :
    strtokGo acc (t ++ 44 :: rest) =
      if acc.reverse ++ t = [] then strtokGo [] rest else (acc.reverse ++ t) :: strtokGo [] rest := by
  induction t generalizing acc with
  | nil => simp [strtokGo]
  | cons b t ih =>
    simp at ht
    have hb : b ≠ 44 := fun e => ht.1 e.symm
    simp only [List.cons_append, strtokGo, if_neg hb]
    rw [ih _ ht.2]
    simp

theorem strtokGo_last (acc : List UInt8) {t : List UInt8} (ht : 44 ∉ t) :
    strtokGo acc t = if acc.reverse ++ t = [] then [] else [acc.reverse ++ t] := by
  induction t generalizing acc with
  | nil => simp [strtokGo]
  | cons b t ih =>
    simp at ht
    have hb : b ≠ 44 := fun e => ht.1 e.symm
    simp only [strtokGo, if_neg hb]
    rw [ih _ ht.2]
    simp

theorem strtokB_commaSep {ts : List (List UInt8)} (h : ∀ t ∈ ts, t ≠ [] ∧ 44 ∉ t) :
    strtokB (commaSep ts) = ts := by
  unfold strtokB
  induction ts with
  | nil => rfl
  | cons t ts ih =>
    have ht := h t (by simp)
    cases ts with
    | nil => simp [commaSep, strtokGo_last [] ht.2, ht.1]
    | cons u us =>
      rw [commaSep, strtokGo_token [] ht.2]
      rw [if_neg (by simpa using ht.1), ih fun x hx => h x (by simp [hx])]
      rfl

theorem item_clean {s : List UInt8} {n : Nat} (h : Item s n) : s ≠ [] ∧ 44 ∉ s ∧ 0 ∉ s := by
  obtain ⟨w, v, ds, rfl, hw, hv, hd⟩ := h
  obtain ⟨hne, hall, _⟩ := (numeral_iff _ _ _).1 hd
  refine ⟨by simp [hne], ?_, ?_⟩
  · intro hm
    simp only [List.mem_append] at hm
    rcases hm with hm | hm | hm
    · exact absurd (hw _ hm) (by decide)
    · exact absurd (hall _ hm) (by decide)
    · exact absurd (hv _ hm) (by decide)
  · intro hm
    simp only [List.mem_append] at hm
    rcases hm with hm | hm | hm
    · exact absurd (hw _ hm) (by decide)
    · exact absurd (hall _ hm) (by decide)
    · exact absurd (hv _ hm) (by decide)

theorem cstrB_id {s : List UInt8} (h : 0 ∉ s) : cstrB s = s := by
  unfold cstrB
  induction s with
  | nil => rfl
  | cons b s ih =>
    simp at h
    have : (b != 0) = true := by simpa using fun e => h.1 e.symm
    rw [List.takeWhile_cons, this]
    simp [ih h.2]

theorem commaSep_nul {ts : List (List UInt8)} (h : ∀ t ∈ ts, 0 ∉ t) : 0 ∉ commaSep ts := by
  induction ts with
  | nil => simp [commaSep]
  | cons t ts ih =>
    cases ts with
    | nil => simpa [commaSep] using h t (by simp)
    | cons u us =>
      have := ih fun x hx => h x (by simp [hx])
      have ht := h t (by simp)
      simp only [commaSep, List.mem_append, List.mem_cons, not_or]
      exact ⟨ht, by decide, this⟩

end Verif
