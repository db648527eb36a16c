import Verif.Model.Conf
import Verif.Spec.Conf

/- Lines, names and the section list of the configuration parser. -/

namespace Verif
open Spec.Conf

theorem isSpaceB_iff (b : UInt8) : isSpaceB b = true ↔ Space b := by
  have h : ∀ n : Fin 256, isSpaceB (UInt8.ofNat n.val) = true ↔ Space (UInt8.ofNat n.val) := by
    decide +kernel
  have := h ⟨b.toNat, b.toNat_lt⟩
  simpa using this

theorem lowerB_eq (b : UInt8) : lowerB b = Spec.Conf.lower b := by
  have h : ∀ n : Fin 256, lowerB (UInt8.ofNat n.val) = Spec.Conf.lower (UInt8.ofNat n.val) := by
    decide +kernel
  have := h ⟨b.toNat, b.toNat_lt⟩
  simpa using this

theorem lower_zero (b : UInt8) : Spec.Conf.lower b = 0 ↔ b = 0 := by
  have h : ∀ n : Fin 256, Spec.Conf.lower (UInt8.ofNat n.val) = 0 ↔ UInt8.ofNat n.val = 0 := by
    decide +kernel
  have := h ⟨b.toNat, b.toNat_lt⟩
  simpa using this

theorem ncaseEq_iff {a b : List UInt8} (h : a.length = b.length) : ncaseEq a b = true ↔ fold a = fold b := by
  induction a generalizing b with
  | nil => cases b with
    | nil => simp [ncaseEq, fold]
    | cons => simp at h
  | cons x xs ih =>
    cases b with
    | nil => simp at h
    | cons y ys =>
      have hl : xs.length = ys.length := by simpa using h
      simp only [ncaseEq, fold, lowerB_eq, Bool.and_eq_true, beq_iff_eq, Bool.or_eq_true]
      by_cases hx : x = 0
      · subst hx
        by_cases hy : y = 0
        · subst hy; simp
        · have : Spec.Conf.lower y ≠ 0 := fun e => hy ((lower_zero y).1 e)
          have h0 : Spec.Conf.lower 0 = 0 := by decide
          simp only [h0, hy, if_true, if_false]
          constructor
          · rintro ⟨h, _⟩; exact absurd h.symm this
          · intro h; cases h
      · by_cases hy : y = 0
        · subst hy
          have : Spec.Conf.lower x ≠ 0 := fun e => hx ((lower_zero x).1 e)
          have h0 : Spec.Conf.lower 0 = 0 := by decide
          simp only [h0, hx, if_true, if_false]
          constructor
          · rintro ⟨h, _⟩; exact absurd h this
          · intro h; cases h
        · simp [hx, hy, ih hl]

theorem memCaseEq_iff (a b : List UInt8) : memCaseEq a b = true ↔ Same a b := by
  unfold memCaseEq Same
  by_cases h : a.length = b.length
  · simp [h, ncaseEq_iff h]
  · simp [h]

theorem Spec.Conf.Same.rfl' (a : List UInt8) : Same a a := ⟨rfl, rfl⟩
theorem Spec.Conf.Same.symm {a b : List UInt8} (h : Same a b) : Same b a := ⟨h.1.symm, h.2.symm⟩
theorem Spec.Conf.Same.trans {a b c : List UInt8} (h : Same a b) (h' : Same b c) : Same a c :=
  ⟨h.1.trans h'.1, h.2.trans h'.2⟩

theorem memCaseEq_false {a b : List UInt8} : memCaseEq a b = false ↔ ¬ Same a b := by
  rw [← memCaseEq_iff]; simp

/-! ### Trimming -/

theorem blank_nil : Blank [] := by intro b hb; cases hb

theorem getD_mid (x : List UInt8) (b d : UInt8) (y : List UInt8) : (x ++ b :: y).getD x.length d = b := by
  simp [List.getD_eq_getElem?_getD]

theorem dropWhile_blank {w l : List UInt8} (h : Blank w) :
    (w ++ l).dropWhile isSpaceB = l.dropWhile isSpaceB := by
  induction w with
  | nil => rfl
  | cons b w ih =>
    have hb := (isSpaceB_iff b).2 (h b (by simp))
    simp only [List.cons_append, List.dropWhile_cons, hb, if_true]
    exact ih fun x hx => h x (by simp [hx])

theorem dropWhile_tight {b : UInt8} {r : List UInt8} (h : ¬ Space b) :
    (b :: r).dropWhile isSpaceB = b :: r := by
  have : isSpaceB b = false := by
    rcases hb : isSpaceB b with _ | _
    · rfl
    · exact absurd ((isSpaceB_iff b).1 hb) h
  simp [this]

theorem Spec.Conf.Blank.reverse {w : List UInt8} (h : Blank w) : Blank w.reverse :=
  fun b hb => h b (by simpa using hb)

theorem trimB_pad {w t w' : List UInt8} (h : Blank w) (h' : Blank w') (ht : Tight t) :
    trimB (w ++ (t ++ w')) = t := by
  obtain ⟨⟨b, r, rfl, hb⟩, r', b', e, hb'⟩ := ht
  unfold trimB
  rw [dropWhile_blank h, List.cons_append, dropWhile_tight hb, ← List.cons_append, e,
    List.reverse_append, dropWhile_blank h'.reverse]
  simp [dropWhile_tight hb']

theorem trimB_blank {w : List UInt8} (h : Blank w) : trimB w = [] := by
  have := dropWhile_blank (l := []) h
  simp at this
  simp [trimB, this]

theorem dropWhile_split (l : List UInt8) :
    ∃ w, Blank w ∧ l = w ++ l.dropWhile isSpaceB ∧
      (l.dropWhile isSpaceB = [] ∨ ∃ b r, l.dropWhile isSpaceB = b :: r ∧ ¬ Space b) := by
  induction l with
  | nil => exact ⟨[], blank_nil, rfl, Or.inl rfl⟩
  | cons b l ih =>
    by_cases hb : Space b
    · obtain ⟨w, hw, hl, hd⟩ := ih
      have h' := (isSpaceB_iff b).2 hb
      refine ⟨b :: w, ?_, ?_, ?_⟩
      · intro x hx
        rcases List.mem_cons.1 hx with rfl | hx
        · exact hb
        · exact hw x hx
      · simp only [List.dropWhile_cons, h', if_true, List.cons_append, ← hl]
      · simpa only [List.dropWhile_cons, h', if_true] using hd
    · refine ⟨[], blank_nil, ?_, Or.inr ⟨b, l, dropWhile_tight hb, hb⟩⟩
      simp [dropWhile_tight hb]

theorem trimB_spec (l : List UInt8) :
    (Blank l ∧ trimB l = []) ∨
      ∃ w w', Blank w ∧ Blank w' ∧ Tight (trimB l) ∧ l = w ++ (trimB l ++ w') := by
  obtain ⟨w, hw, hl, hd⟩ := dropWhile_split l
  rcases hd with hd | ⟨b, r, hd, hb⟩
  · left
    have : l = w := by rw [hd] at hl; simpa using hl
    rw [this]
    exact ⟨hw, trimB_blank hw⟩
  · right
    obtain ⟨v, hv, hr, hd'⟩ := dropWhile_split (b :: r).reverse
    rcases hd' with hd' | ⟨b', r', hd', hb'⟩
    · rw [hd'] at hr
      have : b ∈ v := by
        have : b ∈ (b :: r).reverse := by simp
        rw [hr] at this; simpa using this
      exact absurd (hv b this) hb
    · have ht : trimB l = r'.reverse ++ [b'] := by
        unfold trimB; rw [hd, hd']; simp
      have hl' : b :: r = trimB l ++ v.reverse := by
        have := congrArg List.reverse hr
        simp only [List.reverse_reverse, List.reverse_append] at this
        rw [this, ht, hd', List.reverse_cons]
      refine ⟨w, v.reverse, hw, hv.reverse, ?_, ?_⟩
      · refine ⟨?_, ⟨r'.reverse, b', ht, hb'⟩⟩
        cases htr : trimB l with
        | nil => rw [ht] at htr; simp at htr
        | cons x xs =>
          rw [htr] at hl'
          simp only [List.cons_append, List.cons.injEq] at hl'
          exact ⟨x, xs, rfl, hl'.1 ▸ hb⟩
      · rw [← hl', ← hd]; exact hl

theorem trimB_nil_iff (l : List UInt8) : trimB l = [] ↔ Blank l := by
  constructor
  · intro h
    rcases trimB_spec l with h' | ⟨_, _, _, _, ht, _⟩
    · exact h'.1
    · rw [h] at ht
      obtain ⟨⟨b, r, e, _⟩, _⟩ := ht
      cases e
  · exact trimB_blank

/-! ### Finding a byte -/

theorem findIdx?_byte {c : UInt8} {l : List UInt8} {e : Nat} :
    l.findIdx? (· == c) = some e ↔ ∃ x y, l = x ++ c :: y ∧ c ∉ x ∧ x.length = e := by
  induction l generalizing e with
  | nil => simp
  | cons b l ih =>
    rw [List.findIdx?_cons]
    by_cases hb : b = c
    · subst hb
      simp only [beq_self_eq_true, if_true, Option.some.injEq]
      constructor
      · rintro rfl; exact ⟨[], l, rfl, by simp, rfl⟩
      · rintro ⟨x, y, hl, hx, rfl⟩
        cases x with
        | nil => rfl
        | cons a x => simp at hl hx; exact absurd hl.1 hx.1
    · have : (b == c) = false := by simpa using hb
      simp only [this, Bool.false_eq_true, if_false, Option.map_eq_some_iff]
      constructor
      · rintro ⟨i, hi, rfl⟩
        obtain ⟨x, y, rfl, hx, rfl⟩ := ih.1 hi
        exact ⟨b :: x, y, rfl, by simpa using ⟨fun h => hb h.symm, hx⟩, rfl⟩
      · rintro ⟨x, y, hl, hx, rfl⟩
        cases x with
        | nil => simp at hl; exact absurd hl.1 hb
        | cons a x =>
          simp at hl hx
          exact ⟨x.length, ih.2 ⟨x, y, hl.2, hx.2, rfl⟩, rfl⟩

theorem findIdx?_byte_none {c : UInt8} {l : List UInt8} :
    l.findIdx? (· == c) = none ↔ c ∉ l := by
  simp only [List.findIdx?_eq_none_iff, beq_eq_false_iff_ne]
  exact ⟨fun h hm => h c hm rfl, fun h x hx e => h (e ▸ hx)⟩

/-! ### Section headers -/

theorem spacesOk_true (l : List UInt8) : spacesOk true l = true ↔ ∀ b ∈ l, ¬ Space b := by
  induction l with
  | nil => simp [spacesOk]
  | cons b l ih =>
    by_cases hb : Space b
    · have h := (isSpaceB_iff b).2 hb
      simp [spacesOk, h, hb]
    · have h : isSpaceB b = false := by
        rcases e : isSpaceB b with _ | _
        · rfl
        · exact absurd ((isSpaceB_iff b).1 e) hb
      simp [spacesOk, h, ih, hb]

theorem spacesOk_false (l : List UInt8) : spacesOk false l = true ↔
    (∀ b ∈ l, ¬ Space b) ∨
      ∃ x y, l = x ++ 32 :: y ∧ (∀ b ∈ x, ¬ Space b) ∧ (∀ b ∈ y, ¬ Space b) := by
  induction l with
  | nil => simp [spacesOk]
  | cons b l ih =>
    by_cases hb : Space b
    · have h := (isSpaceB_iff b).2 hb
      by_cases h32 : b = 32
      · subst h32
        simp only [spacesOk, h, if_true, bne_self_eq_false, Bool.false_eq_true, if_false, spacesOk_true]
        constructor
        · intro hl; exact Or.inr ⟨[], l, rfl, by simp, hl⟩
        · rintro (hl | ⟨x, y, hl, hx, hy⟩)
          · exact absurd hb (hl _ (by simp))
          · cases x with
            | nil => simp at hl; subst hl; exact hy
            | cons a x =>
              simp at hl
              exact absurd (hl.1 ▸ hb) (hx a (by simp))
      · have h' : (b != 32) = true := by simpa using h32
        simp only [spacesOk, h, if_true, h', Bool.false_eq_true, false_iff]
        rintro (hl | ⟨x, y, hl, hx, hy⟩)
        · exact absurd hb (hl _ (by simp))
        · cases x with
          | nil => simp at hl; exact h32 hl.1
          | cons a x =>
            simp at hl
            exact absurd (hl.1 ▸ hb) (hx a (by simp))
    · have h : isSpaceB b = false := by
        rcases e : isSpaceB b with _ | _
        · rfl
        · exact absurd ((isSpaceB_iff b).1 e) hb
      simp only [spacesOk, h, Bool.false_eq_true, if_false, ih]
      constructor
      · rintro (hl | ⟨x, y, rfl, hx, hy⟩)
        · left; intro c hc
          rcases List.mem_cons.1 hc with rfl | hc
          · exact hb
          · exact hl c hc
        · right
          refine ⟨b :: x, y, rfl, ?_, hy⟩
          intro c hc
          rcases List.mem_cons.1 hc with rfl | hc
          · exact hb
          · exact hx c hc
      · rintro (hl | ⟨x, y, hl, hx, hy⟩)
        · left; exact fun c hc => hl c (by simp [hc])
        · cases x with
          | nil => simp at hl; exact absurd (by rw [hl.1]; decide) hb
          | cons a x =>
            simp at hl
            right
            exact ⟨x, y, hl.2, fun c hc => hx c (by simp [hc]), hy⟩

/-- The checks of `_add_section` that do not depend on the sections. -/
def headerName (l : List UInt8) : Option (List UInt8) :=
  match l.findIdx? (· == 93) with
  | none => none
  | some e =>
    if e < l.length - 1 then none
    else if isSpaceB (l.getD (e - 1) 0) || isSpaceB (l.getD 1 0) then none
    else if !spacesOk false (l.take e) then none
    else some ((l.drop 1).take (l.length - 2))

theorem addSection_eq (ss : List CfgSection) (l : List UInt8) :
    addSection ss l = (headerName l).bind fun name =>
      match findSection name ss with
      | some k => some (ss, k)
      | none => if name.length > maxSectionName then none else some ({ name } :: ss, ss.length) := by
  unfold addSection headerName
  cases l.findIdx? (· == 93) with
  | none => rfl
  | some e =>
    simp only
    split
    · rfl
    · split
      · rfl
      · split <;> rfl

theorem isSpaceB_false {b : UInt8} : isSpaceB b = false ↔ ¬ Space b := by
  rw [← isSpaceB_iff]; simp

theorem not_space_bracket : ¬ Space 91 ∧ ¬ Space 93 := by decide

/-- A section name without the length limit. -/
def NameShape (n : List UInt8) : Prop :=
  93 ∉ n ∧ ((∀ b ∈ n, ¬ Space b) ∨
     ∃ x y, n = x ++ 32 :: y ∧ x ≠ [] ∧ y ≠ [] ∧ (∀ b ∈ x, ¬ Space b) ∧ (∀ b ∈ y, ¬ Space b))

theorem headerName_iff {bs n : List UInt8} :
    headerName (91 :: bs) = some n ↔ bs = n ++ [93] ∧ NameShape n := by
  unfold headerName
  constructor
  · intro h
    cases hf : (91 :: bs).findIdx? (· == 93) with
    | none => simp [hf] at h
    | some e =>
      obtain ⟨x, y, hl, hx, he⟩ := findIdx?_byte.1 hf
      simp only [hf] at h
      split at h
      · cases h
      · next h1 =>
        split at h
        · cases h
        · next h2 =>
          split at h
          · cases h
          · next h3 =>
            cases x with
            | nil => simp at hl
            | cons a x =>
              simp only [List.cons_append, List.cons.injEq] at hl
              obtain ⟨rfl, rfl⟩ := hl
              have hy : y = [] := by
                cases y with
                | nil => rfl
                | cons c y =>
                  exfalso; apply h1
                  simp only [List.length_cons, List.length_append] at he ⊢
                  omega
              subst hy
              have hn : n = x := by
                have : ((91 :: (x ++ [93])).drop 1).take ((91 :: (x ++ [93])).length - 2) = x := by
                  simp
                rw [this] at h
                exact (Option.some.inj h).symm
              subst hn
              refine ⟨rfl, ?_, ?_⟩
              · intro hm; exact hx (by simp [hm])
              · have ht : (91 :: (n ++ [93])).take e = 91 :: n := by
                  rw [← he]; simp
                rw [ht] at h3
                have h3' : spacesOk false (91 :: n) = true := by simpa using h3
                have hlast : ¬ Space ((91 :: (n ++ [93])).getD (e - 1) 0) ∧
                    ¬ Space ((91 :: (n ++ [93])).getD 1 0) := by
                  simp only [Bool.or_eq_true, not_or] at h2
                  exact ⟨fun hs => h2.1 ((isSpaceB_iff _).2 hs), fun hs => h2.2 ((isSpaceB_iff _).2 hs)⟩
                rcases (spacesOk_false _).1 h3' with hs | ⟨p, q, hpq, hp, hq⟩
                · left; exact fun b hb => hs b (by simp [hb])
                · cases p with
                  | nil => simp at hpq
                  | cons c p =>
                    simp only [List.cons_append, List.cons.injEq] at hpq
                    obtain ⟨rfl, rfl⟩ := hpq
                    right
                    refine ⟨p, q, rfl, ?_, ?_, fun b hb => hp b (by simp [hb]), hq⟩
                    · rintro rfl
                      exact hlast.2 (by simp; decide)
                    · rintro rfl
                      apply hlast.1
                      have : e - 1 = (91 :: p).length := by
                        simp only [List.length_cons, List.length_append, List.length_nil] at he ⊢
                        omega
                      rw [this]
                      have : (91 :: (p ++ [32] ++ [93])) = (91 :: p) ++ 32 :: [93] := by simp
                      rw [this, getD_mid]; decide
  · rintro ⟨rfl, h93, hsh⟩
    have hf : (91 :: (n ++ [93])).findIdx? (· == 93) = some (n.length + 1) :=
      findIdx?_byte.2 ⟨91 :: n, [], rfl, by simpa using h93, rfl⟩
    simp only [hf]
    have h1 : ¬ n.length + 1 < (91 :: (n ++ [93])).length - 1 := by simp
    have h2 : (isSpaceB ((91 :: (n ++ [93])).getD (n.length + 1 - 1) 0) ||
        isSpaceB ((91 :: (n ++ [93])).getD 1 0)) = false := by
      rw [Bool.or_eq_false_iff, isSpaceB_false, isSpaceB_false]
      have hends : (∀ b r, n = b :: r → ¬ Space b) ∧ (∀ b r, n = r ++ [b] → ¬ Space b) := by
        rcases hsh with hs | ⟨x, y, rfl, hx, hy, hx', hy'⟩
        · exact ⟨fun b r e => hs b (by simp [e]), fun b r e => hs b (by simp [e])⟩
        · constructor
          · intro b r e
            cases x with
            | nil => exact absurd rfl hx
            | cons a x => simp at e; exact e.1 ▸ hx' a (by simp)
          · intro b r e
            obtain ⟨y', c, rfl⟩ : ∃ y' c, y = y' ++ [c] := ⟨y.dropLast, y.getLast hy, (List.dropLast_concat_getLast hy).symm⟩
            have : x ++ 32 :: y' ++ [c] = r ++ [b] := by simpa using e
            have hc := (List.append_inj_right' this rfl)
            simp at hc
            exact hc ▸ hy' c (by simp)
      constructor
      · rcases List.eq_nil_or_concat n with rfl | ⟨r, b, rfl⟩
        · simp; decide
        · have h := hends.2 b r (by simp)
          have : (91 :: ((r ++ [b]) ++ [93])) = (91 :: r) ++ b :: [93] := by simp
          simp only [List.concat_eq_append] at *
          have e1 : (r ++ [b]).length + 1 - 1 = (91 :: r).length := by simp
          rw [this, e1, getD_mid]; exact h
      · cases n with
        | nil => simp; decide
        | cons b r => simpa using hends.1 b r rfl
    have h3 : spacesOk false ((91 :: (n ++ [93])).take (n.length + 1)) = true := by
      have : (91 :: (n ++ [93])).take (n.length + 1) = 91 :: n := by simp
      rw [this, spacesOk_false]
      rcases hsh with hs | ⟨x, y, rfl, hx, hy, hx', hy'⟩
      · left; intro b hb
        rcases List.mem_cons.1 hb with rfl | hb
        · decide
        · exact hs b hb
      · right
        refine ⟨91 :: x, y, rfl, ?_, hy'⟩
        intro b hb
        rcases List.mem_cons.1 hb with rfl | hb
        · decide
        · exact hx' b hb
    rw [if_neg h1, h2, h3]
    simp

/-! ### Settings -/

/-- Key and value of a line (`_add_config`). -/
def settingOf (l : List UInt8) : Option (List UInt8 × List UInt8) :=
  match l.findIdx? (· == 61) with
  | none => none
  | some e =>
    if e = 0 then none
    else if e = l.length - 1 then none
    else some (trimB (l.take e), trimB (l.drop (e + 1)))

/-- Setting a key of a list of options. -/
def upsert (cs : List CfgOpt) (key value : List UInt8) : List CfgOpt :=
  match findConfig key cs with
  | some _ => setConfig key value cs
  | none => { key, value } :: cs

theorem addConfig_eq (cs : List CfgOpt) (l : List UInt8) :
    addConfig cs l = (settingOf l).map fun kv => upsert cs kv.1 kv.2 := by
  unfold addConfig settingOf upsert
  cases l.findIdx? (· == 61) with
  | none => rfl
  | some e =>
    simp only
    split
    · rfl
    · split
      · rfl
      · simp only [Option.map_some]
        split <;> simp_all

theorem tight_append_left {w t : List UInt8} (x : List UInt8) (ht : Tight t)
    (h : ∃ b r, w = b :: r ∧ ¬ Space b) : Tight (w ++ (x ++ t)) := by
  obtain ⟨b, r, rfl, hb⟩ := h
  obtain ⟨_, r', b', rfl, hb'⟩ := ht
  exact ⟨⟨b, _, rfl, hb⟩, ⟨(b :: r) ++ (x ++ r'), b', by simp, hb'⟩⟩

theorem settingOf_iff {t k v : List UInt8} (ht : Tight t) :
    settingOf t = some (k, v) ↔
      ∃ w₂ w₃, Blank w₂ ∧ Blank w₃ ∧ Tight k ∧ Tight v ∧ 61 ∉ k ∧ t = k ++ (w₂ ++ 61 :: (w₃ ++ v)) := by
  unfold settingOf
  constructor
  · intro h
    cases hf : t.findIdx? (· == 61) with
    | none => simp [hf] at h
    | some e =>
      obtain ⟨x, y, rfl, hx, he⟩ := findIdx?_byte.1 hf
      simp only [hf] at h
      split at h
      · cases h
      · next h0 =>
        split at h
        · cases h
        · next h1 =>
          have h2 := Option.some.inj h
          simp only [Prod.mk.injEq, ← he, List.take_left] at h2
          have hd : (x ++ 61 :: y).drop (x.length + 1) = y := by simp
          rw [hd] at h2
          obtain ⟨rfl, rfl⟩ := h2
          have hxne : x ≠ [] := by rintro rfl; exact h0 (by simpa using he.symm)
          have hyne : y ≠ [] := by
            rintro rfl
            apply h1; simp [← he]
          obtain ⟨⟨b, r, hb, hbs⟩, r', b', hb', hbs'⟩ := ht
          -- the key
          have hk : Tight (trimB x) ∧ ∃ w₂, Blank w₂ ∧ x = trimB x ++ w₂ := by
            rcases trimB_spec x with ⟨hbl, _⟩ | ⟨w, w', hw, hw', ht', hx'⟩
            · cases x with
              | nil => exact absurd rfl hxne
              | cons c x =>
                simp at hb
                exact absurd (hbl c (by simp)) (hb.1 ▸ hbs)
            · refine ⟨ht', w', hw', ?_⟩
              cases w with
              | nil => simpa using hx'
              | cons c w =>
                rw [hx'] at hb; simp at hb
                exact absurd (hw c (by simp)) (hb.1 ▸ hbs)
          have hv : Tight (trimB y) ∧ ∃ w₃, Blank w₃ ∧ y = w₃ ++ trimB y := by
            have hlast : ∃ y', y = y' ++ [b'] := by
              obtain ⟨y', c, rfl⟩ : ∃ y' c, y = y' ++ [c] := ⟨y.dropLast, y.getLast hyne, (List.dropLast_concat_getLast hyne).symm⟩
              have : (x ++ 61 :: y') ++ [c] = r' ++ [b'] := by simpa using hb'
              have hc := List.append_inj_right' this rfl
              exact ⟨y', by rw [hc]⟩
            obtain ⟨y', hy'⟩ := hlast
            rcases trimB_spec y with ⟨hbl, _⟩ | ⟨w, w', hw, hw', ht', hx'⟩
            · exact absurd (hbl b' (by simp [hy'])) hbs'
            · refine ⟨ht', w, hw, ?_⟩
              rcases List.eq_nil_or_concat w' with rfl | ⟨u, c, rfl⟩
              · simpa using hx'
              · simp only [List.concat_eq_append] at *
                have e2 : y' ++ [b'] = (w ++ (trimB y ++ u)) ++ [c] := by
                  rw [← hy']; simpa using hx'
                have hc := List.append_inj_right' e2 rfl
                simp at hc
                exact absurd (hw' c (by simp)) (hc ▸ hbs')
          obtain ⟨hk1, w₂, hw₂, hk2⟩ := hk
          obtain ⟨hv1, w₃, hw₃, hv2⟩ := hv
          refine ⟨w₂, w₃, hw₂, hw₃, hk1, hv1, ?_, ?_⟩
          · intro hm; apply hx; rw [hk2]; simp [hm]
          · rw [← hv2, ← List.append_assoc, ← hk2]
  · rintro ⟨w₂, w₃, hw₂, hw₃, hk, hv, h61, rfl⟩
    have h61' : 61 ∉ k ++ w₂ := by
      simp only [List.mem_append, not_or]
      exact ⟨h61, fun h => absurd (hw₂ _ h) (by decide)⟩
    have hf : (k ++ (w₂ ++ 61 :: (w₃ ++ v))).findIdx? (· == 61) = some (k ++ w₂).length :=
      findIdx?_byte.2 ⟨k ++ w₂, w₃ ++ v, by simp, h61', rfl⟩
    simp only [hf]
    have hkne : k ≠ [] := by obtain ⟨⟨b, r, rfl, _⟩, _⟩ := hk; simp
    have hvne : v ≠ [] := by obtain ⟨⟨b, r, rfl, _⟩, _⟩ := hv; simp
    have hkl := List.length_pos_iff.2 hkne
    have hvl := List.length_pos_iff.2 hvne
    have h0 : (k ++ w₂).length ≠ 0 := by simp only [List.length_append]; omega
    have h1 : (k ++ w₂).length ≠ (k ++ (w₂ ++ 61 :: (w₃ ++ v))).length - 1 := by
      simp only [List.length_append, List.length_cons]; omega
    rw [if_neg h0, if_neg h1]
    have e1 : (k ++ (w₂ ++ 61 :: (w₃ ++ v))).take (k ++ w₂).length = k ++ w₂ := by
      rw [← List.append_assoc, List.take_left]
    have e2 : (k ++ (w₂ ++ 61 :: (w₃ ++ v))).drop ((k ++ w₂).length + 1) = w₃ ++ v := by
      have : k ++ (w₂ ++ 61 :: (w₃ ++ v)) = (k ++ w₂ ++ [61]) ++ (w₃ ++ v) := by simp
      rw [this, List.drop_left' (by simp; omega)]
    rw [e1, e2]
    have e3 := trimB_pad (w := []) blank_nil hw₂ hk
    have e4 := trimB_pad (w' := []) hw₃ blank_nil hv
    simp only [List.nil_append, List.append_nil] at e3 e4
    rw [e3, e4]

/-! ### The meaning of a line -/

/-- What the code makes of a line. -/
def lineSays (line : List UInt8) : Option Says :=
  match trimB line with
  | [] => some .nothing
  | b :: bs =>
    if b = 59 ∨ b = 35 then some .nothing
    else if b = 91 then
      (headerName (b :: bs)).bind fun n => if n.length ≤ maxSectionName then some (.header n) else none
    else (settingOf (b :: bs)).map fun kv => .setting kv.1 kv.2

theorem tight_header (n : List UInt8) : Tight (91 :: (n ++ [93])) :=
  ⟨⟨91, n ++ [93], rfl, by decide⟩, ⟨91 :: n, 93, rfl, by decide⟩⟩

/-- The code's reading of a line is the meaning of the line. -/
theorem lineSays_iff (l : List UInt8) (m : Says) : lineSays l = some m ↔ Means l m := by
  constructor
  · intro h
    rcases trimB_spec l with ⟨hbl, ht⟩ | ⟨w, w', hw, hw', ht, hl⟩
    · rw [lineSays, ht] at h
      cases h
      exact .blank hbl
    · cases hc : trimB l with
      | nil => rw [hc] at ht; obtain ⟨⟨_, _, e, _⟩, _⟩ := ht; cases e
      | cons b bs =>
        rw [hc] at ht hl
        simp only [lineSays, hc] at h
        split at h
        · next hcm =>
          cases h
          rw [hl, List.cons_append]
          exact .comment hw hcm
        · next hcm =>
          split at h
          · next hb =>
            subst hb
            rw [Option.bind_eq_some_iff] at h
            obtain ⟨n, hn, h⟩ := h
            split at h
            · next hle =>
              cases h
              obtain ⟨rfl, h93, hsh⟩ := headerName_iff.1 hn
              have : w ++ ((91 :: (n ++ [93])) ++ w') = w ++ 91 :: (n ++ 93 :: w') := by simp
              rw [hl, this]
              exact .header hw ⟨h93, hle, hsh⟩ hw'
            · cases h
          · next hb =>
            simp only [Option.map_eq_some_iff] at h
            obtain ⟨⟨k, v⟩, hkv, rfl⟩ := h
            obtain ⟨w₂, w₃, hw₂, hw₃, hk, hv, h61, e⟩ := (settingOf_iff ht).1 hkv
            have : w ++ ((b :: bs) ++ w') = w ++ (k ++ (w₂ ++ 61 :: (w₃ ++ (v ++ w')))) := by
              rw [e]; simp
            rw [hl, this]
            refine .setting hw hw₂ hw₃ hw' hk hv h61 ?_
            intro c hc'
            obtain ⟨⟨a, r, rfl, _⟩, _⟩ := hk
            simp at hc' e
            rw [← hc', ← e.1]
            simp only [not_or] at hcm
            exact ⟨hb, hcm.1, hcm.2⟩
  · intro h
    cases h with
    | blank h => simp [lineSays, trimB_blank h]
    | @comment w c r hw hc =>
      have hcs : ¬ Space c := by rcases hc with rfl | rfl <;> decide
      have : ∃ r', trimB (w ++ c :: r) = c :: r' := by
        unfold trimB
        rw [dropWhile_blank hw, dropWhile_tight hcs]
        obtain ⟨v, hv, hr, hd⟩ := dropWhile_split (c :: r).reverse
        have hx := congrArg List.reverse hr
        simp only [List.reverse_reverse, List.reverse_append] at hx
        rcases hd with hd | ⟨b', r', hd, hb'⟩
        · rw [hd] at hx
          simp at hx
          exact absurd (hv c (by have : c ∈ v.reverse := by rw [← hx]; simp
                                 simpa using this)) hcs
        · cases hq : ((c :: r).reverse.dropWhile isSpaceB).reverse with
          | nil => rw [hd] at hq; simp at hq
          | cons a q =>
            rw [hq] at hx
            simp at hx
            exact ⟨q, by rw [← hx.1]⟩
      obtain ⟨r', hr'⟩ := this
      simp [lineSays, hr', hc]
    | @header w n w' hw hn hw' =>
      have e : w ++ 91 :: (n ++ 93 :: w') = w ++ ((91 :: (n ++ [93])) ++ w') := by simp
      have ht := trimB_pad hw hw' (tight_header n)
      have hh : headerName (91 :: (n ++ [93])) = some n := headerName_iff.2 ⟨rfl, hn.1, hn.2.2⟩
      rw [lineSays, e, ht]
      have : n.length ≤ maxSectionName := hn.2.1
      simp [hh, this]
    | @setting w₁ k w₂ w₃ v w₄ h1 h2 h3 h4 hk hv h61 hhd =>
      have htt : Tight (k ++ (w₂ ++ 61 :: (w₃ ++ v))) := by
        have := tight_append_left (w := k) (w₂ ++ 61 :: w₃) hv (by
          obtain ⟨⟨b, r, e, hb⟩, _⟩ := hk; exact ⟨b, r, e, hb⟩)
        simpa using this
      have e : w₁ ++ (k ++ (w₂ ++ 61 :: (w₃ ++ (v ++ w₄)))) =
          w₁ ++ ((k ++ (w₂ ++ 61 :: (w₃ ++ v))) ++ w₄) := by simp
      have ht := trimB_pad h1 h4 htt
      have hs := (settingOf_iff htt).2 ⟨w₂, w₃, h2, h3, hk, hv, h61, rfl⟩
      rw [lineSays, e, ht]
      obtain ⟨⟨b, r, rfl, hb⟩, _⟩ := hk
      have := hhd b rfl
      simp only [List.cons_append] at hs ⊢
      rw [hs]
      simp [this.1, this.2.1, this.2.2]

/-- A line has at most one meaning. -/
theorem Spec.Conf.Means.unique {l : List UInt8} {m m' : Says} (h : Means l m) (h' : Means l m') : m = m' := by
  have h1 := (lineSays_iff l m).2 h
  have h2 := (lineSays_iff l m').2 h'
  rw [h1] at h2
  exact Option.some.inj h2

end Verif
