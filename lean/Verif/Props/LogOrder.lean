import Verif.Props.LogDir

/- Property C112: the alphabetical order of log files is the order of their creation. -/

namespace Verif
open Spec (Digit Space value Numbered)

/-- `a` is in front of `b` in alphabetical order. -/
def Spec.NameBefore (a b : List Char) : Prop :=
  (∃ c t, b = a ++ c :: t) ∨ ∃ p x y s t, a = p ++ x :: s ∧ b = p ++ y :: t ∧ x.toNat < y.toNat

/-- The name does not begin with a number, a sign or white space. -/
def Spec.Unnumbered (name : List Char) : Prop :=
  ∀ c, name.head? = some c → ¬ Digit c ∧ ¬ Space c ∧ c ≠ '-' ∧ c ≠ '+'

open Spec (NameBefore Unnumbered)

theorem value_lt : ∀ (l : List Char), (∀ c ∈ l, isDig c = true) → value l < 10 ^ l.length := by
  intro l
  induction l with
  | nil => intro _; simp [value]
  | cons c l ih =>
    intro h
    have h1 := ih (fun x hx => h x (List.mem_cons_of_mem _ hx))
    have h2 := h c List.mem_cons_self
    simp only [isDig, Bool.and_eq_true, decide_eq_true_eq] at h2
    simp only [value, List.length_cons, Nat.pow_succ]
    have h3 : (c.toNat - 48) * 10 ^ l.length ≤ 9 * 10 ^ l.length := Nat.mul_le_mul_right _ (by omega)
    omega

theorem before_of_value : ∀ (a b : List Char), a.length = b.length → (∀ c ∈ a, isDig c = true) → (∀ c ∈ b, isDig c = true) →
    value a < value b → ∀ s t, NameBefore (a ++ s) (b ++ t) := by
  intro a
  induction a with
  | nil => intro b hl _ _ hv; cases b with
    | nil => simp [value] at hv
    | cons _ _ => simp at hl
  | cons x a ih =>
    intro b hl ha hb hv s t
    cases b with
    | nil => simp at hl
    | cons y b =>
      have hl' : a.length = b.length := by simpa using hl
      have hx := ha x List.mem_cons_self
      have hy := hb y List.mem_cons_self
      simp only [isDig, Bool.and_eq_true, decide_eq_true_eq] at hx hy
      have va := value_lt a (fun c hc => ha c (List.mem_cons_of_mem _ hc))
      have vb := value_lt b (fun c hc => hb c (List.mem_cons_of_mem _ hc))
      simp only [value] at hv
      rcases Nat.lt_trichotomy x.toNat y.toNat with h | h | h
      · exact .inr ⟨[], x, y, a ++ s, b ++ t, rfl, rfl, h⟩
      · have e : x = y := Char.toNat_inj.1 h
        subst e
        rw [hl'] at hv
        have := ih b hl' (fun c hc => ha c (List.mem_cons_of_mem _ hc)) (fun c hc => hb c (List.mem_cons_of_mem _ hc)) (by omega) s t
        rcases this with ⟨c, r, e⟩ | ⟨p, u, v, q, r, e1, e2, hlt⟩
        · exact .inl ⟨c, r, by rw [List.cons_append, e]; rfl⟩
        · exact .inr ⟨x :: p, u, v, q, r, by rw [List.cons_append, e1]; rfl, by rw [List.cons_append, e2]; rfl, hlt⟩
      · exfalso
        have h1 : (y.toNat - 48 + 1) * 10 ^ b.length ≤ (x.toNat - 48) * 10 ^ b.length := Nat.mul_le_mul_right _ (by omega)
        rw [hl'] at hv
        rw [Nat.add_mul] at h1
        omega

theorem padded5_length {n : Nat} (h : n < 100000) : (padded 5 n).length = 5 := by
  have := decimal_length 4 n (by omega)
  simp [padded]; omega

theorem logName_before {i j : UInt32} (h : i < j) (hj : j.toNat < 100000) (t u : Date) (ext ext' : List Char) :
    NameBefore (logName i t ext) (logName j u ext') := by
  rw [UInt32.lt_iff_toNat_lt] at h
  rw [logName_eq, logName_eq]
  apply before_of_value
  · rw [padded5_length (by omega), padded5_length hj]
  · exact padded_digits _ _
  · exact padded_digits _ _
  · rw [← decVal_eq_value, ← decVal_eq_value, decVal_padded, decVal_padded]; exact h

theorem scanPrefix_unnumbered {name : List Char} (h : Unnumbered name) : scanPrefix name = none := by
  cases name with
  | nil => rfl
  | cons c l =>
    obtain ⟨h1, h2, h3, h4⟩ := h c rfl
    have hs : isSpaceC c = false := by
      cases hc : isSpaceC c with
      | false => rfl
      | true =>
        exfalso; apply h2
        simp only [isSpaceC, Bool.or_eq_true, beq_iff_eq] at hc
        simp only [Space, List.mem_cons, List.not_mem_nil, or_false]
        rcases hc with ((((h | h) | h) | h) | h) | h <;> simp [h]
    have hd : isDig c = false := by
      cases hc : isDig c with
      | false => rfl
      | true =>
        exfalso; apply h1
        simp only [isDig, Bool.and_eq_true, decide_eq_true_eq] at hc
        exact ⟨hc.1, hc.2⟩
    have hsg : takeSign (c :: l) = (false, c :: l) := by
      unfold takeSign
      split
      · rename_i h; cases h; exact absurd rfl h3
      · rename_i h; cases h; exact absurd rfl h4
      · rfl
    simp [scanPrefix, scanU, List.dropWhile, hs, hsg, hd]

/-- The state C112 is about: each entry of the directory begins with a number up to `max`, or with something that is no number. -/
def Spec.SmallNumbers (max : Nat) (d : List Entry) : Prop :=
  ∀ e ∈ d, (∃ n, Numbered e.name n ∧ n ≤ max) ∨ Unnumbered e.name

/-- **C112**, partial: the name of a new log is behind the names of all logs in the directory in alphabetical order, whatever their
dates and extensions, and whatever other processes do. Missing: numbers from 99989 on, see `C112_violated`. -/
theorem C112_order_partial (env : OpenEnv) (t : Date) (ext : List Char) (d d' : List Entry) (name : List Char)
    (hd : Spec.SmallNumbers 99988 d) (h : getFile env t ext d = (d', some name)) :
    ∀ e ∈ d, (∃ i t0 ext0, e.name = logName i t0 ext0) → NameBefore e.name name := by
  have hp : (getPrefix d).toNat ≤ 99989 := by
    apply getPrefix_le
    intro e he u hu
    rcases hd e he with ⟨n, hn, hle⟩ | hun
    · rw [scanPrefix_numbered hn (by omega)] at hu
      cases hu
      rw [UInt32.toNat_ofNat']
      omega
    · rw [scanPrefix_unnumbered hun] at hu; cases hu
  rintro e he ⟨i, t0, ext0, hen⟩
  have hi : i < 4294967295 := by
    rcases hd e he with ⟨n, hn, hle⟩ | hun
    · have h1 := scanPrefix_numbered hn (by omega)
      rw [hen, scanPrefix_logName] at h1
      cases h1
      rw [UInt32.lt_iff_toNat_lt, UInt32.toNat_ofNat']
      have : n % 2 ^ 32 = n := Nat.mod_eq_of_lt (by omega)
      rw [this]
      show n < 4294967295
      omega
    · rw [hen] at hun
      have h1 := scanPrefix_unnumbered hun
      rw [scanPrefix_logName] at h1
      cases h1
  have hlt := getPrefix_gt he (by rw [hen]; exact scanPrefix_logName i t0 ext0) hi
  have key : ∀ (p : UInt32) (n j : Nat) (d d' : List Entry), n + j ≤ 11 →
      tryOpen env p t ext n j d = (d', some name) →
      ∃ k, k ≤ 10 ∧ name = logName (p + UInt32.ofNat k) t ext := by
    intro p n
    induction n with
    | zero => intro j d d' _ h; simp [tryOpen] at h
    | succ n ih =>
      intro j d d' hj h
      simp only [tryOpen] at h
      split at h
      · simp at h
      · split at h
        · simp at h
        · split at h
          · exact ih (j + 1) _ _ (by omega) h
          · simp only [Prod.mk.injEq, Option.some.injEq] at h
            exact ⟨j, by omega, h.2.symm⟩
  obtain ⟨k, hk, hname⟩ := key (getPrefix d) 11 0 d d' (by omega) h
  have hk' : k % 4294967296 = k := Nat.mod_eq_of_lt (by omega)
  have hj : (getPrefix d + UInt32.ofNat k).toNat = (getPrefix d).toNat + k := by
    rw [UInt32.toNat_add, UInt32.toNat_ofNat', hk']
    exact Nat.mod_eq_of_lt (by omega)
  rw [hen, hname]
  rw [UInt32.lt_iff_toNat_lt] at hlt
  exact logName_before (by rw [UInt32.lt_iff_toNat_lt, hj]; omega) (by rw [hj]; omega) _ _ _ _

/-- The new log of the sample directory is behind all the others. -/
example : NameBefore (Sample.oldLog 7).name "00009-2024-03-09_07-05-01.ulg".toList := by
  refine C112_order_partial Sample.quiet Sample.date "ulg".toList Sample.logDir
    (Sample.logDir ++ [{ name := "00009-2024-03-09_07-05-01.ulg".toList }]) _ ?_ (by decide +kernel) _
    (List.mem_cons_self) ⟨7, _, _, rfl⟩
  intro e he
  simp only [Sample.logDir, List.mem_cons, List.not_mem_nil, or_false] at he
  rcases he with rfl | rfl | rfl | rfl | rfl
  · exact .inl ⟨7, numbered_logName 7 _ _, by decide⟩
  · right; intro c hc; cases hc; refine ⟨?_, ?_, by decide, by decide⟩
    · simp only [Digit]; decide
    · simp only [Space]; decide
  · exact .inl ⟨3, numbered_logName 3 _ _, by decide⟩
  · exact .inl ⟨8, numbered_logName 8 _ _, by decide⟩
  · exact .inl ⟨5, numbered_logName 5 _ _, by decide⟩

/-- **C112** is false: log 100000 is in front of log 99999. -/
theorem C112_violated : ∃ d' name,
    getFile Sample.quiet Sample.date "ulg".toList [Sample.oldLog 99999] = (d', some name) ∧
    NameBefore name (Sample.oldLog 99999).name ∧ ¬ NameBefore (Sample.oldLog 99999).name name := by
  refine ⟨[Sample.oldLog 99999] ++ [{ name := "100000-2024-03-09_07-05-01.ulg".toList }],
    "100000-2024-03-09_07-05-01.ulg".toList, by decide +kernel, ?_, ?_⟩
  · exact .inr ⟨[], '1', '9', "00000-2024-03-09_07-05-01.ulg".toList, "9999-2024-03-09_07-05-01.ulg".toList, rfl,
      by decide +kernel, by decide⟩
  · have e : (Sample.oldLog 99999).name = '9' :: "9999-2024-03-09_07-05-01.ulg".toList := by decide +kernel
    have e' : "100000-2024-03-09_07-05-01.ulg".toList = '1' :: "00000-2024-03-09_07-05-01.ulg".toList := by decide +kernel
    rw [e, e']
    rintro (⟨c, r, h⟩ | ⟨p, x, y, s, r, h1, h2, h3⟩)
    · rw [List.cons_append] at h
      have := (List.cons.inj h).1
      exact absurd this (by decide)
    · cases p with
      | nil =>
        have a := (List.cons.inj h1).1
        have b := (List.cons.inj h2).1
        subst a; subst b
        exact absurd h3 (by decide)
      | cons z p =>
        have a := (List.cons.inj h1).1
        have b := (List.cons.inj h2).1
        rw [← a] at b
        exact absurd b (by decide)

end Verif
