import Verif.Spec.Mkdir

/-
C65: creating the log directory.
-/

namespace Verif
open Spec

/-! ### Positions at which the path is cut -/

/-- A slash behind a component. -/
def isCut (p : List UInt8) (k : Nat) : Bool := 0 < k && p[k]? == some 47 && p[k - 1]? != some 47

/-- The cuts below a position. -/
def cutsBelow (p : List UInt8) : Nat → List Nat
  | 0 => []
  | e + 1 => if isCut p e then cutsBelow p e ++ [e] else cutsBelow p e

theorem cutsBelow_succ (p : List UInt8) (e : Nat) :
    cutsBelow p (e + 1) = if isCut p e then cutsBelow p e ++ [e] else cutsBelow p e := rfl

theorem cutsBelow_mem {p : List UInt8} {e k : Nat} : k ∈ cutsBelow p e ↔ k < e ∧ isCut p k = true := by
  induction e with
  | zero => simp [cutsBelow]
  | succ e ih =>
    unfold cutsBelow
    split
    · next h =>
      simp only [List.mem_append, ih, List.mem_singleton]
      constructor
      · rintro (⟨h1, h2⟩ | rfl)
        · exact ⟨by omega, h2⟩
        · exact ⟨by omega, h⟩
      · rintro ⟨h1, h2⟩
        by_cases h3 : k = e
        · exact .inr h3
        · exact .inl ⟨by omega, h2⟩
    · next h =>
      rw [ih]
      constructor
      · rintro ⟨h1, h2⟩; exact ⟨by omega, h2⟩
      · rintro ⟨h1, h2⟩
        refine ⟨?_, h2⟩
        have : k ≠ e := by rintro rfl; exact h h2
        omega

theorem cutsBelow_sorted (p : List UInt8) (e : Nat) : (cutsBelow p e).Pairwise (· < ·) := by
  induction e with
  | zero => exact .nil
  | succ e ih =>
    unfold cutsBelow
    split
    · refine List.pairwise_append.2 ⟨ih, by simp, ?_⟩
      intro a ha b hb
      have := (cutsBelow_mem.1 ha).1
      simp at hb; omega
    · exact ih

theorem cutsBelow_last {p : List UInt8} {e r : Nat} (h1 : r < e) (h2 : isCut p r = true)
    (h3 : ∀ k, isCut p k = true → k < e → k ≤ r) : cutsBelow p e = cutsBelow p r ++ [r] := by
  induction e with
  | zero => omega
  | succ e ih =>
    rw [cutsBelow_succ]
    by_cases he : r = e
    · subst he; rw [if_pos h2]
    · rw [if_neg, ih (by omega) fun k hk hk' => h3 k hk (by omega)]
      intro hc
      have := h3 e hc (by omega)
      omega

/-! ### Walking backwards -/

theorem toSlash_spec (buf : List UInt8) (e : Nat) : toSlash buf e ≤ e ∧
    (toSlash buf e = 0 ∨ buf[toSlash buf e]? = some 47) ∧
    ∀ k, toSlash buf e < k → k ≤ e → buf[k]? ≠ some 47 := by
  induction e with
  | zero => exact ⟨Nat.le_refl _, .inl rfl, fun k h h' => by unfold toSlash at h; omega⟩
  | succ e ih =>
    unfold toSlash
    split
    · next h => exact ⟨Nat.le_refl _, .inr h, fun k h h' => by omega⟩
    · next h =>
      obtain ⟨h1, h2, h3⟩ := ih
      refine ⟨by omega, h2, fun k hk hk' => ?_⟩
      by_cases he : k = e + 1
      · subst he; exact h
      · exact h3 k hk (by omega)

theorem skipSlashes_spec (buf : List UInt8) (e : Nat) : skipSlashes buf e ≤ e ∧
    (skipSlashes buf e = 0 ∨ buf[skipSlashes buf e - 1]? ≠ some 47) ∧
    ∀ k, skipSlashes buf e ≤ k → k < e → buf[k]? = some 47 := by
  induction e with
  | zero => exact ⟨Nat.le_refl _, .inl rfl, fun k h h' => by omega⟩
  | succ e ih =>
    unfold skipSlashes
    split
    · next h =>
      obtain ⟨h1, h2, h3⟩ := ih
      refine ⟨by omega, h2, fun k hk hk' => ?_⟩
      by_cases he : k = e
      · subst he; exact h
      · exact h3 k hk (by omega)
    · next h => exact ⟨Nat.le_refl _, .inr h, fun k h h' => by omega⟩

/-- The next position is the last cut, or 0. -/
theorem back_spec {p buf : List UInt8} {e : Nat} (he : 0 < e) (hlow : ∀ i, i < e → buf[i]? = p[i]?)
    (hnul : buf[e]? = some 0) {r : Nat} (hr : skipSlashes buf (toSlash buf e) = r) :
    r < e ∧ ((r = 0 ∧ cutsBelow p e = []) ∨ (0 < r ∧ isCut p r = true ∧ cutsBelow p e = cutsBelow p r ++ [r])) := by
  obtain ⟨a1, a2, a3⟩ := toSlash_spec buf e
  obtain ⟨b1, b2, b3⟩ := skipSlashes_spec buf (toSlash buf e)
  rw [hr] at b1 b2 b3
  have hlt : toSlash buf e < e := by
    rcases Nat.lt_or_ge (toSlash buf e) e with h | h
    · exact h
    · have h : toSlash buf e = e := by omega
      rw [h, hnul] at a2
      rcases a2 with h' | h'
      · omega
      · simp at h'
  have hmax : ∀ k, isCut p k = true → k < e → k ≤ r := by
    intro k hk hke
    simp only [isCut, Bool.and_eq_true, decide_eq_true_eq, beq_iff_eq, bne_iff_ne] at hk
    obtain ⟨⟨h1, h2⟩, h3⟩ := hk
    rcases Nat.lt_or_ge r k with h | h
    · rcases Nat.lt_or_ge (toSlash buf e) k with h' | h'
      · exact absurd ((hlow k hke).trans h2) (a3 k h' (by omega))
      · exact absurd ((hlow (k - 1) (by omega)).symm.trans (b3 (k - 1) (by omega) (by omega))) h3
    · exact h
  refine ⟨by omega, ?_⟩
  rcases Nat.eq_zero_or_pos r with h | h
  · refine .inl ⟨h, ?_⟩
    cases hc : cutsBelow p e with
    | nil => rfl
    | cons k ks =>
      have hm : k ∈ cutsBelow p e := by rw [hc]; simp
      obtain ⟨h1, h2⟩ := cutsBelow_mem.1 hm
      have := hmax k h2 h1
      simp only [isCut, Bool.and_eq_true, decide_eq_true_eq] at h2
      omega
  · have hs : buf[r]? = some 47 := by
      rcases Nat.lt_or_ge r (toSlash buf e) with h' | h'
      · exact b3 r (Nat.le_refl _) h'
      · have h' : toSlash buf e = r := by omega
        rw [h'] at a2
        rcases a2 with h'' | h''
        · omega
        · exact h''
    have hcut : isCut p r = true := by
      simp only [isCut, Bool.and_eq_true, decide_eq_true_eq, beq_iff_eq, bne_iff_ne]
      refine ⟨⟨h, (hlow r (by omega)).symm.trans hs⟩, ?_⟩
      rw [← hlow (r - 1) (by omega)]
      rcases b2 with h' | h'
      · omega
      · exact h'
    exact .inr ⟨h, hcut, cutsBelow_last (by omega) hcut hmax⟩

/-! ### The buffer -/

/-- The buffer holds the path with NULs at the positions `E`. -/
def BufAt (p : List UInt8) (E : List Nat) (buf : List UInt8) : Prop :=
  buf.length = p.length + 1 ∧
  (∀ i, i ∈ E → i ≤ p.length → buf[i]? = some 0) ∧ ∀ i, i ∉ E → i < p.length → buf[i]? = p[i]?

theorem cstrAt_eq {buf : List UInt8} {e k : Nat} (hek : e ≤ k) (h0 : buf[k]? = some 0)
    (hn : ∀ i, e ≤ i → i < k → buf[i]? ≠ some 0) : cstrAt buf e = some ((buf.drop e).take (k - e)) := by
  have hk : k < buf.length := by
    rcases Nat.lt_or_ge k buf.length with h | h
    · exact h
    · rw [List.getElem?_eq_none h] at h0; cases h0
  have hd : buf.drop e = (buf.drop e).take (k - e) ++ 0 :: buf.drop (k + 1) := by
    have h1 : (buf.drop e).drop (k - e) = 0 :: buf.drop (k + 1) := by
      rw [List.drop_drop, show e + (k - e) = k by omega, List.drop_eq_getElem_cons hk]
      congr 1
      rw [List.getElem?_eq_getElem hk] at h0
      exact Option.some.inj h0
    rw [← h1, List.take_append_drop]
  unfold cstrAt
  rw [if_pos (by rw [hd]; simp)]
  congr 1
  have hx : ∀ a ∈ (buf.drop e).take (k - e), (a != 0) = true := by
    intro a ha
    obtain ⟨i, hi, rfl⟩ := List.getElem_of_mem ha
    have hi' : i < k - e := by
      have := List.length_take_le (k - e) (buf.drop e); omega
    simp only [List.getElem_take, List.getElem_drop, bne_iff_ne]
    intro h
    refine hn (e + i) (by omega) (by omega) ?_
    rw [List.getElem?_eq_getElem (by omega), h]
  conv => lhs; rw [hd]
  rw [List.takeWhile_append_of_pos hx]
  simp

theorem BufAt.nonzero {p : List UInt8} {E : List Nat} {buf : List UInt8} (h : BufAt p E buf) (hp : 0 ∉ p)
    {i : Nat} (hi : i ∉ E) (hl : i < p.length) : buf[i]? ≠ some 0 := by
  rw [h.2.2 i hi hl]
  intro h'
  exact hp (List.mem_of_getElem? h')

/-- The string at the start is the path up to the first NUL. -/
theorem BufAt.start {p : List UInt8} {k : Nat} {E : List Nat} {buf : List UInt8} (h : BufAt p (k :: E) buf)
    (hp : 0 ∉ p) (hk : k ≤ p.length) (hs : ∀ j ∈ E, k < j) : cstrAt buf 0 = some (p.take k) := by
  have hni : ∀ i, i < k → i ∉ k :: E := by
    intro i hi hm
    rcases List.mem_cons.1 hm with rfl | hm
    · omega
    · have := hs i hm; omega
  rw [cstrAt_eq (Nat.zero_le k) (h.2.1 k (by simp) hk) fun i _ hi => h.nonzero hp (hni i hi) (by omega)]
  congr 1
  apply List.ext_getElem?
  intro i
  simp only [List.drop_zero, Nat.sub_zero, List.getElem?_take]
  split
  · next hi => exact h.2.2 i (hni i hi) (by omega)
  · rfl

/-- The string at a later position reaches to the next NUL. -/
theorem BufAt.rest {p : List UInt8} {k e : Nat} {E : List Nat} {buf : List UInt8} (h : BufAt p (k :: E) buf)
    (hp : 0 ∉ p) (hk : k ≤ p.length) (hs : ∀ j ∈ E, k < j) (he : e ≤ k) :
    ∃ t, cstrAt buf e = some t ∧ e + t.length = k := by
  have hni : ∀ i, i < k → i ∉ k :: E := by
    intro i hi hm
    rcases List.mem_cons.1 hm with rfl | hm
    · omega
    · have := hs i hm; omega
  refine ⟨_, cstrAt_eq he (h.2.1 k (by simp) hk) fun i _ hi => h.nonzero hp (hni i hi) (by omega), ?_⟩
  simp only [List.length_take, List.length_drop, h.1]
  omega

theorem BufAt.cut {p : List UInt8} {E : List Nat} {buf : List UInt8} (h : BufAt p E buf) {e : Nat} (he : e ≤ p.length) :
    BufAt p (e :: E) (buf.set e 0) := by
  refine ⟨by simp [h.1], ?_, ?_⟩
  · intro i hi hl
    by_cases hie : e = i
    · subst hie
      rw [List.getElem?_set_self (by rw [h.1]; omega)]
    · rw [List.getElem?_set_ne hie]
      rcases List.mem_cons.1 hi with rfl | hi
      · exact absurd rfl hie
      · exact h.2.1 i hi hl
  · intro i hi hl
    rw [List.getElem?_set_ne (by rintro rfl; simp at hi)]
    exact h.2.2 i (fun hm => hi (by simp [hm])) hl

theorem BufAt.mend {p : List UInt8} {k : Nat} {E : List Nat} {buf : List UInt8} (h : BufAt p (k :: E) buf)
    (hs : ∀ j ∈ E, k < j) (hk : p[k]? = some 47) : BufAt p E (buf.set k 47) := by
  have hkl : k < p.length := by
    rcases Nat.lt_or_ge k p.length with h | h
    · exact h
    · rw [List.getElem?_eq_none h] at hk; cases hk
  refine ⟨by simp [h.1], ?_, ?_⟩
  · intro i hi hl
    have := hs i hi
    rw [List.getElem?_set_ne (by omega)]
    exact h.2.1 i (by simp [hi]) hl
  · intro i hi hl
    by_cases hik : k = i
    · subst hik
      rw [List.getElem?_set_self (by rw [h.1]; omega), hk]
    · rw [List.getElem?_set_ne hik]
      exact h.2.2 i (by simp; exact ⟨fun h => hik h.symm, hi⟩) hl

/-- The positions the creation still has to handle: cuts, and the end of the path. -/
def Ends (p : List UInt8) (E : List Nat) : Prop :=
  E.Pairwise (· < ·) ∧ ∃ A, E = A ++ [p.length] ∧ ∀ k ∈ A, isCut p k = true

theorem Ends.tail {p : List UInt8} {k k' : Nat} {E : List Nat} (h : Ends p (k :: k' :: E)) :
    isCut p k = true ∧ Ends p (k' :: E) := by
  obtain ⟨h1, A, h2, h3⟩ := h
  cases A with
  | nil => simp at h2
  | cons a A =>
    simp only [List.cons_append, List.cons.injEq] at h2
    exact ⟨h2.1 ▸ h3 a (by simp), (List.pairwise_cons.1 h1).2, A, h2.2, fun k hk => h3 k (by simp [hk])⟩

theorem Ends.le {p : List UInt8} {E : List Nat} (h : Ends p E) : ∀ k ∈ E, k ≤ p.length := by
  obtain ⟨h1, A, rfl, h3⟩ := h
  intro k hk
  rcases List.mem_append.1 hk with hk | hk
  · have := (List.pairwise_append.1 h1).2.2 k hk p.length (by simp); omega
  · simp at hk; omega

theorem Ends.last {p : List UInt8} {k : Nat} (h : Ends p [k]) : k = p.length := by
  obtain ⟨h1, A, h2, h3⟩ := h
  cases A with
  | nil => simpa using h2
  | cons a A => simp at h2

theorem isCut_slash {p : List UInt8} {k : Nat} (h : isCut p k = true) : p[k]? = some 47 := by
  simp only [isCut, Bool.and_eq_true, beq_iff_eq] at h
  exact h.1.2

theorem makeEach_cons {σ : Type} (mkdir : σ → List UInt8 → σ × MkRes) (fs : σ) (q : List UInt8) (qs : List (List UInt8)) :
    makeEach mkdir fs (q :: qs) =
      match (mkdir fs q).2 with
      | .err x => ((mkdir fs q).1, .err x)
      | _ => makeEach mkdir (mkdir fs q).1 qs := rfl

theorem mkCreate_spec {σ : Type} (mkdir : σ → List UInt8 → σ × MkRes) {p : List UInt8} (hp : 0 ∉ p) (n : Nat)
    (fs : σ) (buf : List UInt8) (e k : Nat) (E : List Nat) (hE : Ends p (k :: E)) (he : e < k)
    (hb : BufAt p (k :: E) buf) (hn : E.length + 1 < n) :
    mkCreate mkdir p.length n fs buf e = makeEach mkdir fs ((k :: E).map (p.take ·)) := by
  induction E generalizing n fs buf e k with
  | nil =>
    have hk := hE.last
    subst hk
    match n, hn with
    | n + 2, _ =>
      obtain ⟨t, h1, h2⟩ := hb.rest hp (Nat.le_refl _) (by simp) (Nat.le_of_lt he)
      unfold mkCreate
      rw [if_pos he, hb.start hp (Nat.le_refl _) (by simp)]
      simp only [h1, h2, List.map_cons, List.map_nil, makeEach]
      cases hm : mkdir fs (p.take p.length) with
      | mk fs' r =>
        cases r with
        | err x => rfl
        | ok => simp only [mkCreate]; rw [if_neg (Nat.lt_irrefl _)]
        | present => simp only [mkCreate]; rw [if_neg (Nat.lt_irrefl _)]
  | cons k' E ih =>
    obtain ⟨hc, hE'⟩ := hE.tail
    have hle := hE.le k (by simp)
    have hlt : ∀ j ∈ k' :: E, k < j := (List.pairwise_cons.1 hE.1).1
    have hkl : k < p.length := Nat.lt_of_lt_of_le (hlt k' (by simp)) (hE.le k' (by simp))
    match n, hn with
    | n + 1, hn =>
      obtain ⟨t, h1, h2⟩ := hb.rest hp hle hlt (Nat.le_of_lt he)
      have hrec := fun fs => ih n fs (buf.set k 47) k k' hE' (hlt k' (by simp)) (hb.mend hlt (isCut_slash hc)) (by simpa using hn)
      unfold mkCreate
      rw [if_pos (by omega), hb.start hp hle hlt]
      simp only [h1, h2, hrec]
      rw [List.map_cons (a := k), makeEach_cons]
      cases hm : mkdir fs (p.take k) with
      | mk fs' r =>
        cases r with
        | err x => rfl
        | ok => rfl
        | present => rfl

theorem mkScan_spec (stat : List UInt8 → StatRes) {p : List UInt8} (hp : 0 ∉ p) (n : Nat) (buf : List UInt8)
    (prev e : Nat) (E : List Nat) (hE : Ends p (prev :: E)) (hb : BufAt p (prev :: E) buf) (he : e < prev)
    (hlast : (e = 0 ∧ cutsBelow p prev = []) ∨ (0 < e ∧ isCut p e = true ∧ cutsBelow p prev = cutsBelow p e ++ [e]))
    (hfail : ∀ k ∈ E, stat (p.take k) = .fail) (hn : e < n) :
    (∃ A k B, cutsBelow p prev ++ prev :: E = A ++ k :: B ∧ (∀ q ∈ B, stat (p.take q) = .fail) ∧
      ((stat (p.take k) = .other ∧ mkScan stat p.length n buf e = .result .notDir) ∨
       (stat (p.take k) = .dir ∧ B = [] ∧ mkScan stat p.length n buf e = .result .ok) ∨
       (stat (p.take k) = .dir ∧ B ≠ [] ∧ ∃ buf', mkScan stat p.length n buf e = .create buf' k ∧ BufAt p B buf' ∧
         Ends p B))) ∨
    ((∀ q ∈ cutsBelow p prev ++ prev :: E, stat (p.take q) = .fail) ∧
      ∃ buf', mkScan stat p.length n buf e = .create buf' 0 ∧ BufAt p (cutsBelow p prev ++ prev :: E) buf' ∧
        Ends p (cutsBelow p prev ++ prev :: E)) := by
  induction n generalizing buf prev e E with
  | zero => omega
  | succ n ih =>
    have hle := hE.le prev (by simp)
    have hlt : ∀ j ∈ E, prev < j := (List.pairwise_cons.1 hE.1).1
    unfold mkScan
    rw [hb.start hp hle hlt]
    simp only []
    cases hs : stat (p.take prev) with
    | other => exact .inl ⟨_, prev, E, rfl, hfail, .inl ⟨hs, rfl⟩⟩
    | dir =>
      obtain ⟨t, h1, h2⟩ := hb.rest hp hle hlt (Nat.le_of_lt he)
      simp only [h1, h2]
      refine .inl ⟨_, prev, E, rfl, hfail, ?_⟩
      cases E with
      | nil =>
        have := hE.last
        subst this
        exact .inr (.inl ⟨hs, rfl, by rw [if_pos rfl]⟩)
      | cons k' E =>
        obtain ⟨hc, hE'⟩ := hE.tail
        have hkl : prev < p.length := Nat.lt_of_lt_of_le (hlt k' (by simp)) (hE.le k' (by simp))
        refine .inr (.inr ⟨hs, by simp, _, by rw [if_neg (by omega)], hb.mend hlt (isCut_slash hc), hE'⟩)
    | fail =>
      have hf : ∀ k ∈ prev :: E, stat (p.take k) = .fail := by
        intro k hk
        rcases List.mem_cons.1 hk with rfl | hk
        · exact hs
        · exact hfail k hk
      rcases hlast with ⟨rfl, hl⟩ | ⟨hpos, hc, hl⟩
      · rw [if_pos rfl, hl]
        exact .inr ⟨hf, _, rfl, hb, hE⟩
      · have hne : e ≠ 0 := by omega
        simp only [if_neg hne]
        have hb' := hb.cut (e := e) (by omega)
        have hE' : Ends p (e :: prev :: E) := by
          obtain ⟨h1, A, h2, h3⟩ := hE
          refine ⟨List.pairwise_cons.2 ⟨?_, h1⟩, e :: A, by rw [h2]; rfl, ?_⟩
          · intro j hj
            rcases List.mem_cons.1 hj with rfl | hj
            · exact he
            · have := hlt j hj; omega
          · intro k hk
            rcases List.mem_cons.1 hk with rfl | hk
            · exact hc
            · exact h3 k hk
        have hlow : ∀ i, i < e → (buf.set e 0)[i]? = p[i]? := by
          intro i hi
          refine hb'.2.2 i ?_ (by omega)
          intro hm
          rcases List.mem_cons.1 hm with rfl | hm
          · omega
          · rcases List.mem_cons.1 hm with rfl | hm
            · omega
            · have := hlt i hm; omega
        obtain ⟨r1, r2⟩ := back_spec hpos hlow (hb'.2.1 e (by simp) (by omega)) rfl
        have := ih (buf.set e 0) e _ (prev :: E) hE' hb' r1 r2 hf (by omega)
        rw [hl, List.append_assoc]
        exact this

/-! ### The whole -/

theorem sorted_length {l : List Nat} {a n : Nat} (h : l.Pairwise (· < ·)) (h1 : ∀ k ∈ l, a ≤ k) (h2 : ∀ k ∈ l, k ≤ n) :
    l.length ≤ n + 1 - a := by
  induction l generalizing a with
  | nil => simp
  | cons k l ih =>
    obtain ⟨h3, h4⟩ := List.pairwise_cons.1 h
    have h5 := ih (a := k + 1) h4 (fun j hj => h3 j hj) fun j hj => h2 j (by simp [hj])
    have h6 := h1 k (by simp)
    have h7 := h2 k (by simp)
    simp only [List.length_cons]
    omega

theorem Ends.fuel {p : List UInt8} {k : Nat} {E : List Nat} (h : Ends p (k :: E)) : E.length + 1 < p.length + 2 := by
  have := sorted_length (a := 0) h.1 (fun _ _ => Nat.zero_le _) h.le
  simp only [List.length_cons] at this
  omega

/-- The paths on the way. -/
def wayTo (p : List UInt8) : List (List UInt8) := (cutsBelow p p.length ++ [p.length]).map (p.take ·)

theorem wayTo_spec (p : List UInt8) : WayTo p (wayTo p) := by
  have hs : (cutsBelow p p.length ++ [p.length]).Pairwise (· < ·) := by
    refine List.pairwise_append.2 ⟨cutsBelow_sorted _ _, by simp, ?_⟩
    intro a ha b hb
    have := (cutsBelow_mem.1 ha).1
    simp at hb; omega
  have hle : ∀ k ∈ cutsBelow p p.length ++ [p.length], k ≤ p.length := by
    intro k hk
    rcases List.mem_append.1 hk with hk | hk
    · have := (cutsBelow_mem.1 hk).1; omega
    · simp at hk; omega
  constructor
  · unfold wayTo
    rw [List.pairwise_map]
    refine hs.imp_of_mem ?_
    intro a b ha hb hab
    simp only [List.length_take]
    have := hle a ha; have := hle b hb; omega
  · intro q
    unfold wayTo
    simp only [List.mem_map, List.mem_append, List.mem_singleton]
    constructor
    · rintro ⟨k, hk | rfl, rfl⟩
      · obtain ⟨h1, h2⟩ := cutsBelow_mem.1 hk
        simp only [isCut, Bool.and_eq_true, decide_eq_true_eq, beq_iff_eq, bne_iff_ne] at h2
        obtain ⟨⟨h2, h3⟩, h4⟩ := h2
        refine .inr ⟨p.drop (k + 1), p[k - 1], p.take (k - 1), ?_, ?_, ?_⟩
        · have h5 : p[k] = 47 := by
            rw [List.getElem?_eq_getElem h1] at h3
            exact Option.some.inj h3
          have h6 := List.drop_eq_getElem_cons h1
          rw [h5] at h6
          rw [← h6, List.take_append_drop]
        · have := List.take_succ_eq_append_getElem (l := p) (i := k - 1) (by omega)
          rw [show k - 1 + 1 = k by omega] at this
          exact this
        · intro h
          rw [List.getElem?_eq_getElem (by omega), h] at h4
          exact h4 rfl
      · exact .inl (List.take_length)
    · rintro (rfl | ⟨r, b, r', h1, h2, h3⟩)
      · exact ⟨_, .inr rfl, List.take_length⟩
      · refine ⟨q.length, .inl (cutsBelow_mem.2 ⟨?_, ?_⟩), ?_⟩
        · rw [h1]; simp
        · simp only [isCut, Bool.and_eq_true, decide_eq_true_eq, beq_iff_eq, bne_iff_ne]
          have hq : q.length = r'.length + 1 := by rw [h2]; simp
          refine ⟨⟨by omega, ?_⟩, ?_⟩
          · rw [h1]; simp
          · rw [h1, List.getElem?_append_left (by omega), h2]
            simpa using h3
        · rw [h1]; simp

/-- C65: whatever the file system says about the paths on the way, and whatever `mkdir` does: if the
innermost one that exists is a directory (or none exists), exactly the missing ones are created, from
the outermost inward, up to the first failure, which is returned; if it is no directory, nothing is
created and ENOTDIR returned. -/
theorem C65_calls {σ : Type} (stat : σ → List UInt8 → StatRes) (mkdir : σ → List UInt8 → σ × MkRes) (fs : σ)
    (p : List UInt8) (hne : p ≠ []) (hp : 0 ∉ p) :
    ∃ qs, WayTo p qs ∧
      ((∀ q ∈ qs, stat fs q = .fail) ∧ mkdirP stat mkdir fs p = makeEach mkdir fs qs ∨
       ∃ above q missing, qs = above ++ q :: missing ∧ (∀ x ∈ missing, stat fs x = .fail) ∧
        (stat fs q = .other ∧ mkdirP stat mkdir fs p = (fs, .notDir) ∨
         stat fs q = .dir ∧ mkdirP stat mkdir fs p = makeEach mkdir fs missing)) := by
  refine ⟨wayTo p, wayTo_spec p, ?_⟩
  have hpos : 0 < p.length := List.length_pos_iff.2 hne
  have hb : BufAt p [p.length] (p ++ [0]) := by
    refine ⟨by simp, ?_, ?_⟩
    · intro i hi _
      simp at hi; subst hi; simp
    · intro i _ hl
      rw [List.getElem?_append_left hl]
  have hE : Ends p [p.length] := ⟨by simp, [], rfl, by simp⟩
  have h0 : mkScan (stat fs) p.length (p.length + 2) (p ++ [0]) p.length =
      match stat fs p with
      | .dir => .result .ok
      | .other => .result .notDir
      | .fail => mkScan (stat fs) p.length (p.length + 1) ((p ++ [0]).set p.length 0)
          (skipSlashes ((p ++ [0]).set p.length 0) (toSlash ((p ++ [0]).set p.length 0) p.length)) := by
    conv => lhs; unfold mkScan
    rw [hb.start hp (Nat.le_refl _) (by simp)]
    simp only [List.take_length]
    obtain ⟨t, h1, h2⟩ := hb.rest hp (Nat.le_refl _) (by simp) (Nat.le_refl p.length)
    simp only [h1, h2, if_true]
    rw [if_neg (by omega)]
    cases stat fs p <;> rfl
  unfold mkdirP
  rw [h0]
  cases hs : stat fs p with
  | dir =>
    refine .inr ⟨_, _, [], List.map_append, by simp, .inr ⟨?_, rfl⟩⟩
    simpa using hs
  | other =>
    refine .inr ⟨_, _, [], List.map_append, by simp, .inl ⟨?_, rfl⟩⟩
    simpa using hs
  | fail =>
    simp only []
    have hset : (p ++ [0]).set p.length 0 = p ++ [0] := by simp
    rw [hset]
    obtain ⟨r1, r2⟩ := back_spec (p := p) hpos (fun i hi => by rw [List.getElem?_append_left hi]) (hb.2.1 p.length (by simp) (Nat.le_refl _)) rfl
    rcases mkScan_spec (stat fs) hp (p.length + 1) (p ++ [0]) p.length _ [] hE hb r1 r2 (by simp) (by omega) with
      ⟨A, k, B, e1, h1, h2⟩ | ⟨h1, buf', h2, h3, h4⟩
    · have hw : wayTo p = A.map (p.take ·) ++ p.take k :: B.map (p.take ·) := by
        unfold wayTo; rw [e1]; simp
      refine .inr ⟨_, _, _, hw, ?_, ?_⟩
      · intro x hx
        obtain ⟨j, hj, rfl⟩ := List.mem_map.1 hx
        exact h1 j hj
      · rcases h2 with ⟨h2, h3⟩ | ⟨h2, rfl, h3⟩ | ⟨h2, h3, buf', h4, h5, h6⟩
        · exact .inl ⟨h2, by rw [h3]⟩
        · exact .inr ⟨h2, by rw [h3]; rfl⟩
        · refine .inr ⟨h2, ?_⟩
          rw [h4]
          simp only []
          cases B with
          | nil => exact absurd rfl h3
          | cons k' B =>
            have hsort : (A ++ k :: k' :: B).Pairwise (· < ·) := by
              rw [← e1]
              refine List.pairwise_append.2 ⟨cutsBelow_sorted _ _, by simp, ?_⟩
              intro a ha b hb
              have := (cutsBelow_mem.1 ha).1
              simp at hb; omega
            have hkk : k < k' := (List.pairwise_cons.1 (List.pairwise_append.1 hsort).2.1).1 k' (by simp)
            refine mkCreate_spec mkdir hp _ fs buf' k k' B h6 hkk h5 h6.fuel
    · refine .inl ⟨?_, ?_⟩
      · intro q hq
        obtain ⟨k, hk, rfl⟩ := List.mem_map.1 hq
        exact h1 k hk
      · rw [h2]
        simp only []
        unfold wayTo
        cases hc : cutsBelow p p.length ++ [p.length] with
        | nil => simp at hc
        | cons k B =>
          rw [hc] at h3 h4
          have hk : 0 < k := by
            have hm : k ∈ cutsBelow p p.length ++ [p.length] := by rw [hc]; simp
            rcases List.mem_append.1 hm with hm | hm
            · have := (cutsBelow_mem.1 hm).2
              simp only [isCut, Bool.and_eq_true, decide_eq_true_eq] at this
              exact this.1.1
            · simp at hm; omega
          exact mkCreate_spec mkdir hp _ fs buf' 0 k B h4 hk h3 h4.fuel

/-- What is expected of a file system on which nobody else is working: a created directory is there,
`mkdir` says EEXIST only if something is there, it removes nothing and creates nothing but directories,
and it succeeds if all directories above are there. -/
structure Spec.SaneMkdir {σ : Type} (stat : σ → List UInt8 → StatRes) (mkdir : σ → List UInt8 → σ × MkRes) : Prop where
  made : ∀ fs q, (mkdir fs q).2 = .ok → stat (mkdir fs q).1 q = .dir
  there : ∀ fs q, (mkdir fs q).2 = .present → stat (mkdir fs q).1 q ≠ .fail
  keeps : ∀ fs q x, stat fs x = .dir → stat (mkdir fs q).1 x = .dir
  others : ∀ fs q x, stat (mkdir fs q).1 x = .other → stat fs x = .other
  works : ∀ fs q, (∀ x, OnTheWay q x → x ≠ q → stat fs x = .dir) → ∀ e, (mkdir fs q).2 ≠ .err e

theorem makeEach_made {σ : Type} {stat : σ → List UInt8 → StatRes} {mkdir : σ → List UInt8 → σ × MkRes}
    (hs : SaneMkdir stat mkdir) (qs : List (List UInt8)) (fs fs' : σ) (ho : ∀ q ∈ qs, stat fs q ≠ .other)
    (h : makeEach mkdir fs qs = (fs', .ok)) :
    (∀ q ∈ qs, stat fs' q = .dir) ∧ ∀ x, stat fs x = .dir → stat fs' x = .dir := by
  induction qs generalizing fs with
  | nil => cases h; exact ⟨by simp, fun x hx => hx⟩
  | cons q qs ih =>
    rw [makeEach_cons] at h
    have hq : (∃ e, (mkdir fs q).2 = .err e) ∨ stat (mkdir fs q).1 q = .dir := by
      cases hm : (mkdir fs q).2 with
      | err e => exact .inl ⟨e, rfl⟩
      | ok => exact .inr (hs.made fs q hm)
      | present =>
        right
        have h1 := hs.there fs q hm
        have h2 := fun h => ho q (by simp) (hs.others fs q q h)
        cases hst : stat (mkdir fs q).1 q with
        | dir => rfl
        | fail => exact absurd hst h1
        | other => exact absurd hst h2
    rcases hq with ⟨e, he⟩ | hq
    · rw [he] at h; cases h
    · have h' : makeEach mkdir (mkdir fs q).1 qs = (fs', .ok) := by
        revert h
        cases (mkdir fs q).2 with
        | err e => intro h; cases h
        | ok => exact id
        | present => exact id
      obtain ⟨h1, h2⟩ := ih _ (fun x hx h => ho x (by simp [hx]) (hs.others fs q x h)) h'
      refine ⟨?_, fun x hx => h2 x (hs.keeps fs q x hx)⟩
      intro x hx
      rcases List.mem_cons.1 hx with rfl | hx
      · exact h2 _ hq
      · exact h1 x hx

/-- C65: success means that the path is a directory. -/
theorem C65_success {σ : Type} (stat : σ → List UInt8 → StatRes) (mkdir : σ → List UInt8 → σ × MkRes)
    (hs : SaneMkdir stat mkdir) (fs fs' : σ) (p : List UInt8) (hne : p ≠ []) (hp : 0 ∉ p)
    (h : mkdirP stat mkdir fs p = (fs', .ok)) : stat fs' p = .dir := by
  obtain ⟨qs, hw, hcase⟩ := C65_calls stat mkdir fs p hne hp
  have hmem : p ∈ qs := (hw.2 p).2 (.inl rfl)
  rcases hcase with ⟨h1, h2⟩ | ⟨above, q, missing, h1, h2, ⟨_, h3⟩ | ⟨h3, h4⟩⟩
  · rw [h2] at h
    exact (makeEach_made hs qs fs fs' (fun q hq => by rw [h1 q hq]; simp) h).1 p hmem
  · rw [h3] at h; cases h
  · rw [h4] at h
    obtain ⟨h5, h6⟩ := makeEach_made hs missing fs fs' (fun q hq => by rw [h2 q hq]; simp) h
    rw [h1] at hmem
    rcases List.mem_append.1 hmem with hm | hm
    · -- `p` is the longest of all
      have hlt := hw.1
      rw [h1] at hlt
      have := (List.pairwise_append.1 hlt).2.2 p hm q (by simp)
      have hq : OnTheWay p q := (hw.2 q).1 (by rw [h1]; simp)
      have : q.length ≤ p.length := by
        rcases hq with rfl | ⟨r, b, r', hr, _⟩
        · exact Nat.le_refl _
        · rw [hr]; simp
      omega
    · rcases List.mem_cons.1 hm with rfl | hm
      · exact h6 _ h3
      · exact h5 p hm

theorem OnTheWay.length {p q : List UInt8} (h : OnTheWay p q) : q.length ≤ p.length := by
  rcases h with rfl | ⟨r, b, r', hr, _⟩
  · exact Nat.le_refl _
  · rw [hr]; simp

theorem OnTheWay.trans {p q r : List UInt8} (h : OnTheWay p q) (h' : OnTheWay q r) : OnTheWay p r := by
  rcases h' with rfl | ⟨s, b, r', h1, h2⟩
  · exact h
  · rcases h with rfl | ⟨t, c, q', h3, h4⟩
    · exact .inr ⟨s, b, r', h1, h2⟩
    · exact .inr ⟨s ++ 47 :: t, b, r', by rw [h3, h1]; simp, h2⟩

theorem OnTheWay.eq_of_length {p q : List UInt8} (h : OnTheWay p q) (hl : p.length ≤ q.length) : q = p := by
  rcases h with rfl | ⟨r, b, r', hr, _⟩
  · rfl
  · rw [hr] at hl; simp at hl; omega

theorem makeEach_works {σ : Type} {stat : σ → List UInt8 → StatRes} {mkdir : σ → List UInt8 → σ × MkRes}
    (hs : SaneMkdir stat mkdir) (p : List UInt8) (above missing : List (List UInt8)) (hw : WayTo p (above ++ missing)) (fs : σ)
    (ha : ∀ q ∈ above, stat fs q = .dir) (ho : ∀ q ∈ missing, stat fs q ≠ .other) :
    (makeEach mkdir fs missing).2 = .ok := by
  induction missing generalizing above fs with
  | nil => rfl
  | cons q qs ih =>
    have hq : OnTheWay p q := (hw.2 q).1 (by simp)
    have hpar : ∀ x, OnTheWay q x → x ≠ q → stat fs x = .dir := by
      intro x hx hne
      have hxp := (hw.2 x).2 (OnTheWay.trans hq hx)
      have hlt : x.length < q.length := by
        rcases Nat.lt_or_ge x.length q.length with h | h
        · exact h
        · exact absurd (OnTheWay.eq_of_length hx h) hne
      rcases List.mem_append.1 hxp with hm | hm
      · exact ha x hm
      · rcases List.mem_cons.1 hm with rfl | hm
        · omega
        · have := (List.pairwise_cons.1 (List.pairwise_append.1 hw.1).2.1).1 x hm
          omega
    have hok := hs.works fs q hpar
    have hdir : stat (mkdir fs q).1 q = .dir := by
      cases hm : (mkdir fs q).2 with
      | err e => exact absurd hm (hok e)
      | ok => exact hs.made fs q hm
      | present =>
        have h1 := hs.there fs q hm
        have h2 := fun h => ho q (by simp) (hs.others fs q q h)
        cases hst : stat (mkdir fs q).1 q with
        | dir => rfl
        | fail => exact absurd hst h1
        | other => exact absurd hst h2
    have hrec := ih (above ++ [q]) (by rw [List.append_assoc]; exact hw) (mkdir fs q).1
      (by
        intro x hx
        rcases List.mem_append.1 hx with hx | hx
        · exact hs.keeps fs q x (ha x hx)
        · simp at hx; subst hx; exact hdir)
      (fun x hx h => ho x (by simp [hx]) (hs.others fs q x h))
    rw [makeEach_cons]
    cases hm : (mkdir fs q).2 with
    | err e => exact absurd hm (hok e)
    | ok => exact hrec
    | present => exact hrec

/-- C65: if nothing on the way is in the way, the directory is created, however many components are
missing. -/
theorem C65_created {σ : Type} (stat : σ → List UInt8 → StatRes) (mkdir : σ → List UInt8 → σ × MkRes)
    (hs : SaneMkdir stat mkdir) (fs : σ) (p : List UInt8) (hne : p ≠ []) (hp : 0 ∉ p)
    (hfree : ∀ q, OnTheWay p q → stat fs q ≠ .other)
    (htree : ∀ q x, OnTheWay q x → stat fs q = .dir → stat fs x = .dir) :
    (mkdirP stat mkdir fs p).2 = .ok ∧ stat (mkdirP stat mkdir fs p).1 p = .dir := by
  have h : (mkdirP stat mkdir fs p).2 = .ok := by
    obtain ⟨qs, hw, hcase⟩ := C65_calls stat mkdir fs p hne hp
    rcases hcase with ⟨h1, h2⟩ | ⟨above, q, missing, h1, h2, ⟨h3, _⟩ | ⟨h3, h4⟩⟩
    · rw [h2]
      exact makeEach_works hs p [] qs hw fs (by simp) (fun q hq => by rw [h1 q hq]; simp)
    · exact absurd h3 (hfree q ((hw.2 q).1 (by rw [h1]; simp)))
    · rw [h4]
      have e : qs = (above ++ [q]) ++ missing := by rw [h1]; simp
      rw [e] at hw
      refine makeEach_works hs p (above ++ [q]) missing hw fs ?_ (fun q hq => by rw [h2 q hq]; simp)
      intro x hx
      rcases List.mem_append.1 hx with hx | hx
      · -- `x` lies above `q`
        have hxq : OnTheWay q x := by
          have ox : OnTheWay p x := (hw.2 x).1 (by simp [hx])
          have oq : OnTheWay p q := (hw.2 q).1 (by simp)
          have hlt : x.length < q.length := by
            have := (List.pairwise_append.1 (List.pairwise_append.1 hw.1).1).2.2 x hx q (by simp)
            exact this
          rcases ox with rfl | ⟨r, b, x', hr, hx1, hx2⟩
          · have := OnTheWay.length oq; omega
          · have hpre : ∃ t, p = q ++ t := by
              rcases oq with rfl | ⟨s, _, _, hs, _⟩
              · exact ⟨[], by simp⟩
              · exact ⟨_, hs⟩
            obtain ⟨t, ht⟩ := hpre
            have hx3 : q.take x.length = x := by
              have : p.take x.length = x := by rw [hr]; simp
              rw [ht, List.take_append_of_le_length (by omega)] at this
              exact this
            have hq1 : p[x.length]? = some 47 := by rw [hr]; simp
            rw [ht, List.getElem?_append_left hlt] at hq1
            have h6 := List.drop_eq_getElem_cons hlt
            rw [List.getElem?_eq_getElem hlt] at hq1
            rw [Option.some.inj hq1] at h6
            refine .inr ⟨q.drop (x.length + 1), b, x', ?_, hx1, hx2⟩
            rw [← h6]
            conv => lhs; rw [← List.take_append_drop x.length q]
            rw [hx3]
        exact htree q x hxq h3
      · simp at hx; subst hx; exact h3
  exact ⟨h, C65_success stat mkdir hs fs _ p hne hp (by rw [← h])⟩

/-! ### Sample -/

namespace Sample

/-- The components of a path. -/
def comps (p : List UInt8) : List (List UInt8) := (p.splitOn 47).filter (· ≠ [])

/-- A file system that consists of the given directories; `canon` tells which names mean the same. -/
def memStat (canon : List UInt8 → List (List UInt8)) (fs : List (List (List UInt8))) (p : List UInt8) : StatRes :=
  if canon p = [] ∨ canon p ∈ fs then .dir else .fail

def memMkdir (canon : List UInt8 → List (List UInt8)) (fs : List (List (List UInt8))) (p : List UInt8) : List (List (List UInt8)) × MkRes :=
  if memStat canon fs p = .dir then (fs, .present)
  else if ∀ q ∈ wayTo p, q ≠ p → memStat canon fs q = .dir then (canon p :: fs, .ok)
  else (fs, .err 2)

theorem mem_sane (canon : List UInt8 → List (List UInt8)) : SaneMkdir (memStat canon) (memMkdir canon) := by
  have hno : ∀ fs x, memStat canon fs x ≠ .other := by
    intro fs x; unfold memStat; split <;> simp
  refine ⟨?_, ?_, ?_, ?_, ?_⟩
  · intro fs q h
    unfold memMkdir at h ⊢
    split at h
    · cases h
    · split at h
      · next h1 h2 => rw [if_neg h1, if_pos h2]; simp [memStat]
      · cases h
  · intro fs q h
    unfold memMkdir at h ⊢
    split at h
    · next h1 => rw [if_pos h1, h1]; simp
    · split at h <;> cases h
  · intro fs q x h
    unfold memMkdir
    split
    · exact h
    · split
      · unfold memStat at h ⊢
        split at h
        · next h1 =>
          rw [if_pos]
          rcases h1 with h1 | h1
          · exact .inl h1
          · exact .inr (by simp [h1])
        · cases h
      · exact h
  · intro fs q x h
    exact absurd h (hno _ _)
  · intro fs q h e he
    unfold memMkdir at he
    split at he
    · cases he
    · split at he
      · cases he
      · next h1 =>
        exact h1 fun x hx hne => h x (((wayTo_spec q).2 x).1 hx) hne

end Sample

/-- `/v//l/m/` in an empty file system: three directories are created, in order. -/
example :
    (mkdirP (Sample.memStat Sample.comps) (Sample.memMkdir Sample.comps) [] [47, 118, 47, 47, 108, 47, 109, 47]) =
      ([[[118], [108], [109]], [[118], [108]], [[118]]], .ok) ∧
    WayTo [47, 118, 47, 47, 108, 47, 109, 47]
      [[47, 118], [47, 118, 47, 47, 108], [47, 118, 47, 47, 108, 47, 109], [47, 118, 47, 47, 108, 47, 109, 47]] :=
  ⟨by decide +kernel, wayTo_spec _⟩

/-- All hypotheses of `C65_created` hold for `v/l/m` if `v` is there. -/
example : SaneMkdir (Sample.memStat fun p => [p]) (Sample.memMkdir fun p => [p]) ∧
    ([118, 47, 108, 47, 109] : List UInt8) ≠ [] ∧ (0 : UInt8) ∉ ([118, 47, 108, 47, 109] : List UInt8) ∧
    (∀ q, OnTheWay [118, 47, 108, 47, 109] q → Sample.memStat (fun p => [p]) [[[118]]] q ≠ .other) ∧
    (∀ q x, OnTheWay q x → Sample.memStat (fun p => [p]) [[[118]]] q = .dir → Sample.memStat (fun p => [p]) [[[118]]] x = .dir) ∧
    mkdirP (Sample.memStat fun p => [p]) (Sample.memMkdir fun p => [p]) [[[118]]] [118, 47, 108, 47, 109] =
      ([[[118, 47, 108, 47, 109]], [[118, 47, 108]], [[118]]], .ok) := by
  refine ⟨Sample.mem_sane _, by simp, by decide, fun q _ => by unfold Sample.memStat; split <;> simp, ?_, by decide +kernel⟩
  intro q x h hq
  have : q = [118] := by
    unfold Sample.memStat at hq
    split at hq
    · next h => simpa using h
    · cases hq
  subst this
  rcases h with rfl | ⟨r, b, r', h1, h2, _⟩
  · exact hq
  · have := congrArg List.length h1
    rw [h2] at this
    simp at this
    omega

end Verif
