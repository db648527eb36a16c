/- Choice of a new log name and deletion of old logs. -/
import Verif.Lemmas.LogScan

namespace Verif

open Spec (value Digit Space Numbered NumText LogPattern Finished finishedLogs DistinctIndices
  freed removed Exceeded Sane)

/-! ## The number of a new log -/

theorem prefixStep_mono (p : UInt32) (e : Entry) : p ≤ prefixStep p e := by
  unfold prefixStep
  split
  · rename_i u _
    split
    · rename_i h
      have h1 := UInt32.le_iff_toNat_le.1 h.1
      have h2 := UInt32.lt_iff_toNat_lt.1 h.2
      rw [UInt32.le_iff_toNat_le, UInt32.toNat_add]
      simp at h2 ⊢
      omega
    · exact UInt32.le_refl p
  · exact UInt32.le_refl p

theorem foldl_prefix_mono (d : List Entry) (p : UInt32) : p ≤ d.foldl prefixStep p := by
  induction d generalizing p with
  | nil => exact UInt32.le_refl p
  | cons e d ih => exact UInt32.le_trans (prefixStep_mono p e) (ih _)

theorem foldl_prefix_gt (d : List Entry) (p : UInt32) {e : Entry} {u : UInt32} (he : e ∈ d)
    (hu : scanPrefix e.name = some u) (hl : u < 4294967295) : u < d.foldl prefixStep p := by
  induction d generalizing p with
  | nil => cases he
  | cons x d ih =>
    simp only [List.mem_cons] at he
    rcases he with rfl | he
    · refine UInt32.lt_of_lt_of_le ?_ (foldl_prefix_mono d _)
      unfold prefixStep
      rw [hu]
      simp only
      split
      · rw [UInt32.lt_iff_toNat_lt, UInt32.toNat_add]
        have h2 := UInt32.lt_iff_toNat_lt.1 hl
        simp at h2 ⊢
        omega
      · rename_i h
        rw [UInt32.lt_iff_toNat_lt]
        have h3 : ¬(u ≥ p) := fun hc => h ⟨hc, hl⟩
        have h4 : ¬(p.toNat ≤ u.toNat) := fun hc => h3 (UInt32.le_iff_toNat_le.2 hc)
        omega
    · exact ih _ he

theorem getPrefix_gt {d : List Entry} {e : Entry} {u : UInt32} (he : e ∈ d)
    (hu : scanPrefix e.name = some u) (hl : u < 4294967295) : u < getPrefix d :=
  foldl_prefix_gt d 0 he hu hl

theorem foldl_prefix_le {c : Nat} (d : List Entry) (p : UInt32) (hp : p.toNat ≤ c)
    (h : ∀ e ∈ d, ∀ u, scanPrefix e.name = some u → u.toNat < c) :
    (d.foldl prefixStep p).toNat ≤ c := by
  induction d generalizing p with
  | nil => exact hp
  | cons e d ih =>
    refine ih _ ?_ fun x hx => h x (by simp [hx])
    unfold prefixStep
    split
    · rename_i u hu
      have := h e (by simp) u hu
      split
      · rename_i hc
        have h2 := UInt32.lt_iff_toNat_lt.1 hc.2
        rw [UInt32.toNat_add]
        simp at h2 ⊢
        omega
      · exact hp
    · exact hp

theorem getPrefix_le {c : Nat} {d : List Entry}
    (h : ∀ e ∈ d, ∀ u, scanPrefix e.name = some u → u.toNat < c) : (getPrefix d).toNat ≤ c :=
  foldl_prefix_le d 0 (by simp) h

/-! ## Opening -/

theorem tryOpen_some {env : OpenEnv} {i : UInt32} {t : Date} {ext : List Char} (n j : Nat)
    (d : List Entry) {d' : List Entry} {name : List Char}
    (h : tryOpen env i t ext n j d = (d', some name)) :
    ∃ extra, d' = d ++ extra ++ [{ name := name }] ∧ (∀ e ∈ d ++ extra, e.name ≠ name) ∧
      (∃ k, name = logName (i + UInt32.ofNat k) t ext) ∧
      (∀ e ∈ extra, ∃ k, e ∈ env.others k) := by
  induction n generalizing j d with
  | zero => simp [tryOpen] at h
  | succ n ih =>
    simp only [tryOpen] at h
    split at h
    · simp at h
    · split at h
      · simp at h
      · split at h
        · obtain ⟨extra, h1, h2, h3, h4⟩ := ih _ _ h
          refine ⟨env.others j ++ extra, by rw [h1]; simp [List.append_assoc], ?_, h3, ?_⟩
          · simpa [List.append_assoc] using h2
          · intro e he
            simp only [List.mem_append] at he
            rcases he with he | he
            · exact ⟨j, he⟩
            · exact h4 e he
        · rename_i hany
          simp only [Prod.mk.injEq, Option.some.injEq] at h
          obtain ⟨rfl, rfl⟩ := h
          refine ⟨env.others j, rfl, ?_, ⟨j, rfl⟩, fun e he => ⟨j, he⟩⟩
          intro e he hc
          apply hany
          rw [List.any_eq_true]
          exact ⟨e, he, by simp [hc]⟩

theorem tryOpen_none {env : OpenEnv} {i : UInt32} {t : Date} {ext : List Char} (n j : Nat)
    (d : List Entry) {d' : List Entry} (h : tryOpen env i t ext n j d = (d', none)) :
    ∃ extra, d' = d ++ extra ∧ (∀ e ∈ extra, ∃ k, e ∈ env.others k) := by
  induction n generalizing j d with
  | zero =>
    simp only [tryOpen, Prod.mk.injEq, and_true] at h
    exact ⟨[], by simp [h]⟩
  | succ n ih =>
    simp only [tryOpen] at h
    split at h
    · simp only [Prod.mk.injEq, and_true] at h
      exact ⟨[], by simp [h]⟩
    · split at h
      · simp only [Prod.mk.injEq, and_true] at h
        exact ⟨env.others j, h.symm, fun e he => ⟨j, he⟩⟩
      · split at h
        · obtain ⟨extra, h1, h4⟩ := ih _ _ h
          refine ⟨env.others j ++ extra, by rw [h1]; simp [List.append_assoc], ?_⟩
          intro e he
          simp only [List.mem_append] at he
          rcases he with he | he
          · exact ⟨j, he⟩
          · exact h4 e he
        · simp at h

/-! ## Gathering -/

/-- Keys strictly increasing. -/
def Sorted (m : List (Nat × Entry)) : Prop := m.Pairwise fun a b => a.1 < b.1

theorem mapSet_mem {k : Nat} {e : Entry} {m : List (Nat × Entry)} {x : Nat × Entry}
    (h : x ∈ mapSet k e m) : x = (k, e) ∨ x ∈ m := by
  induction m with
  | nil => simpa [mapSet] using h
  | cons y m ih =>
    obtain ⟨k', e'⟩ := y
    simp only [mapSet] at h
    split at h
    · simpa using h
    · split at h
      · simp only [List.mem_cons] at h ⊢
        rcases h with h | h
        · exact .inl h
        · exact .inr (.inr h)
      · simp only [List.mem_cons] at h ⊢
        rcases h with h | h
        · exact .inr (.inl h)
        · rcases ih h with h | h
          · exact .inl h
          · exact .inr (.inr h)

theorem mapSet_sorted {k : Nat} {e : Entry} {m : List (Nat × Entry)} (h : Sorted m) :
    Sorted (mapSet k e m) := by
  induction m with
  | nil => simp [mapSet, Sorted]
  | cons y m ih =>
    obtain ⟨k', e'⟩ := y
    unfold Sorted at h ih ⊢
    rw [List.pairwise_cons] at h
    simp only [mapSet]
    split
    · rename_i hk
      rw [List.pairwise_cons, List.pairwise_cons]
      refine ⟨?_, h⟩
      intro x hx
      simp only [List.mem_cons] at hx
      rcases hx with rfl | hx
      · exact hk
      · exact Nat.lt_trans hk (h.1 x hx)
    · split
      · rename_i hk
        subst hk
        rw [List.pairwise_cons]
        exact h
      · rename_i h1 h2
        rw [List.pairwise_cons]
        refine ⟨?_, ih h.2⟩
        intro x hx
        rcases mapSet_mem hx with rfl | hx
        · show k' < k
          omega
        · exact h.1 x hx

theorem mapSet_perm {k : Nat} {e : Entry} {m : List (Nat × Entry)} (h : ∀ x ∈ m, x.1 ≠ k) :
    (mapSet k e m).Perm ((k, e) :: m) := by
  induction m with
  | nil => exact List.Perm.refl _
  | cons y m ih =>
    obtain ⟨k', e'⟩ := y
    simp only [mapSet]
    split
    · exact List.Perm.refl _
    · split
      · rename_i hk
        exact absurd hk.symm (h (k', e') (by simp))
      · refine ((ih fun x hx => h x (by simp [hx])).cons _).trans ?_
        exact List.Perm.swap _ _ _

theorem mapSet_keys {k : Nat} {e : Entry} {m : List (Nat × Entry)} :
    (∃ x ∈ mapSet k e m, x.1 = k) ∧ ∀ y ∈ m, ∃ x ∈ mapSet k e m, x.1 = y.1 := by
  induction m with
  | nil => exact ⟨⟨(k, e), by simp [mapSet], rfl⟩, fun y hy => by cases hy⟩
  | cons z m ih =>
    obtain ⟨k', e'⟩ := z
    simp only [mapSet]
    split
    · exact ⟨⟨(k, e), by simp, rfl⟩, fun y hy => ⟨y, by simp only [List.mem_cons] at hy ⊢; exact .inr hy, rfl⟩⟩
    · split
      · rename_i hk
        refine ⟨⟨(k, e), by simp, rfl⟩, fun y hy => ?_⟩
        simp only [List.mem_cons] at hy
        rcases hy with rfl | hy
        · exact ⟨(k, e), by simp, hk⟩
        · exact ⟨y, by simp [hy], rfl⟩
      · constructor
        · obtain ⟨x, hx, hxe⟩ := ih.1
          exact ⟨x, by simp [hx], hxe⟩
        · intro y hy
          simp only [List.mem_cons] at hy
          rcases hy with rfl | hy
          · exact ⟨(k', e'), by simp, rfl⟩
          · obtain ⟨x, hx, hxe⟩ := ih.2 y hy
            exact ⟨x, by simp [hx], hxe⟩

theorem gather_sorted_aux (d : List Entry) (m : List (Nat × Entry)) (h : Sorted m) :
    Sorted (d.foldl gatherStep m) := by
  induction d generalizing m with
  | nil => exact h
  | cons e d ih =>
    refine ih _ ?_
    unfold gatherStep
    split
    · exact mapSet_sorted h
    · exact h

theorem gather_sorted (d : List Entry) : Sorted (gather d) :=
  gather_sorted_aux d [] List.Pairwise.nil

theorem gather_mem_aux (d : List Entry) (m : List (Nat × Entry)) {x : Nat × Entry}
    (h : x ∈ d.foldl gatherStep m) : x ∈ m ∨ (x.2 ∈ d ∧ candidate x.2 = some x.1) := by
  induction d generalizing m with
  | nil => exact .inl h
  | cons e d ih =>
    rcases ih _ h with h1 | h1
    · unfold gatherStep at h1
      split at h1
      · rename_i i hi
        rcases mapSet_mem h1 with rfl | h2
        · exact .inr ⟨by simp, hi⟩
        · exact .inl h2
      · exact .inl h1
    · exact .inr ⟨by simp [h1.1], h1.2⟩

theorem gather_mem {d : List Entry} {x : Nat × Entry} (h : x ∈ gather d) :
    x.2 ∈ d ∧ Finished x.2 x.1 := by
  rcases gather_mem_aux d [] h with h1 | h1
  · cases h1
  · exact ⟨h1.1, (candidate_iff _ _).1 h1.2⟩

theorem gather_keys_aux (d : List Entry) (m : List (Nat × Entry)) :
    (∀ y ∈ m, ∃ x ∈ d.foldl gatherStep m, x.1 = y.1) ∧
    (∀ e ∈ d, ∀ i, candidate e = some i → ∃ x ∈ d.foldl gatherStep m, x.1 = i) := by
  induction d generalizing m with
  | nil => exact ⟨fun y hy => ⟨y, hy, rfl⟩, fun e he => by cases he⟩
  | cons e d ih =>
    obtain ⟨h1, h2⟩ := ih (gatherStep m e)
    simp only [List.foldl_cons]
    constructor
    · intro y hy
      have : ∃ x ∈ gatherStep m e, x.1 = y.1 := by
        unfold gatherStep
        split
        · exact mapSet_keys.2 y hy
        · exact ⟨y, hy, rfl⟩
      obtain ⟨x, hx, hxy⟩ := this
      obtain ⟨z, hz, hzx⟩ := h1 x hx
      exact ⟨z, hz, hzx.trans hxy⟩
    · intro e' he i hi
      simp only [List.mem_cons] at he
      rcases he with rfl | he
      · have : ∃ x ∈ gatherStep m e', x.1 = i := by
          unfold gatherStep
          rw [hi]
          exact mapSet_keys.1
        obtain ⟨x, hx, hxy⟩ := this
        obtain ⟨z, hz, hzx⟩ := h1 x hx
        exact ⟨z, hz, hzx.trans hxy⟩
      · exact h2 e' he i hi

theorem gather_keys {d : List Entry} {e : Entry} {i : Nat} (he : e ∈ d) (hf : Finished e i) :
    ∃ x ∈ gather d, x.1 = i :=
  (gather_keys_aux d []).2 e he i ((candidate_iff _ _).2 hf)

theorem gather_perm_aux (d : List Entry) (m : List (Nat × Entry)) (hd : DistinctIndices d)
    (hm : ∀ x ∈ m, ∀ e ∈ d, candidate e ≠ some x.1) :
    ((d.foldl gatherStep m).map (·.2)).Perm
      (m.map (·.2) ++ d.filter fun e => (candidate e).isSome) := by
  induction d generalizing m with
  | nil => simp
  | cons e d ih =>
    unfold DistinctIndices at hd
    rw [List.pairwise_cons] at hd
    simp only [List.foldl_cons]
    cases hc : candidate e with
    | none =>
      have : gatherStep m e = m := by simp [gatherStep, hc]
      rw [this]
      have := ih m hd.2 (fun x hx e' he' => hm x hx e' (by simp [he']))
      simpa [List.filter_cons, hc] using this
    | some i =>
      have hs : gatherStep m e = mapSet i e m := by simp [gatherStep, hc]
      rw [hs]
      have hfresh : ∀ x ∈ m, x.1 ≠ i := fun x hx hxi => hm x hx e (by simp) (by rw [hc, hxi])
      have hp := mapSet_perm (e := e) hfresh
      refine (ih _ hd.2 ?_).trans ?_
      · intro x hx e' he' hce
        rcases mapSet_mem hx with rfl | hx
        · exact hd.1 e' he' i ((candidate_iff _ _).1 hc) ((candidate_iff _ _).1 hce)
        · exact hm x hx e' (by simp [he']) hce
      · simp only [List.filter_cons, hc, Option.isSome_some, if_true]
        refine ((hp.map _).append_right _).trans ?_
        simp only [List.map_cons, List.cons_append]
        exact (List.perm_middle).symm

theorem gather_perm {d : List Entry} (hd : DistinctIndices d) :
    ((gather d).map (·.2)).Perm (finishedLogs d) := by
  have := gather_perm_aux d [] hd (fun x hx => by cases hx)
  rw [finishedLogs_eq]
  simpa [gather] using this

theorem gather_length {d : List Entry} (hd : DistinctIndices d) :
    (gather d).length = (finishedLogs d).length := by
  have := (gather_perm hd).length_eq
  simpa using this

theorem gather_length_le (d : List Entry) : (gather d).length ≤ d.length := by
  have : ∀ (d : List Entry) (m : List (Nat × Entry)),
      (d.foldl gatherStep m).length ≤ m.length + d.length := by
    intro d
    induction d with
    | nil => simp
    | cons e d ih =>
      intro m
      have h1 := ih (gatherStep m e)
      have h2 : (gatherStep m e).length ≤ m.length + 1 := by
        unfold gatherStep
        split
        · rename_i i _
          have : ∀ m : List (Nat × Entry), (mapSet i e m).length ≤ m.length + 1 := by
            intro m
            induction m with
            | nil => simp [mapSet]
            | cons y m ihm =>
              simp only [mapSet]
              split
              · simp
              · split
                · simp
                · simp only [List.length_cons]
                  omega
          exact this m
        · omega
      simp only [List.foldl_cons, List.length_cons]
      omega
  have := this d []
  simpa [gather] using this

theorem sum_set_le {k : Nat} {e : Entry} (m : List (Nat × Entry)) :
    ((mapSet k e m).map (·.2.data.length)).sum ≤
      (m.map (·.2.data.length)).sum + e.data.length := by
  induction m with
  | nil => simp [mapSet]
  | cons y m ih =>
    obtain ⟨k', e'⟩ := y
    simp only [mapSet]
    split
    · simp; omega
    · split
      · simp; omega
      · simp only [List.map_cons, List.sum_cons]
        omega

theorem gather_sum_le (d : List Entry) :
    ((gather d).map (·.2.data.length)).sum ≤ (d.map (·.data.length)).sum := by
  have : ∀ (d : List Entry) (m : List (Nat × Entry)),
      ((d.foldl gatherStep m).map (·.2.data.length)).sum ≤
        (m.map (·.2.data.length)).sum + (d.map (·.data.length)).sum := by
    intro d
    induction d with
    | nil => simp
    | cons e d ih =>
      intro m
      have h1 := ih (gatherStep m e)
      have h2 : ((gatherStep m e).map (·.2.data.length)).sum ≤
          (m.map (·.2.data.length)).sum + e.data.length := by
        unfold gatherStep
        split
        · exact sum_set_le m
        · omega
      simp only [List.foldl_cons, List.map_cons, List.sum_cons]
      omega
  have := this d []
  simpa [gather] using this

/-! ## The deletion loop -/

/-- The loop with exact arithmetic. -/
def idealLoop (env : RmEnv) : List (Nat × Entry) → Int → Int → List (Entry × Bool)
  | [], _, _ => []
  | (_, e) :: m, b, f =>
    if b ≤ 0 ∧ f ≤ 0 then []
    else if !env.fits e.name then idealLoop env m b f
    else if env.removes e.name then
      (e, true) :: idealLoop env m (b - e.data.length) (f - 1)
    else (e, false) :: idealLoop env m b f

theorem sgn_range (w : UInt64) : -(2 : Int) ^ 63 ≤ sgn w ∧ sgn w < 2 ^ 63 := by
  have := w.toNat_lt
  unfold sgn
  split <;> omega

theorem sgn_sub {w : UInt64} {n : Nat} (h : -(2 : Int) ^ 63 ≤ sgn w - n) :
    sgn (w - UInt64.ofNat n) = sgn w - n := by
  have hw := w.toNat_lt
  have hr := sgn_range w
  have hn : n < 2 ^ 64 := by omega
  have h1 : (w - UInt64.ofNat n).toNat = (2 ^ 64 - n + w.toNat) % 2 ^ 64 := by
    rw [UInt64.toNat_sub]
    have : (UInt64.ofNat n).toNat = n := by
      rw [UInt64.toNat_ofNat']
      exact Nat.mod_eq_of_lt hn
    rw [this]
  unfold sgn at h hr ⊢
  rw [h1]
  split at h <;> split <;> omega

theorem delLoop_ideal {env : RmEnv} (m : List (Nat × Entry)) (bw fw : UInt64)
    (hb : -(2 : Int) ^ 63 ≤ sgn bw - (m.map (·.2.data.length)).sum)
    (hf : -(2 : Int) ^ 63 < sgn fw - m.length) :
    delLoop env m bw fw = some (idealLoop env m (sgn bw) (sgn fw)) := by
  induction m generalizing bw fw with
  | nil => rfl
  | cons x m ih =>
    obtain ⟨k, e⟩ := x
    simp only [List.map_cons, List.sum_cons, List.length_cons] at hb hf
    simp only [delLoop, idealLoop]
    split
    · rfl
    · split
      · exact ih bw fw (by omega) (by omega)
      · split
        · have hne : fw ≠ 0x8000000000000000 := by
            intro hc
            rw [hc] at hf
            have : sgn 0x8000000000000000 = -(2 : Int) ^ 63 := by decide
            rw [this] at hf
            omega
          rw [if_neg hne]
          have e1 : sgn (bw - UInt64.ofNat e.data.length) = sgn bw - e.data.length :=
            sgn_sub (by omega)
          have e2 : sgn (fw - 1) = sgn fw - 1 := by
            have := sgn_sub (w := fw) (n := 1) (by omega)
            simpa using this
          rw [ih (bw - UInt64.ofNat e.data.length) (fw - 1) (by omega) (by omega), e1, e2]
          rfl
        · rw [ih bw fw (by omega) (by omega)]
          rfl

theorem idealLoop_prefix {env : RmEnv} (m : List (Nat × Entry)) (b f : Int) :
    ∃ k, (idealLoop env m b f).map (·.1) =
        ((m.take k).map (·.2)).filter (fun e => env.fits e.name) ∧
      (∀ c ∈ idealLoop env m b f, c.2 = env.removes c.1.name) ∧
      (k < m.length → b - freed (idealLoop env m b f) ≤ 0 ∧
        f - removed (idealLoop env m b f) ≤ 0) := by
  induction m generalizing b f with
  | nil => exact ⟨0, rfl, (fun c hc => by cases hc), (fun h => by simp at h)⟩
  | cons x m ih =>
    obtain ⟨k0, e⟩ := x
    simp only [idealLoop]
    split
    · rename_i h
      refine ⟨0, by simp, (fun c hc => by cases hc), fun _ => ?_⟩
      simp [freed, removed]
      exact h
    · split
      · rename_i hfit
        obtain ⟨k, h1, h2, h3⟩ := ih b f
        refine ⟨k + 1, ?_, h2, ?_⟩
        · simp only [List.take_succ_cons, List.map_cons, List.filter_cons]
          rw [if_neg (by simpa using hfit), h1]
        · intro hk
          exact h3 (by simpa using hk)
      · rename_i hfit
        have hfit' : env.fits e.name = true := by simpa using hfit
        split
        · rename_i hr
          obtain ⟨k, h1, h2, h3⟩ := ih (b - e.data.length) (f - 1)
          refine ⟨k + 1, ?_, ?_, ?_⟩
          · simp [hfit', h1]
          · intro c hc
            simp only [List.mem_cons] at hc
            rcases hc with rfl | hc
            · simp [hr]
            · exact h2 c hc
          · intro hk
            have := h3 (by simpa using hk)
            simp only [freed, removed, List.map_cons, List.sum_cons, if_true, List.filter_cons,
              List.length_cons] at this ⊢
            omega
        · rename_i hr
          obtain ⟨k, h1, h2, h3⟩ := ih b f
          refine ⟨k + 1, ?_, ?_, ?_⟩
          · simp [hfit', h1]
          · intro c hc
            simp only [List.mem_cons] at hc
            rcases hc with rfl | hc
            · simp [hr]
            · exact h2 c hc
          · intro hk
            have := h3 (by simpa using hk)
            simpa [freed, removed] using this

theorem idealLoop_needed {env : RmEnv} (m : List (Nat × Entry)) (b f : Int)
    {pre post : List (Entry × Bool)} {c : Entry × Bool}
    (h : idealLoop env m b f = pre ++ c :: post) :
    0 < b - freed pre ∨ 0 < f - removed pre := by
  induction m generalizing b f pre with
  | nil => simp [idealLoop] at h
  | cons x m ih =>
    obtain ⟨k0, e⟩ := x
    simp only [idealLoop] at h
    split at h
    · simp at h
    · rename_i hlim
      split at h
      · exact ih b f h
      · split at h
        · cases pre with
          | nil => simp [freed, removed]; omega
          | cons p pre =>
            simp only [List.cons_append, List.cons.injEq] at h
            obtain ⟨h1, h2⟩ := h
            have := ih _ _ h2
            subst h1
            simp only [freed, removed, List.map_cons, List.sum_cons, if_true, List.filter_cons,
              List.length_cons] at this ⊢
            omega
        · cases pre with
          | nil => simp [freed, removed]; omega
          | cons p pre =>
            simp only [List.cons_append, List.cons.injEq] at h
            obtain ⟨h1, h2⟩ := h
            have := ih _ _ h2
            subst h1
            simpa [freed, removed] using this

/-- Every removal concerns a file of the map, whatever the numbers. -/
theorem delLoop_mem {env : RmEnv} (m : List (Nat × Entry)) (bw fw : UInt64)
    {calls : List (Entry × Bool)} (h : delLoop env m bw fw = some calls) :
    ∀ c ∈ calls, ∃ k, (k, c.1) ∈ m := by
  induction m generalizing bw fw calls with
  | nil => simp only [delLoop, Option.some.injEq] at h; subst h; intro c hc; cases hc
  | cons x m ih =>
    obtain ⟨k0, e⟩ := x
    simp only [delLoop] at h
    split at h
    · simp only [Option.some.injEq] at h; subst h; intro c hc; cases hc
    · split at h
      · intro c hc
        obtain ⟨k, hk⟩ := ih _ _ h c hc
        exact ⟨k, by simp [hk]⟩
      · split at h
        · split at h
          · cases h
          · cases hq : delLoop env m (bw - UInt64.ofNat e.data.length) (fw - 1) with
            | none => rw [hq] at h; cases h
            | some l =>
              rw [hq] at h
              simp only [Option.map_some, Option.some.injEq] at h
              subst h
              intro c hc
              simp only [List.mem_cons] at hc
              rcases hc with rfl | hc
              · exact ⟨k0, by simp⟩
              · obtain ⟨k, hk⟩ := ih _ _ hq c hc
                exact ⟨k, by simp [hk]⟩
        · cases hq : delLoop env m bw fw with
          | none => rw [hq] at h; cases h
          | some l =>
            rw [hq] at h
            simp only [Option.map_some, Option.some.injEq] at h
            subst h
            intro c hc
            simp only [List.mem_cons] at hc
            rcases hc with rfl | hc
            · exact ⟨k0, by simp⟩
            · obtain ⟨k, hk⟩ := ih _ _ hq c hc
              exact ⟨k, by simp [hk]⟩

theorem deleteCalls_mem {lim : Limits} {vfs : VfsRes} {dirOk : Bool} {env : RmEnv}
    {d : List Entry} {calls : List (Entry × Bool)}
    (h : deleteCalls lim vfs dirOk env d = some calls) :
    ∀ c ∈ calls, c.1 ∈ d ∧ ∃ i, Finished c.1 i := by
  intro c hc
  unfold deleteCalls at h
  split at h
  · simp only [Option.some.injEq] at h; subst h; cases hc
  · split at h
    · simp only [Option.some.injEq] at h; subst h; cases hc
    · split at h
      · simp only [Option.some.injEq] at h; subst h; cases hc
      · obtain ⟨k, hk⟩ := delLoop_mem _ _ _ h c hc
        have := gather_mem hk
        exact ⟨this.1, k, this.2⟩

/-- With sane numbers the calls are those of the exact loop. -/
theorem deleteCalls_sane {lim : Limits} {free : UInt64} {env : RmEnv} {d : List Entry}
    (hs : Sane lim free d) :
    ∃ F : Int, deleteCalls lim (.free free) true env d =
        some (idealLoop env (gather d) ((lim.minFree.toNat : Int) - free.toNat) F) ∧
      (F = if lim.maxFiles.toNat = 0 then -1 else ((gather d).length : Int) - lim.maxFiles.toNat) := by
  obtain ⟨s1, s2, s3, s4⟩ := hs
  have hg := gather_sum_le d
  have hl := gather_length_le d
  refine ⟨_, ?_, rfl⟩
  have hb : sgn (lim.minFree - free) = (lim.minFree.toNat : Int) - free.toNat := by
    have h0 : sgn lim.minFree = lim.minFree.toNat := by
      unfold sgn
      rw [if_pos s2]
    have := sgn_sub (w := lim.minFree) (n := free.toNat) (by rw [h0]; omega)
    rw [h0] at this
    simpa using this
  have hfz : (lim.maxFiles > 0) ↔ lim.maxFiles.toNat ≠ 0 := by
    show (0 : UInt64) < lim.maxFiles ↔ _
    rw [UInt64.lt_iff_toNat_lt]
    simp
    omega
  have hf : sgn (filesToDelete lim (gather d).length) =
      if lim.maxFiles.toNat = 0 then -1 else ((gather d).length : Int) - lim.maxFiles.toNat := by
    unfold filesToDelete
    by_cases hz : lim.maxFiles.toNat = 0
    · rw [if_neg (by rw [hfz]; simp [hz]), if_pos hz]
      decide
    · rw [if_pos (hfz.2 hz), if_neg hz]
      have h0 : sgn (UInt64.ofNat (gather d).length) = (gather d).length := by
        have : (UInt64.ofNat (gather d).length).toNat = (gather d).length := by
          rw [UInt64.toNat_ofNat']
          exact Nat.mod_eq_of_lt (by omega)
        unfold sgn
        rw [this, if_pos (by omega)]
      have := sgn_sub (w := UInt64.ofNat (gather d).length) (n := lim.maxFiles.toNat)
        (by rw [h0]; omega)
      rw [h0] at this
      simpa using this
  unfold deleteCalls
  simp only [VfsRes.space]
  split
  · rename_i h
    have h1 := UInt64.lt_iff_toNat_lt.1 h.1
    have h2 : lim.maxFiles.toNat = 0 := by rw [h.2]; rfl
    rw [if_pos h2]
    cases hgd : gather d with
    | nil => rfl
    | cons x m =>
      obtain ⟨k, e⟩ := x
      simp only [idealLoop]
      rw [if_pos (by omega)]
  · simp only [Bool.not_true, Bool.false_eq_true, if_false]
    rw [delLoop_ideal, hb, hf]
    · rw [hb]
      omega
    · rw [hf]
      split <;> omega

end Verif
