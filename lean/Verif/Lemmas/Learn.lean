import Verif.Lemmas.Routing

/- Helper lemmas about `_add_sys_comp_id` on an arbitrary link graph. -/

namespace Verif

open Spec

/-- Endpoint `k` exists and has the address. -/
def Has (id : UInt16) (h : List Ep) (k : Nat) : Prop := ∃ e, h[k]? = some e ∧ id ∈ e.learned

/-- `k` can be reached from `i` by following group links. -/
inductive Reach (h : List Ep) : Nat → Nat → Prop
  | refl (i : Nat) : Reach h i i
  | step {i j k : Nat} {e : Ep} : h[i]? = some e → j ∈ e.members → Reach h j k → Reach h i k

/-- Each endpoint is unchanged, or lacked the address and got it appended. -/
structure Grow (id : UInt16) (h h' : List Ep) : Prop where
  len : h'.length = h.length
  each : ∀ (k : Nat) (e : Ep), h[k]? = some e → ∃ e', h'[k]? = some e' ∧
    (e' = e ∨ (id ∉ e.learned ∧ e' = { e with learned := e.learned ++ [id] }))

/-- Number of endpoints lacking the address. -/
def lack (id : UInt16) (h : List Ep) : Nat := h.countP (fun e => !decide (id ∈ e.learned))

theorem Grow.refl (id : UInt16) (h : List Ep) : Grow id h h := ⟨rfl, fun _ e he => ⟨e, he, .inl rfl⟩⟩

theorem Grow.trans {id h h' h''} (a : Grow id h h') (b : Grow id h' h'') : Grow id h h'' := by
  refine ⟨b.len.trans a.len, ?_⟩
  intro k e he
  obtain ⟨e', h1, h2⟩ := a.each k e he
  obtain ⟨e'', h3, h4⟩ := b.each k e' h1
  refine ⟨e'', h3, ?_⟩
  rcases h2 with rfl | ⟨hn, rfl⟩
  · exact h4
  · rcases h4 with rfl | ⟨hn', _⟩
    · exact .inr ⟨hn, rfl⟩
    · simp at hn'

theorem Grow.has {id h h' k} (g : Grow id h h') (hk : Has id h k) : Has id h' k := by
  obtain ⟨e, he, hm⟩ := hk
  obtain ⟨e', h1, h2⟩ := g.each k e he
  refine ⟨e', h1, ?_⟩
  rcases h2 with rfl | ⟨_, rfl⟩
  · exact hm
  · simp [hm]

theorem Grow.back {id : UInt16} {h h' : List Ep} {k : Nat} {e' : Ep} (g : Grow id h h') (he : h'[k]? = some e') :
    ∃ e, h[k]? = some e ∧ (e' = e ∨ (id ∉ e.learned ∧ e' = { e with learned := e.learned ++ [id] })) := by
  have hlt : k < h.length := by
    rw [← g.len]; exact (List.getElem?_eq_some_iff.mp he).1
  obtain ⟨e'', h1, h2⟩ := g.each k h[k] (List.getElem?_eq_getElem hlt)
  rw [h1] at he
  cases he
  exact ⟨_, List.getElem?_eq_getElem hlt, h2⟩

theorem Grow.members {id : UInt16} {h h' : List Ep} {k : Nat} {e e' : Ep} (g : Grow id h h') (he : h[k]? = some e) (he' : h'[k]? = some e') :
    e'.members = e.members := by
  obtain ⟨e'', h1, h2⟩ := g.each k e he
  rw [h1] at he'
  cases he'
  rcases h2 with rfl | ⟨_, rfl⟩ <;> rfl

theorem Grow.reach {id h h' i k} (g : Grow id h h') (r : Reach h' i k) : Reach h i k := by
  induction r with
  | refl i => exact .refl i
  | step he hj _ ih =>
    obtain ⟨e, h1, _⟩ := g.back he
    exact .step h1 (by rw [← g.members h1 he]; exact hj) ih

theorem Grow.lack_le {id : UInt16} : ∀ {h h' : List Ep}, Grow id h h' → lack id h' ≤ lack id h := by
  intro h
  induction h with
  | nil => intro h' g; have := g.len; simp at this; subst this; exact Nat.le_refl _
  | cons e es ih =>
    intro h' g
    cases h' with
    | nil => have := g.len; simp at this
    | cons e' es' =>
      have g' : Grow id es es' := ⟨by have := g.len; simpa using this, fun k x hx => by
        have := g.each (k + 1) x (by simpa using hx)
        simpa using this⟩
      have h0 := g.each 0 e (by simp)
      simp at h0
      have hih := ih g'
      unfold lack at hih ⊢
      rw [List.countP_cons, List.countP_cons]
      rcases h0 with rfl | ⟨hn, rfl⟩
      · omega
      · simp [hn]; omega

theorem grow_set {id : UInt16} {h : List Ep} {i : Nat} {e : Ep} (he : h[i]? = some e) (hn : id ∉ e.learned) :
    Grow id h (h.set i { e with learned := e.learned ++ [id] }) := by
  refine ⟨by simp, ?_⟩
  intro k x hx
  by_cases hk : i = k
  · subst hk
    rw [he] at hx
    cases hx
    refine ⟨_, ?_, .inr ⟨hn, rfl⟩⟩
    rw [List.getElem?_set_self (List.getElem?_eq_some_iff.mp he).1]
  · exact ⟨x, by rw [List.getElem?_set_ne hk]; exact hx, .inl rfl⟩

theorem lack_set {id : UInt16} : ∀ {h : List Ep} {i : Nat} {e : Ep}, h[i]? = some e → id ∉ e.learned →
    lack id (h.set i { e with learned := e.learned ++ [id] }) + 1 = lack id h := by
  intro h
  induction h with
  | nil => intro i e he; simp at he
  | cons x xs ih =>
    intro i e he hn
    cases i with
    | zero =>
      simp at he; subst he
      simp [lack, hn]
    | succ i =>
      simp at he
      have := ih he hn
      unfold lack at this ⊢
      simp only [List.set_cons_succ, List.countP_cons]
      omega

theorem lack_le_length (id : UInt16) (h : List Ep) : lack id h ≤ h.length := List.countP_le_length

/-- What one call guarantees. -/
structure Learned (id : UInt16) (h : List Ep) (is : List Nat) (h' : List Ep) : Prop where
  grow : Grow id h h'
  self : ∀ i ∈ is, i < h.length → Has id h' i
  new : ∀ (k : Nat) (e : Ep), h[k]? = some e → id ∉ e.learned → Has id h' k →
    (∃ i ∈ is, Reach h i k) ∧ ∀ j ∈ e.members, j < h.length → Has id h' j

theorem addSysComp_learned (id : UInt16) : ∀ (fuel : Nat) (h : List Ep) (i : Nat), lack id h < fuel →
    ∃ h', addSysComp fuel h i id = some h' ∧ Learned id h [i] h' := by
  intro fuel
  induction fuel with
  | zero => intro h i hl; omega
  | succ fuel ih =>
    intro h i hl
    have fold : ∀ (ms : List Nat) (h : List Ep), lack id h < fuel →
        ∃ h', ms.foldlM (fun h j => addSysComp fuel h j id) h = some h' ∧ Learned id h ms h' := by
      intro ms
      induction ms with
      | nil =>
        intro h _
        refine ⟨h, rfl, .refl id h, by simp, ?_⟩
        rintro k e he hn ⟨e', he', hm⟩
        rw [he] at he'; cases he'; exact absurd hm hn
      | cons j ms ihm =>
        intro h hlt
        obtain ⟨h1, e1, l1⟩ := ih h j hlt
        obtain ⟨h2, e2, l2⟩ := ihm h1 (Nat.lt_of_le_of_lt l1.grow.lack_le hlt)
        refine ⟨h2, by simp [List.foldlM_cons, e1, e2], l1.grow.trans l2.grow, ?_, ?_⟩
        · intro i hi hilt
          rcases List.mem_cons.mp hi with rfl | hi
          · exact l2.grow.has (l1.self _ (by simp) hilt)
          · exact l2.self i hi (by rw [l1.grow.len]; exact hilt)
        · intro k e he hn hk
          obtain ⟨e', he', hcase⟩ := l1.grow.each k e he
          rcases hcase with rfl | ⟨_, rfl⟩
          · obtain ⟨⟨a, ha, r⟩, hj⟩ := l2.new k e' he' hn hk
            exact ⟨⟨a, List.mem_cons_of_mem _ ha, l1.grow.reach r⟩, fun j hj' hlt =>
              hj j hj' (by rw [l1.grow.len]; exact hlt)⟩
          · obtain ⟨⟨a, ha, r⟩, hj⟩ := l1.new k e he hn ⟨_, he', by simp⟩
            rw [List.mem_singleton] at ha
            subst ha
            exact ⟨⟨a, by simp, r⟩, fun j hj' hlt => l2.grow.has (hj j hj' hlt)⟩
    unfold addSysComp
    split
    · rename_i hnone
      refine ⟨h, rfl, .refl id h, ?_, ?_⟩
      · intro k hk hlt
        rw [List.mem_singleton] at hk; subst hk
        simp at hnone; omega
      · rintro k e he hn ⟨e', he', hm⟩
        rw [he] at he'; cases he'; exact absurd hm hn
    · rename_i e he
      split
      · rename_i hhas
        rw [hasSysComp_mem] at hhas
        refine ⟨h, rfl, .refl id h, ?_, ?_⟩
        · intro k hk _
          rw [List.mem_singleton] at hk; subst hk
          exact ⟨e, he, hhas⟩
        · rintro k e he hn ⟨e', he', hm⟩
          rw [he] at he'; cases he'; exact absurd hm hn
      · rename_i hhas
        rw [hasSysComp_mem] at hhas
        have g1 := grow_set he hhas
        have hls := lack_set he hhas
        obtain ⟨h', e2, l2⟩ := fold e.members (h.set i { e with learned := e.learned ++ [id] }) (by omega)
        have hset : (h.set i { e with learned := e.learned ++ [id] })[i]? =
            some { e with learned := e.learned ++ [id] } := by
          rw [List.getElem?_set_self (List.getElem?_eq_some_iff.mp he).1]
        have hi : Has id h' i := l2.grow.has ⟨_, hset, by simp⟩
        refine ⟨h', e2, g1.trans l2.grow, ?_, ?_⟩
        · intro k hk _
          rw [List.mem_singleton] at hk; subst hk
          exact hi
        · intro k x hx hn hk
          by_cases hik : i = k
          · subst hik
            rw [he] at hx; cases hx
            exact ⟨⟨i, by simp, .refl i⟩, fun j hj hlt => l2.self j hj (by simpa using hlt)⟩
          · have hx' : (h.set i { e with learned := e.learned ++ [id] })[k]? = some x := by
              rw [List.getElem?_set_ne hik]; exact hx
            obtain ⟨⟨a, ha, r⟩, hj⟩ := l2.new k x hx' hn hk
            exact ⟨⟨i, by simp, .step he ha (g1.reach r)⟩, fun j hj' hlt => hj j hj' (by simpa using hlt)⟩

/-- More fuel never changes the result. -/
theorem addSysComp_mono (id : UInt16) : ∀ (fuel : Nat) (h : List Ep) (i : Nat) (h' : List Ep),
    addSysComp fuel h i id = some h' → ∀ fuel', fuel ≤ fuel' → addSysComp fuel' h i id = some h' := by
  intro fuel
  induction fuel with
  | zero => intro h i h' e; simp [addSysComp] at e
  | succ fuel ih =>
    intro h i h' e fuel' hle
    obtain ⟨f, rfl⟩ : ∃ f, fuel' = f + 1 := ⟨fuel' - 1, by omega⟩
    have fold : ∀ (ms : List Nat) (h : List Ep) (h' : List Ep),
        ms.foldlM (fun h j => addSysComp fuel h j id) h = some h' →
        ms.foldlM (fun h j => addSysComp f h j id) h = some h' := by
      intro ms
      induction ms with
      | nil => intro h h' e; exact e
      | cons j ms ihm =>
        intro h h' e
        rw [List.foldlM_cons] at e ⊢
        cases hq : addSysComp fuel h j id with
        | none => rw [hq] at e; simp at e
        | some q =>
          rw [hq] at e
          rw [ih h j q hq f (by omega)]
          exact ihm q h' e
    unfold addSysComp at e ⊢
    split at e
    · exact e
    · split at e
      · rename_i hh; rw [if_pos hh]; exact e
      · rename_i hh; rw [if_neg hh]; exact fold _ _ _ e

/-- Links only lead to endpoints knowing at least as much. -/
def Closed (h : List Ep) : Prop :=
  ∀ (i : Nat) (e : Ep), h[i]? = some e → ∀ j ∈ e.members, ∀ e', h[j]? = some e' →
    ∀ id ∈ e.learned, id ∈ e'.learned

theorem Learned.closed {id h i h'} (l : Learned id h [i] h') (c : Closed h) : Closed h' := by
  intro k e' he' j hj x' hx' id' hid'
  obtain ⟨e, he, hcase⟩ := l.grow.back he'
  obtain ⟨x, hx, hxcase⟩ := l.grow.back hx'
  have hmem : j ∈ e.members := by rw [← l.grow.members he he']; exact hj
  have hsub : ∀ y ∈ x.learned, y ∈ x'.learned := by
    intro y hy
    rcases hxcase with rfl | ⟨_, rfl⟩
    · exact hy
    · simp [hy]
  rcases hcase with rfl | ⟨hn, rfl⟩
  · exact hsub _ (c k e' he j hmem x hx id' hid')
  · simp only [List.mem_append, List.mem_singleton] at hid'
    rcases hid' with hid' | rfl
    · exact hsub _ (c k e he j hmem x hx id' hid')
    · obtain ⟨_, hall⟩ := l.new k e he hn ⟨_, he', by simp⟩
      obtain ⟨y, hy, hyid⟩ := hall j hmem (List.getElem?_eq_some_iff.mp hx).1
      rw [hx'] at hy; cases hy; exact hyid

/-- With links as configured, reachability is group membership. -/
theorem reach_peer {h : List Ep} (hg : Grouped h) {i k : Nat} (r : Reach h i k) : Peer h i k := by
  induction r with
  | refl i => exact .inl rfl
  | step he hj _ ih =>
    obtain ⟨_, e', he', hne, heq⟩ := (hg _ _ he _).mp hj
    rcases ih with rfl | ⟨a, b, ha, hb, hn, hab⟩
    · exact .inr ⟨_, _, he, he', hne, heq⟩
    · rw [he'] at ha; cases ha
      exact .inr ⟨_, _, he, hb, hne, heq.trans hab⟩

/-- Exactly what learning does when links are as configured: every peer has the address afterwards, appended if
it was missing; nobody else changes. -/
theorem Learned.exact {id h i h'} (l : Learned id h [i] h') (hg : Grouped h) (hc : Closed h)
    (hi : i < h.length) (k : Nat) (e : Ep) (he : h[k]? = some e) :
    ∃ e', h'[k]? = some e' ∧
      ((Peer h i k ∧ id ∉ e.learned ∧ e' = { e with learned := e.learned ++ [id] }) ∨
       ((¬ Peer h i k ∨ id ∈ e.learned) ∧ e' = e)) := by
  obtain ⟨e', he', hcase⟩ := l.grow.each k e he
  refine ⟨e', he', ?_⟩
  by_cases hmem : id ∈ e.learned
  · rcases hcase with rfl | ⟨hn, _⟩
    · exact .inr ⟨.inr hmem, rfl⟩
    · exact absurd hmem hn
  · by_cases hp : Peer h i k
    · refine .inl ⟨hp, hmem, ?_⟩
      rcases hcase with rfl | ⟨_, h2⟩
      · exfalso
        have hhas : Has id h' k := by
          have hii := l.self i (by simp) hi
          by_cases hik : i = k
          · subst hik; exact hii
          · rcases hp with rfl | ⟨a, b, ha, hb, hne, hab⟩
            · exact absurd rfl hik
            · have hlk := (hg i a ha k).mpr ⟨fun h => hik h.symm, b, hb, hne, hab⟩
              by_cases hida : id ∈ a.learned
              · exact l.grow.has ⟨b, hb, hc i a ha k hlk b hb id hida⟩
              · exact (l.new i a ha hida hii).2 k hlk (List.getElem?_eq_some_iff.mp hb).1
        obtain ⟨y, hy, hyid⟩ := hhas
        rw [he'] at hy; cases hy; exact hmem hyid
      · exact h2
    · refine .inr ⟨.inl hp, ?_⟩
      rcases hcase with rfl | ⟨hn, h2⟩
      · rfl
      · exfalso
        obtain ⟨⟨a, ha, r⟩, _⟩ := l.new k e he hn ⟨_, he', by rw [h2]; simp⟩
        rw [List.mem_singleton] at ha; subst ha
        exact hp (reach_peer hg r)

/-- Fields other than the list of addresses are untouched, so links stay as configured. -/
theorem Grow.grouped {id h h'} (g : Grow id h h') (hg : Grouped h) : Grouped h' := by
  have key : ∀ (k : Nat) (e' : Ep), h'[k]? = some e' →
      ∃ e, h[k]? = some e ∧ e'.group = e.group ∧ e'.members = e.members := by
    intro k e' he'
    obtain ⟨e, he, hcase⟩ := g.back he'
    refine ⟨e, he, ?_⟩
    rcases hcase with rfl | ⟨_, rfl⟩ <;> exact ⟨rfl, rfl⟩
  intro i e' he' j
  obtain ⟨e, he, h1, h2⟩ := key i e' he'
  rw [h2, hg i e he j, h1]
  constructor
  · rintro ⟨hne, x, hx, hn, hq⟩
    obtain ⟨x', hx', hcase⟩ := g.each j x hx
    refine ⟨hne, x', hx', hn, ?_⟩
    rcases hcase with rfl | ⟨_, rfl⟩ <;> exact hq
  · rintro ⟨hne, x', hx', hn, hq⟩
    obtain ⟨x, hx, hgx, _⟩ := key j x' hx'
    exact ⟨hne, x, hx, hn, by rw [hq, hgx]⟩

theorem Grow.peer {id h h'} (g : Grow id h h') (i k : Nat) : Peer h' i k ↔ Peer h i k := by
  have hgrp : ∀ (k : Nat), (h'[k]?).map Ep.group = (h[k]?).map Ep.group := by
    intro k
    cases hk : h[k]? with
    | none =>
      have : h'[k]? = none := by
        rw [List.getElem?_eq_none_iff] at hk ⊢; rw [g.len]; exact hk
      rw [this]
    | some e =>
      obtain ⟨e', he', hcase⟩ := g.each k e hk
      rw [he']
      rcases hcase with rfl | ⟨_, rfl⟩ <;> rfl
  have conv : ∀ (a : List Ep), Peer a i k ↔ (i = k ∨ ∃ x : String, (a[i]?).map Ep.group = some x ∧
      (a[k]?).map Ep.group = some x ∧ x ≠ "") := by
    intro a
    unfold Peer
    constructor
    · rintro (h | ⟨e, e', h1, h2, h3, h4⟩)
      · exact .inl h
      · exact .inr ⟨e.group, by rw [h1]; rfl, by rw [h2, h4]; rfl, h3⟩
    · rintro (h | ⟨x, h1, h2, h3⟩)
      · exact .inl h
      · rw [Option.map_eq_some_iff] at h1 h2
        obtain ⟨e, he, rfl⟩ := h1
        obtain ⟨e', he', h4⟩ := h2
        exact .inr ⟨e, e', he, he', h3, h4.symm⟩
  rw [conv h', conv h, hgrp i, hgrp k]

/-- The linking loop establishes the configured links. -/
theorem linkGroups_grouped (eps : List Ep) (h0 : ∀ e ∈ eps, e.members = []) : Grouped (linkGroups eps) := by
  have key : ∀ (k : Nat) (e' : Ep), (linkGroups eps)[k]? = some e' → ∃ e, eps[k]? = some e ∧
      e'.group = e.group ∧ e'.learned = e.learned ∧
      e'.members = if e.group = "" then [] else (List.range eps.length).filter (fun j =>
        j ≠ k ∧ (eps[j]?).map (·.group) = some e.group) := by
    intro k e' he'
    unfold linkGroups at he'
    rw [List.getElem?_mapIdx, Option.map_eq_some_iff] at he'
    obtain ⟨e, he, hq⟩ := he'
    have hm := h0 e (List.mem_of_getElem? he)
    refine ⟨e, he, ?_⟩
    split at hq
    · subst hq; rename_i hgr; simp [hgr, hm]
    · subst hq; rename_i hgr; simp [hgr, hm]
  have back : ∀ (k : Nat) (e : Ep), eps[k]? = some e →
      ∃ e', (linkGroups eps)[k]? = some e' ∧ e'.group = e.group := by
    intro k e he
    unfold linkGroups
    rw [List.getElem?_mapIdx, he]
    refine ⟨_, rfl, ?_⟩
    by_cases hgr : e.group = "" <;> simp [hgr]
  intro i e' he' j
  obtain ⟨e, he, h1, _, h3⟩ := key i e' he'
  rw [h3, h1]
  by_cases hgr : e.group = ""
  · simp [hgr]
  · rw [if_neg hgr, List.mem_filter]
    simp only [List.mem_range, decide_eq_true_eq]
    constructor
    · rintro ⟨_, hne, hj⟩
      rw [Option.map_eq_some_iff] at hj
      obtain ⟨x, hx, hq⟩ := hj
      obtain ⟨x', hx', hgx⟩ := back j x hx
      exact ⟨hne, x', hx', hgr, by rw [hgx, hq]⟩
    · rintro ⟨hne, x', hx', _, hq⟩
      obtain ⟨x, hx, hgx, _⟩ := key j x' hx'
      exact ⟨(List.getElem?_eq_some_iff.mp hx).1, hne, by rw [hx]; simp [hq, hgx]⟩

end Verif
