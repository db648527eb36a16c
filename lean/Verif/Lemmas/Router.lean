import Verif.Lemmas.Route
import Verif.Lemmas.Dedup

/- Invariant and history relation of the router. -/

namespace Verif

open Spec

variable {σ : Type}

/-- Endpoints keep their configuration and what they learned; new ones are plain TCP clients. -/
structure Ext (h h' : List Ep) : Prop where
  len : h.length ≤ h'.length
  each : ∀ (k : Nat) (e : Ep), h[k]? = some e → ∃ e', h'[k]? = some e' ∧ e'.kind = e.kind ∧
    e'.group = e.group ∧ e'.filters = e.filters ∧ e'.members = e.members ∧ ∃ x, e'.learned = e.learned ++ x
  new : ∀ (k : Nat) (e' : Ep), h'[k]? = some e' → h.length ≤ k →
    e'.kind = .tcp ∧ e'.group = "" ∧ e'.members = []

theorem Ext.refl (h : List Ep) : Ext h h :=
  ⟨Nat.le_refl _, fun _ e he => ⟨e, he, rfl, rfl, rfl, rfl, [], by simp⟩, fun k e' he hk => by
    have := (List.getElem?_eq_some_iff.mp he).1; omega⟩

theorem Ext.trans {h h' h''} (a : Ext h h') (b : Ext h' h'') : Ext h h'' := by
  refine ⟨Nat.le_trans a.len b.len, ?_, ?_⟩
  · intro k e he
    obtain ⟨e', h1, h2, h3, h4, h5, x, h6⟩ := a.each k e he
    obtain ⟨e'', g1, g2, g3, g4, g5, y, g6⟩ := b.each k e' h1
    exact ⟨e'', g1, g2.trans h2, g3.trans h3, g4.trans h4, g5.trans h5, x ++ y, by rw [g6, h6]; simp⟩
  · intro k e'' he hk
    by_cases hlt : k < h'.length
    · obtain ⟨e₂, g1, g2, g3, g4, g5, _⟩ := b.each k h'[k] (List.getElem?_eq_getElem hlt)
      rw [he] at g1; cases g1
      obtain ⟨c1, c2, c3⟩ := a.new k h'[k] (List.getElem?_eq_getElem hlt) hk
      exact ⟨g2.trans c1, g3.trans c2, g5.trans c3⟩
    · exact b.new k e'' he (by omega)

theorem Ext.back {h h' : List Ep} {k : Nat} {e' : Ep} (x : Ext h h') (he : h'[k]? = some e') :
    (∃ e, h[k]? = some e ∧ e'.kind = e.kind ∧ e'.group = e.group ∧ e'.filters = e.filters ∧
      e'.members = e.members ∧ ∃ y, e'.learned = e.learned ++ y) ∨
    (h.length ≤ k ∧ e'.kind = .tcp ∧ e'.group = "" ∧ e'.members = []) := by
  by_cases hlt : k < h.length
  · obtain ⟨e₂, g1, g⟩ := x.each k h[k] (List.getElem?_eq_getElem hlt)
    rw [he] at g1; cases g1
    exact .inl ⟨_, List.getElem?_eq_getElem hlt, g⟩
  · exact .inr ⟨by omega, x.new k e' he (by omega)⟩

theorem Ext.peer {h h' : List Ep} (x : Ext h h') (i k : Nat) : Peer h' i k ↔ Peer h i k := by
  unfold Peer
  constructor
  · rintro (hh | ⟨e, e', h1, h2, h3, h4⟩)
    · exact .inl hh
    · rcases x.back h1 with ⟨a, ha, _, ga, _⟩ | ⟨_, _, g, _⟩
      · rcases x.back h2 with ⟨b, hb, _, gb, _⟩ | ⟨_, _, g, _⟩
        · exact .inr ⟨a, b, ha, hb, by rw [← ga]; exact h3, by rw [← ga, ← gb]; exact h4⟩
        · rw [h4, g] at h3; exact absurd rfl h3
      · exact absurd g h3
  · rintro (hh | ⟨e, e', h1, h2, h3, h4⟩)
    · exact .inl hh
    · obtain ⟨a, ha, _, ga, _⟩ := x.each _ _ h1
      obtain ⟨b, hb, _, gb, _⟩ := x.each _ _ h2
      exact .inr ⟨a, b, ha, hb, by rw [ga]; exact h3, by rw [ga, gb]; exact h4⟩

theorem Ext.grouped {h h' : List Ep} (x : Ext h h') (hg : Grouped h) : Grouped h' := by
  intro i e' he' j
  rcases x.back he' with ⟨e, he, _, g1, _, g2, _⟩ | ⟨_, _, g, g'⟩
  · rw [g2, hg i e he j, g1]
    constructor
    · rintro ⟨hne, y, hy, hn, hq⟩
      obtain ⟨y', hy', _, gy, _⟩ := x.each j y hy
      exact ⟨hne, y', hy', hn, by rw [gy]; exact hq⟩
    · rintro ⟨hne, y', hy', hn, hq⟩
      rcases x.back hy' with ⟨y, hy, _, gy, _⟩ | ⟨_, _, gy, _⟩
      · exact ⟨hne, y, hy, hn, by rw [← gy]; exact hq⟩
      · rw [hq, gy] at hn; exact absurd rfl hn
  · rw [g', g]; simp

/-- The lists of addresses after `as` are exactly what `as` taught. -/
structure HistOk (h : List Ep) (as : List Arrival) (h' : List Ep) : Prop where
  ext : Ext h h'
  dom : ∀ a ∈ as, a.passed = true → a.ep < h'.length
  iff : ∀ (k : Nat) (e' : Ep), h'[k]? = some e' → ∀ id, id ∈ e'.learned ↔
    (∃ e, h[k]? = some e ∧ id ∈ e.learned) ∨
    ∃ a ∈ as, a.passed = true ∧ id = sysComp a.msg.srcSys a.msg.srcComp ∧ Peer h' a.ep k

theorem HistOk.trans {h h' h'' as bs} (x : HistOk h as h') (y : HistOk h' bs h'') : HistOk h (as ++ bs) h'' := by
  refine ⟨x.ext.trans y.ext, ?_, ?_⟩
  · intro a ha hp
    rcases List.mem_append.mp ha with ha | ha
    · exact Nat.lt_of_lt_of_le (x.dom a ha hp) y.ext.len
    · exact y.dom a ha hp
  · intro k e'' he'' id
    rw [y.iff k e'' he'' id]
    constructor
    · rintro (⟨e', he', hm⟩ | ⟨a, ha, hp, hi, hpeer⟩)
      · rcases (x.iff k e' he' id).mp hm with h1 | ⟨a, ha, hp, hi, hpeer⟩
        · exact .inl h1
        · exact .inr ⟨a, List.mem_append_left _ ha, hp, hi, (y.ext.peer _ _).mpr hpeer⟩
      · exact .inr ⟨a, List.mem_append_right _ ha, hp, hi, hpeer⟩
    · rintro (⟨e, he, hm⟩ | ⟨a, ha, hp, hi, hpeer⟩)
      · obtain ⟨e', he', _⟩ := x.ext.each k e he
        exact .inl ⟨e', he', (x.iff k e' he' id).mpr (.inl ⟨e, he, hm⟩)⟩
      · rcases List.mem_append.mp ha with ha | ha
        · have hpeer' := (y.ext.peer _ _).mp hpeer
          have hk : k < h'.length := by
            rcases hpeer' with rfl | ⟨_, _, _, h2, _⟩
            · exact x.dom a ha hp
            · exact (List.getElem?_eq_some_iff.mp h2).1
          exact .inl ⟨_, List.getElem?_eq_getElem hk,
            (x.iff k _ (List.getElem?_eq_getElem hk) id).mpr (.inr ⟨a, ha, hp, hi, hpeer'⟩)⟩
        · exact .inr ⟨a, ha, hp, hi, hpeer⟩

/-- Invariant of the router. -/
structure RouterInv (w : World σ) : Prop where
  grouped : Grouped w.eps
  same : ∀ (i j : Nat) (e e' : Ep), w.eps[i]? = some e → w.eps[j]? = some e' → Peer w.eps i j →
    e.learned = e'.learned
  nodup : ∀ e ∈ w.eps, e.learned.Nodup
  dedup : w.dedup.Inv
  actLt : ∀ i ∈ w.active, i < w.eps.length
  actSorted : w.active.Pairwise (· < ·)
  logs20 : LogsKnow20 w.eps

theorem RouterInv.actNodup {w : World σ} (hw : RouterInv w) : w.active.Nodup :=
  hw.actSorted.imp (fun h => Nat.ne_of_lt h)

theorem RouterInv.closed {w : World σ} (hw : RouterInv w) : Closed w.eps := by
  intro i e he j hj e' he' id hid
  obtain ⟨_, x, hx, hn, hq⟩ := (hw.grouped i e he j).mp hj
  rw [he'] at hx; cases hx
  rw [← hw.same i j e e' he he' (.inr ⟨e, e', he, he', hn, hq⟩)]
  exact hid

theorem Grow.ext {id h h'} (g : Grow id h h') : Ext h h' := by
  refine ⟨by rw [g.len]; exact Nat.le_refl _, ?_, ?_⟩
  · intro k e he
    obtain ⟨e', h1, h2⟩ := g.each k e he
    rcases h2 with rfl | ⟨_, rfl⟩
    · exact ⟨e', h1, rfl, rfl, rfl, rfl, [], by simp⟩
    · exact ⟨_, h1, rfl, rfl, rfl, rfl, [id], rfl⟩
  · intro k e' he hk
    have := (List.getElem?_eq_some_iff.mp he).1
    rw [g.len] at this; omega

theorem peer_symm {h : List Ep} {i j : Nat} (p : Peer h i j) : Peer h j i := by
  rcases p with rfl | ⟨a, b, ha, hb, hn, hq⟩
  · exact .inl rfl
  · exact .inr ⟨b, a, hb, ha, by rw [← hq]; exact hn, hq.symm⟩

theorem peer_trans {h : List Ep} {i j k : Nat} (p : Peer h i j) (q : Peer h j k) : Peer h i k := by
  rcases p with rfl | ⟨a, b, ha, hb, hn, hq⟩
  · exact q
  · rcases q with rfl | ⟨c, d, hc, hd, hn', hq'⟩
    · exact .inr ⟨a, b, ha, hb, hn, hq⟩
    · rw [hb] at hc; cases hc
      exact .inr ⟨a, d, ha, hd, hn, hq.trans hq'⟩

/-- Learning preserves the invariant. -/
theorem learn_inv {w : World σ} (hw : RouterInv w) {i : Nat} (hi : i < w.eps.length) {id : UInt16}
    {h' : List Ep} (l : Learned id w.eps [i] h') : RouterInv { w with eps := h' } := by
  have hex := fun k e he => l.exact hw.grouped hw.closed hi k e he
  refine ⟨l.grow.grouped hw.grouped, ?_, ?_, hw.dedup, ?_, hw.actSorted, ?_⟩
  · intro a b ea eb ha hb hp
    have hp' := (l.grow.peer a b).mp hp
    obtain ⟨xa, hxa, _⟩ := l.grow.back ha
    obtain ⟨xb, hxb, _⟩ := l.grow.back hb
    have hsame := hw.same a b xa xb hxa hxb hp'
    obtain ⟨ya, hya, ca⟩ := hex a xa hxa
    obtain ⟨yb, hyb, cb⟩ := hex b xb hxb
    have e1 : ya = ea := by rw [hya] at ha; exact Option.some.inj ha
    have e2 : yb = eb := by rw [hyb] at hb; exact Option.some.inj hb
    subst e1 e2
    have hpp : Peer w.eps i a ↔ Peer w.eps i b :=
      ⟨fun h => peer_trans h hp', fun h => peer_trans h (peer_symm hp')⟩
    rcases ca with ⟨p1, p2, rfl⟩ | ⟨p1, rfl⟩
    · rcases cb with ⟨q1, q2, rfl⟩ | ⟨q1, rfl⟩
      · simp [hsame]
      · rcases q1 with q1 | q1
        · exact absurd (hpp.mp p1) q1
        · rw [← hsame] at q1; exact absurd q1 p2
    · rcases cb with ⟨q1, q2, rfl⟩ | ⟨q1, rfl⟩
      · rcases p1 with p1 | p1
        · exact absurd (hpp.mpr q1) p1
        · rw [hsame] at p1; exact absurd p1 q2
      · exact hsame
  · intro e' he'
    obtain ⟨k, hk⟩ := List.getElem?_of_mem he'
    obtain ⟨e, he, hc⟩ := l.grow.back hk
    have hn := hw.nodup e (List.mem_of_getElem? he)
    rcases hc with rfl | ⟨hnot, rfl⟩
    · exact hn
    · simp only [List.nodup_append, List.nodup_cons, List.not_mem_nil, not_false_eq_true, List.nodup_nil,
        and_true, true_and, List.mem_singleton]
      exact ⟨hn, fun x hx y hy => by rintro rfl; subst hy; exact hnot hx⟩
  · intro k hk
    show k < h'.length
    rw [l.grow.len]; exact hw.actLt k hk
  · intro e' he' hkind
    obtain ⟨k, hk⟩ := List.getElem?_of_mem he'
    obtain ⟨e, he, hc⟩ := l.grow.back hk
    rcases hc with rfl | ⟨hnot, rfl⟩
    · exact hw.logs20 e' (List.mem_of_getElem? he) hkind
    · have := hw.logs20 e (List.mem_of_getElem? he) hkind
      simp [this]

/-- Routing preserves the invariant. -/
theorem kept_inv {w w' : World σ} {new} (hw : RouterInv w) (k : Kept w w' new) : RouterInv w' := by
  obtain ⟨h1, h2, h3, _, _⟩ := k
  refine ⟨?_, ?_, ?_, ?_, ?_, ?_, ?_⟩
  · rw [h1]; exact hw.grouped
  · rw [h1]; exact hw.same
  · rw [h1]; exact hw.nodup
  · rw [h3]; exact hw.dedup
  · rw [h1, h2]; exact hw.actLt
  · rw [h2]; exact hw.actSorted
  · rw [h1]; exact hw.logs20

/-- Everything about one message. -/
theorem handleMsg_spec (env : Env σ) (w : World σ) (hw : RouterInv w) (i : Nat) (m : Msg) :
    ∃ w' b, handleMsg env w i m = some (w', b) ∧ RouterInv w' ∧
      HistOk w.eps [{ ep := i, msg := m, passed := b }] w'.eps ∧ w'.active = w.active ∧
      (b = false → ∃ d c, w' = { w with dedup := d, checks := c }) ∧
      (b = true → ∃ h' d, Learned (sysComp m.srcSys m.srcComp) w.eps [i] h' ∧ i < w.eps.length ∧
        w' = routeMsg env 2 false { w with eps := h', dedup := d, checks := w.checks + 1 } m) ∧
      (b = true ↔ ∃ e d, w.eps[i]? = some e ∧
        w.dedup.check env.hashFn env.dedupPeriod (env.clock w.checks) m.data = some (d, true) ∧
        allowedIn e.filters m = true) := by
  have hno : ∀ (w' : World σ), w'.eps = w.eps → HistOk w.eps [{ ep := i, msg := m, passed := false }] w'.eps := by
    intro w' he
    rw [he]
    refine ⟨.refl _, by simp, ?_⟩
    intro k e' hk id
    simp [hk]
  unfold handleMsg
  cases he : w.eps[i]? with
  | none =>
    refine ⟨w, false, rfl, hw, hno w rfl, rfl, fun _ => ⟨_, _, rfl⟩, by simp, ?_⟩
    simp
  | some e =>
    obtain ⟨d, isNew, hd, hinv⟩ := Dedup.check_inv env.hashFn w.dedup hw.dedup env.dedupPeriod (env.clock w.checks) m.data
    have hw1 : RouterInv { w with dedup := d, checks := w.checks + 1 } :=
      ⟨hw.grouped, hw.same, hw.nodup, hinv, hw.actLt, hw.actSorted, hw.logs20⟩
    simp only [hd]
    cases isNew with
    | false =>
      refine ⟨_, false, rfl, hw1, hno _ rfl, rfl, fun _ => ⟨_, _, rfl⟩, by simp, ?_⟩
      simp
    | true =>
      cases hal : allowedIn e.filters m with
      | false =>
        refine ⟨_, false, by simp, hw1, hno _ rfl, rfl, fun _ => ⟨_, _, rfl⟩, by simp, ?_⟩
        simp [hal]
      | true =>
        have hi : i < w.eps.length := (List.getElem?_eq_some_iff.mp he).1
        obtain ⟨h', hh', l⟩ := addSysComp_learned (sysComp m.srcSys m.srcComp) (w.eps.length + 1) w.eps i
          (by have := lack_le_length (sysComp m.srcSys m.srcComp) w.eps; omega)
        simp only [Bool.not_true, Bool.false_eq_true, if_false, hh']
        have hw2 := learn_inv hw1 hi l
        obtain ⟨new, hk, _⟩ := routeMsg_spec env 1 { w with eps := h', dedup := d, checks := w.checks + 1 } m
        refine ⟨_, true, rfl, kept_inv hw2 hk, ?_, hk.active, by simp, fun _ => ⟨h', d, l, hi, rfl⟩, ?_⟩
        · rw [hk.eps]
          refine ⟨l.grow.ext, ?_, ?_⟩
          · intro a ha _
            rw [List.mem_singleton] at ha; subst ha
            show i < h'.length
            rw [l.grow.len]; exact hi
          · intro k e' hk' id
            obtain ⟨x, hx, _⟩ := l.grow.back hk'
            obtain ⟨y, hy, hc⟩ := l.exact hw.grouped hw.closed hi k x hx
            rw [hk'] at hy; cases hy
            have hpeer := l.grow.peer i k
            simp only [List.mem_singleton, exists_eq_left, true_and, hx, Option.some.injEq]
            rw [hpeer]
            have hex : ∀ P : Ep → Prop, (∃ e, x = e ∧ P e) ↔ P x := by
              intro P
              constructor
              · rintro ⟨_, rfl, h⟩; exact h
              · intro h; exact ⟨x, rfl, h⟩
            rw [hex]
            rcases hc with ⟨p1, p2, rfl⟩ | ⟨p1, rfl⟩
            · simp only [List.mem_append, List.mem_singleton, p1, and_true]
            · constructor
              · exact .inl
              · rintro (h | ⟨h, hp⟩)
                · exact h
                · rcases p1 with p1 | p1
                  · exact absurd hp p1
                  · rw [h]; exact p1
        · simp only [true_iff]
          exact ⟨e, d, rfl, rfl, hal⟩

theorem runMsgs_spec (env : Env σ) (i : Nat) : ∀ (ms : List Msg) (w : World σ), RouterInv w →
    ∃ w' as, runMsgs env i w ms = some (w', as) ∧ RouterInv w' ∧ HistOk w.eps as w'.eps ∧
      w'.active = w.active ∧ as.map Arrival.msg = ms ∧ ∀ a ∈ as, a.ep = i := by
  intro ms
  induction ms with
  | nil =>
    intro w hw
    refine ⟨w, [], rfl, hw, ⟨.refl _, by simp, ?_⟩, rfl, rfl, by simp⟩
    intro k e' hk id
    simp [hk]
  | cons m ms ih =>
    intro w hw
    obtain ⟨w1, b, h1, h2, h3, h4, _⟩ := handleMsg_spec env w hw i m
    obtain ⟨w2, as, g1, g2, g3, g4, g5, g6⟩ := ih w1 h2
    refine ⟨w2, { ep := i, msg := m, passed := b } :: as, by simp only [runMsgs, h1, g1], g2, ?_,
      g4.trans h4, by simp [g5], ?_⟩
    · have := h3.trans g3
      simpa using this
    · intro a ha
      rcases List.mem_cons.mp ha with rfl | ha
      · rfl
      · exact g6 a ha

/-- Replacing receive state or connection state does not matter. -/
theorem set_inv {w : World σ} (hw : RouterInv w) {i : Nat} {e e' : Ep} (he : w.eps[i]? = some e)
    (h1 : e'.kind = e.kind) (h2 : e'.group = e.group) (h3 : e'.filters = e.filters)
    (h4 : e'.members = e.members) (h5 : e'.learned = e.learned) :
    RouterInv { w with eps := w.eps.set i e' } ∧ HistOk w.eps [] (w.eps.set i e') := by
  have hi : i < w.eps.length := (List.getElem?_eq_some_iff.mp he).1
  have get : ∀ (k : Nat) (x : Ep), (w.eps.set i e')[k]? = some x → ∃ y, w.eps[k]? = some y ∧ x.kind = y.kind ∧
      x.group = y.group ∧ x.filters = y.filters ∧ x.members = y.members ∧ x.learned = y.learned := by
    intro k x hx
    by_cases hk : i = k
    · subst hk
      rw [List.getElem?_set_self hi] at hx
      cases hx
      exact ⟨e, he, h1, h2, h3, h4, h5⟩
    · rw [List.getElem?_set_ne hk] at hx
      exact ⟨x, hx, rfl, rfl, rfl, rfl, rfl⟩
  have hext : Ext w.eps (w.eps.set i e') := by
    refine ⟨by simp, ?_, ?_⟩
    · intro k x hx
      by_cases hk : i = k
      · subst hk
        rw [he] at hx; cases hx
        exact ⟨e', by rw [List.getElem?_set_self hi], h1, h2, h3, h4, [], by simp [h5]⟩
      · exact ⟨x, by rw [List.getElem?_set_ne hk]; exact hx, rfl, rfl, rfl, rfl, [], by simp⟩
    · intro k x hx hk
      have := (List.getElem?_eq_some_iff.mp hx).1
      rw [List.length_set] at this; omega
  refine ⟨⟨hext.grouped hw.grouped, ?_, ?_, hw.dedup, ?_, hw.actSorted, ?_⟩, hext, by simp, ?_⟩
  · intro a b ea eb ha hb hp
    obtain ⟨ya, hya, _, _, _, _, la⟩ := get a ea ha
    obtain ⟨yb, hyb, _, _, _, _, lb⟩ := get b eb hb
    rw [la, lb]
    exact hw.same a b ya yb hya hyb ((hext.peer a b).mp hp)
  · intro x hx
    obtain ⟨k, hk⟩ := List.getElem?_of_mem hx
    obtain ⟨y, hy, _, _, _, _, l⟩ := get k x hk
    rw [l]; exact hw.nodup y (List.mem_of_getElem? hy)
  · intro k hk
    show k < (w.eps.set i e').length
    rw [List.length_set]; exact hw.actLt k hk
  · intro x hx hkind
    obtain ⟨k, hk⟩ := List.getElem?_of_mem hx
    obtain ⟨y, hy, hk1, _, _, _, l⟩ := get k x hk
    rw [l]; exact hw.logs20 y (List.mem_of_getElem? hy) (hk1 ▸ hkind)
  · intro k x hx id
    obtain ⟨y, hy, _, _, _, _, l⟩ := get k x hx
    rw [l]; simp [hy]

theorem logCall_kept (env : Env σ) (w : World σ) (i : Nat) (c : LogCall) :
    ∃ new, Kept w (logCall env w i c) new ∧ ∀ s ∈ new, s.gen = true := by
  unfold logCall
  split
  · obtain ⟨new, h, hg⟩ := foldl_routeOk (routeMsg_ok env 2) (env.logCall i c (w.logs i)).2
      { w with logs := fun j => if j = i then (env.logCall i c (w.logs i)).1 else w.logs j }
    exact ⟨new, ⟨h.eps, h.active, h.dedup, h.checks, h.out⟩, hg⟩
  · exact ⟨[], .refl w, by simp⟩

theorem routerStep_spec (env : Env σ) (w : World σ) (hw : RouterInv w) (ev : RouterEv) :
    ∃ w' as, routerStep env w ev = some (w', as) ∧ RouterInv w' ∧ HistOk w.eps as w'.eps := by
  have hid : ∀ h : List Ep, HistOk h [] h := by
    intro h
    refine ⟨.refl _, by simp, ?_⟩
    intro k e' hk id
    simp [hk]
  cases ev with
  | read i io =>
    show ∃ w' as, handleRead env w i io = _ ∧ _
    unfold handleRead
    cases he : w.eps[i]? with
    | none => exact ⟨w, [], rfl, hw, hid _⟩
    | some e =>
      obtain ⟨h1, h2⟩ := set_inv hw (e' := { e with rx := (drain env.tbl e.fdOpen (rxBufMax + 1) e.rx io).1 })
        he rfl rfl rfl rfl rfl
      obtain ⟨w', as, g1, g2, g3, _⟩ := runMsgs_spec env i
        ((drain env.tbl e.fdOpen (rxBufMax + 1) e.rx io).2.1.map Prod.fst) _ h1
      exact ⟨w', as, g1, g2, by simpa using h2.trans g3⟩
  | accept =>
    refine ⟨_, _, rfl, ?_, ?_⟩
    · have hext : Ext w.eps (w.eps ++ [{ kind := .tcp }]) := by
        refine ⟨by simp, ?_, ?_⟩
        · intro k e he
          exact ⟨e, by rw [List.getElem?_append_left (List.getElem?_eq_some_iff.mp he).1]; exact he,
            rfl, rfl, rfl, rfl, [], by simp⟩
        · intro k e he hk
          rw [List.getElem?_append_right hk] at he
          have := List.mem_of_getElem? he
          rw [List.mem_singleton] at this
          subst this
          exact ⟨rfl, rfl, rfl⟩
      refine ⟨hext.grouped hw.grouped, ?_, ?_, hw.dedup, ?_, ?_, ?_⟩
      · intro a b ea eb ha hb hp
        have hp' := (hext.peer a b).mp hp
        rcases hp' with rfl | ⟨x, y, hx, hy, hn, hq⟩
        · have : ea = eb := by rw [ha] at hb; exact Option.some.inj hb
          rw [this]
        · have l1 := (List.getElem?_eq_some_iff.mp hx).1
          have l2 := (List.getElem?_eq_some_iff.mp hy).1
          rw [List.getElem?_append_left l1] at ha
          rw [List.getElem?_append_left l2] at hb
          exact hw.same a b ea eb ha hb (.inr ⟨x, y, hx, hy, hn, hq⟩)
      · intro e he
        rcases List.mem_append.mp he with h | h
        · exact hw.nodup e h
        · rw [List.mem_singleton] at h; subst h; simp
      · intro k hk
        simp only [List.length_append, List.length_singleton]
        rcases List.mem_append.mp hk with h | h
        · have := hw.actLt k h; omega
        · rw [List.mem_singleton] at h; omega
      · show (w.active ++ [w.eps.length]).Pairwise (· < ·)
        rw [List.pairwise_append]
        refine ⟨hw.actSorted, by simp, ?_⟩
        intro a ha b hb
        rw [List.mem_singleton] at hb
        have := hw.actLt a ha
        omega
      · intro e he hk
        rcases List.mem_append.mp he with h | h
        · exact hw.logs20 e h hk
        · rw [List.mem_singleton] at h; subst h; cases hk
    · refine ⟨?_, by simp, ?_⟩
      · refine ⟨by simp, ?_, ?_⟩
        · intro k e he
          exact ⟨e, by
            show (w.eps ++ _)[k]? = _
            rw [List.getElem?_append_left (List.getElem?_eq_some_iff.mp he).1]; exact he,
            rfl, rfl, rfl, rfl, [], by simp⟩
        · intro k e he hk
          replace he : (w.eps ++ [{ kind := .tcp }])[k]? = some e := he
          rw [List.getElem?_append_right hk] at he
          have := List.mem_of_getElem? he
          rw [List.mem_singleton] at this
          subst this
          exact ⟨rfl, rfl, rfl⟩
      · intro k e he id
        replace he : (w.eps ++ [{ kind := .tcp }])[k]? = some e := he
        by_cases hlt : k < w.eps.length
        · rw [List.getElem?_append_left hlt] at he
          simp [he]
        · have hnone : w.eps[k]? = none := by rw [List.getElem?_eq_none_iff]; omega
          rw [List.getElem?_append_right (by omega)] at he
          have := List.mem_of_getElem? he
          rw [List.mem_singleton] at this
          subst this
          simp [hnone]
  | hangups gone =>
    refine ⟨_, _, rfl, ⟨hw.grouped, hw.same, hw.nodup, hw.dedup, ?_, ?_, hw.logs20⟩, hid _⟩
    · intro k hk
      exact hw.actLt k (List.mem_filter.mp hk).1
    · exact hw.actSorted.filter _
  | fd i o =>
    cases he : w.eps[i]? with
    | none => exact ⟨w, [], by simp only [routerStep, he], hw, hid _⟩
    | some e =>
      obtain ⟨h1, h2⟩ := set_inv hw (e' := { e with fdOpen := o }) he rfl rfl rfl rfl rfl
      exact ⟨_, _, by simp only [routerStep, he], h1, h2⟩
  | logCall i c =>
    obtain ⟨new, hk, _⟩ := logCall_kept env w i c
    refine ⟨_, _, rfl, kept_inv hw hk, ?_⟩
    rw [hk.eps]
    exact hid _
  | aggregate =>
    refine ⟨_, _, rfl, ?_, ?_⟩
    · unfold aggregate
      split
      · exact ⟨hw.grouped, hw.same, hw.nodup, hw.dedup, hw.actLt, hw.actSorted, hw.logs20⟩
      · exact hw
    · rw [show (aggregate w).eps = w.eps by unfold aggregate; split <;> rfl]
      exact hid _

theorem runRouter_spec (env : Env σ) : ∀ (evs : List RouterEv) (w : World σ), RouterInv w →
    ∃ w' as, runRouter env w evs = some (w', as) ∧ RouterInv w' ∧ HistOk w.eps as w'.eps := by
  intro evs
  induction evs with
  | nil =>
    intro w hw
    refine ⟨w, [], rfl, hw, .refl _, by simp, ?_⟩
    intro k e' hk id
    simp [hk]
  | cons ev evs ih =>
    intro w hw
    obtain ⟨w1, as, h1, h2, h3⟩ := routerStep_spec env w hw ev
    obtain ⟨w2, bs, g1, g2, g3⟩ := ih w1 h2
    exact ⟨w2, as ++ bs, by simp only [runRouter, h1, g1], g2, h3.trans g3⟩

/-- The linked configuration, entry by entry. -/
theorem linkGroups_get (eps : List Ep) (k : Nat) :
    (linkGroups eps)[k]? = none ∧ eps[k]? = none ∨
    ∃ e e', eps[k]? = some e ∧ (linkGroups eps)[k]? = some e' ∧ e'.kind = e.kind ∧ e'.group = e.group ∧
      e'.filters = e.filters ∧ e'.learned = e.learned ∧ e'.rx = e.rx := by
  unfold linkGroups
  rw [List.getElem?_mapIdx]
  cases h : eps[k]? with
  | none => exact .inl ⟨rfl, rfl⟩
  | some e =>
    refine .inr ⟨e, _, rfl, rfl, ?_⟩
    by_cases hg : e.group = "" <;> simp [hg]

theorem linkGroups_peer (eps : List Ep) (i k : Nat) : Peer (linkGroups eps) i k ↔ Peer eps i k := by
  unfold Peer
  constructor
  · rintro (h | ⟨e, e', h1, h2, h3, h4⟩)
    · exact .inl h
    · rcases linkGroups_get eps i with ⟨g, _⟩ | ⟨a, a', ha, ha', _, ga, _⟩
      · rw [g] at h1; cases h1
      · rcases linkGroups_get eps k with ⟨g, _⟩ | ⟨b, b', hb, hb', _, gb, _⟩
        · rw [g] at h2; cases h2
        · rw [ha'] at h1; cases h1
          rw [hb'] at h2; cases h2
          exact .inr ⟨a, b, ha, hb, by rw [← ga]; exact h3, by rw [← ga, ← gb]; exact h4⟩
  · rintro (h | ⟨e, e', h1, h2, h3, h4⟩)
    · exact .inl h
    · rcases linkGroups_get eps i with ⟨_, g⟩ | ⟨a, a', ha, ha', _, ga, _⟩
      · rw [g] at h1; cases h1
      · rcases linkGroups_get eps k with ⟨_, g⟩ | ⟨b, b', hb, hb', _, gb, _⟩
        · rw [g] at h2; cases h2
        · rw [ha] at h1; cases h1
          rw [hb] at h2; cases h2
          exact .inr ⟨a', b', ha', hb', by rw [ga]; exact h3, by rw [ga, gb]; exact h4⟩

theorem start_inv (eps : List Ep) (hc : ConfigOk eps) (logs : Nat → σ) : RouterInv (start eps logs) := by
  have get : ∀ (k : Nat) (x : Ep), (linkGroups eps)[k]? = some x → ∃ y, eps[k]? = some y ∧ x.kind = y.kind ∧
      x.group = y.group ∧ x.learned = y.learned := by
    intro k x hx
    rcases linkGroups_get eps k with ⟨g, _⟩ | ⟨a, a', ha, ha', h1, h2, _, h3, _⟩
    · rw [g] at hx; cases hx
    · rw [ha'] at hx; cases hx; exact ⟨a, ha, h1, h2, h3⟩
  refine ⟨linkGroups_grouped eps (fun e he => (hc e he).1), ?_, ?_, ⟨by simp [start], by simp [start]⟩, ?_,
    List.pairwise_lt_range, ?_⟩
  · intro i j e e' hi hj hp
    rcases hp with rfl | ⟨a, b, ha, hb, hn, hq⟩
    · rw [hi] at hj; cases hj; rfl
    · rw [hi] at ha; cases ha
      rw [hj] at hb; cases hb
      obtain ⟨y, hy, k1, g1, l1⟩ := get i e hi
      obtain ⟨z, hz, k2, g2, l2⟩ := get j e' hj
      have cy := hc y (List.mem_of_getElem? hy)
      have cz := hc z (List.mem_of_getElem? hz)
      have ny : y.kind ≠ .log := by
        intro h; rw [g1, (cy.2.1 h).1] at hn; exact hn rfl
      have nz : z.kind ≠ .log := by
        intro h; rw [hq, g2, (cz.2.1 h).1] at hn; exact hn rfl
      rw [l1, l2, cy.2.2 ny, cz.2.2 nz]
  · intro e he
    obtain ⟨k, hk⟩ := List.getElem?_of_mem he
    obtain ⟨y, hy, _, _, l⟩ := get k e hk
    have cy := hc y (List.mem_of_getElem? hy)
    rw [l]
    by_cases hl : y.kind = .log
    · rw [(cy.2.1 hl).2]; simp
    · rw [cy.2.2 hl]; simp
  · intro i hi
    simp only [start, List.mem_range] at hi ⊢
    unfold linkGroups
    simpa using hi
  · intro e he hk
    obtain ⟨k, hk'⟩ := List.getElem?_of_mem he
    obtain ⟨y, hy, k1, _, l⟩ := get k e hk'
    rw [l, ((hc y (List.mem_of_getElem? hy)).2.1 (k1 ▸ hk)).2]
    simp

end Verif
