import Verif.Lemmas.Router
import Verif.Spec.NoLog

/- Helper lemmas for C116: two routers in lockstep, one with and one without log endpoints. -/

namespace Verif

open Spec

variable {σ τ : Type}

theorem isLogEp_ext {h h' : List Ep} (x : Ext h h') (i : Nat) : isLogEp h' i = isLogEp h i := by
  unfold isLogEp
  cases h1 : h'[i]? with
  | none =>
    have : h[i]? = none := by
      have := List.getElem?_eq_none_iff.mp h1
      have := x.len
      rw [List.getElem?_eq_none_iff]; omega
    rw [this]
  | some e' =>
    rcases x.back h1 with ⟨e, he, hk, _⟩ | ⟨hl, hk, _⟩
    · rw [he]; simp [hk]
    · rw [List.getElem?_eq_none_iff.mpr hl]; simp [hk]

/-- The visible part of a trace. -/
def vis (eps : List Ep) (l : List Sent) : List Sent := l.filter (fun s => !s.gen && !isLogEp eps s.ep)

theorem vis_append (eps : List Ep) (a b : List Sent) : vis eps (a ++ b) = vis eps a ++ vis eps b := by
  simp [vis]

theorem vis_gen (eps : List Ep) (a : List Sent) (h : ∀ s ∈ a, s.gen = true) : vis eps a = [] := by
  unfold vis
  rw [List.filter_eq_nil_iff]
  intro s hs
  simp [h s hs]

theorem vis_ext {h h' : List Ep} (x : Ext h h') (l : List Sent) : vis h' l = vis h l := by
  unfold vis
  congr 1
  funext s
  rw [isLogEp_ext x]

/-- Same endpoints in the same order, the same bytes for the first `K` endpoints, and under `S` for all. -/
def SameVis (K : Nat) (S : Prop) (eps : List Ep) (a b : List Sent) : Prop :=
  (vis eps a).map Sent.ep = (vis eps b).map Sent.ep ∧ (S → vis eps a = vis eps b) ∧
    (vis eps a).filter (fun s => s.ep < K) = (vis eps b).filter (fun s => s.ep < K)

theorem SameVis.append {K S eps a b c d} (x : SameVis K S eps a b) (y : SameVis K S eps c d) :
    SameVis K S eps (a ++ c) (b ++ d) := by
  unfold SameVis at *
  simp only [vis_append, List.map_append, List.filter_append]
  exact ⟨by rw [x.1, y.1], fun h => by rw [x.2.1 h, y.2.1 h], by rw [x.2.2, y.2.2]⟩

theorem loop_same (env : Env σ) (env' : Env τ) (hsn : env'.sniffer = env.sniffer)
    {r : World σ → Msg → World σ} (hr : RouteOk r) {r' : World τ → Msg → World τ} (hr' : RouteOk r') (K : Nat) (S : Prop) :
    ∀ (is : List Nat) (w : World σ) (w' : World τ) (m m' : Msg) (u u' : Bool), w'.eps = w.eps →
    (∀ i, i < K → isLogEp w.eps i = false) → is.Pairwise (· < ·) → (m'.data = m.data ∨ ∀ j ∈ is, K ≤ j) →
    { m with data := m'.data } = m' → (S → m'.data = m.data ∧ Unedited env m) →
    ∃ new new', Kept w (routeLoop env r false is w m u).1 new ∧
      Kept w' (routeLoop env' r' false (is.filter (fun i => !isLogEp w.eps i)) w' m' u').1 new' ∧
      SameVis K S w.eps new new' := by
  intro is
  induction is with
  | nil => intro w w' m m' u u' _ _ _ _ _ _; exact ⟨[], [], .refl _, .refl _, rfl, fun _ => rfl, rfl⟩
  | cons i is ih =>
    intro w w' m m' u u' he hK hsort hd hm hS
    have hsort' := (List.pairwise_cons.mp hsort).2
    have hd' : m'.data = m.data ∨ ∀ j ∈ is, K ≤ j := hd.imp id fun h j hj => h j (List.mem_cons_of_mem _ hj)
    cases hi : w.eps[i]? with
    | none =>
      have hl : isLogEp w.eps i = false := by simp [isLogEp, hi]
      rw [List.filter_cons_of_pos (by rw [hl]; rfl)]
      simp only [routeLoop, he, hi]
      exact ih w w' m m' u u' he hK hsort' hd' hm hS
    | some e =>
      have hacc : ∀ s, acceptMsg s e m' = acceptMsg s e m := by
        intro s; rw [← hm]; rfl
      cases hlog : isLogEp w.eps i with
      | true =>
        rw [List.filter_cons_of_neg (by rw [hlog]; simp)]
        rw [routeLoop]
        simp only [hi]
        cases ha : acceptMsg env.sniffer e m with
        | rejected => exact ih w w' m m' u u' he hK hsort' hd' hm hS
        | filtered => exact ih w w' m m' false u' he hK hsort' hd' hm hS
        | accepted =>
          simp only
          obtain ⟨a, hk, hg⟩ := writeMsg_kept env hr false w i m
          have hkind : e.kind = .log := by simpa [isLogEp, hi] using hlog
          have hdat : (writeMsg env r false w i m).2 = (env.log i (w.logs i) m).2.2 := by
            simp [writeMsg, hi, hkind]
          obtain ⟨new, new', k1, k2, k3⟩ := ih (writeMsg env r false w i m).1 w'
            { m with data := (writeMsg env r false w i m).2 } m' false u' (he.trans hk.eps.symm) (by rw [hk.eps]; exact hK) hsort'
            (.inr fun j hj => by
              have h1 := (List.pairwise_cons.mp hsort).1 j hj
              rcases Nat.lt_or_ge i K with h | h
              · rw [hK i h] at hlog; cases hlog
              · omega) hm (by
              intro s
              obtain ⟨h1, h2⟩ := hS s
              have h3 := (hdat.trans (h2 i (w.logs i)))
              rw [h3]
              exact ⟨h1, h2⟩)
          rw [hk.eps] at k2 k3
          refine ⟨_, new', hk.trans k1, k2, ?_⟩
          have hv : vis w.eps ({ ep := i, bytes := m.data, gen := false } :: a) = [] := by
            have := vis_append w.eps [{ ep := i, bytes := m.data, gen := false }] a
            rw [vis_gen w.eps a hg] at this
            rw [show [({ ep := i, bytes := m.data, gen := false } : Sent)] ++ a = _ :: a from rfl] at this
            rw [this]
            simp [vis, hlog]
          unfold SameVis
          rw [vis_append, hv]
          exact k3
      | false =>
        rw [List.filter_cons_of_pos (by rw [hlog]; rfl)]
        have hkind : e.kind ≠ .log := by
          intro hk; simp [isLogEp, hi, hk] at hlog
        rw [routeLoop, routeLoop]
        simp only [he, hi, hsn, hacc]
        cases ha : acceptMsg env.sniffer e m with
        | rejected => exact ih w w' m m' u u' he hK hsort' hd' hm hS
        | filtered => exact ih w w' m m' false false he hK hsort' hd' hm hS
        | accepted =>
          simp only
          obtain ⟨a, hk, hg⟩ := writeMsg_kept env hr false w i m
          obtain ⟨b, hk', hg'⟩ := writeMsg_kept env' hr' false w' i m'
          have hdat : (writeMsg env r false w i m).2 = m.data := by
            unfold writeMsg
            rw [hi]
            simp only [Option.map_some]
            split
            · rename_i h; exact absurd (Option.some.inj h) hkind
            · rfl
          have hdat' : (writeMsg env' r' false w' i m').2 = m'.data := by
            unfold writeMsg
            rw [he, hi]
            simp only [Option.map_some]
            split
            · rename_i h; exact absurd (Option.some.inj h) hkind
            · rfl
          obtain ⟨new, new', k1, k2, k3⟩ := ih (writeMsg env r false w i m).1 (writeMsg env' r' false w' i m').1
            { m with data := (writeMsg env r false w i m).2 } { m' with data := (writeMsg env' r' false w' i m').2 }
            false false (hk'.eps.trans (he.trans hk.eps.symm)) (by rw [hk.eps]; exact hK) hsort' (by rw [hdat', hdat]; exact hd')
            (by rw [hdat', hdat]; exact hm)
            (by rw [hdat', hdat]; exact hS)
          rw [hk.eps] at k2 k3
          refine ⟨_, _, hk.trans k1, hk'.trans k2, ?_⟩
          refine SameVis.append ?_ k3
          have h1 : ∀ (bs : List UInt8) (l : List Sent), (∀ s ∈ l, s.gen = true) →
              vis w.eps ({ ep := i, bytes := bs, gen := false } :: l) = [{ ep := i, bytes := bs, gen := false }] := by
            intro bs l hl
            have := vis_append w.eps [{ ep := i, bytes := bs, gen := false }] l
            rw [vis_gen w.eps l hl] at this
            rw [show [({ ep := i, bytes := bs, gen := false } : Sent)] ++ l = _ :: l from rfl] at this
            rw [this]
            simp [vis, hlog]
          unfold SameVis
          rw [h1 _ _ hg, h1 _ _ hg']
          refine ⟨rfl, fun s => by rw [(hS s).1], ?_⟩
          rcases hd with h | h
          · rw [h]
          · have := h i List.mem_cons_self
            simp only [List.filter_cons, List.filter_nil, show ¬ i < K by omega, decide_false]
            rfl

/-- The two routers agree, except for logs, counters and what was given to log endpoints. -/
structure InStep (K : Nat) (S : Prop) (w : World σ) (w' : World τ) : Prop where
  eps : w'.eps = w.eps
  active : w'.active = w.active.filter (fun i => !isLogEp w.eps i)
  dedup : w'.dedup = w.dedup
  checks : w'.checks = w.checks
  below : ∀ i, i < K → isLogEp w.eps i = false
  out : SameVis K S w.eps w.out w'.out

theorem InStep.mono {K : Nat} {S S' : Prop} {w : World σ} {w' : World τ} (x : InStep K S w w') (h : S' → S) : InStep K S' w w' :=
  ⟨x.eps, x.active, x.dedup, x.checks, x.below, x.out.1, fun s => x.out.2.1 (h s), x.out.2.2⟩

theorem SameVis.congr {K : Nat} {S : Prop} {eps a b} {eps' : List Ep} (x : SameVis K S eps a b) (h : Ext eps eps') :
    SameVis K S eps' a b := by
  unfold SameVis; rw [vis_ext h, vis_ext h]; exact x

theorem routeMsg_same (env : Env σ) (env' : Env τ) (hn : SameNet env env') (w : World σ) (w' : World τ) (m : Msg) (K : Nat) (S : Prop)
    (hs : w.active.Pairwise (· < ·)) (x : InStep K S w w') : InStep K (S ∧ Unedited env m) (routeMsg env 2 false w m) (routeMsg env' 2 false w' m) := by
  obtain ⟨new, new', k1, k2, k3⟩ := loop_same env env' hn.sniffer (routeMsg_ok env 1) (routeMsg_ok env' 1) K (S ∧ Unedited env m)
    w.active w w' m m true true x.eps x.below hs (.inl rfl) rfl (fun s => ⟨rfl, s.2⟩)
  rw [← x.active] at k2
  have hA : ∃ n, Kept w (routeMsg env 2 false w m) n ∧ n = new := by
    refine ⟨new, ?_, rfl⟩
    unfold routeMsg
    simp only
    split
    · exact ⟨k1.eps, k1.active, k1.dedup, k1.checks, k1.out⟩
    · exact k1
  have hB : Kept w' (routeMsg env' 2 false w' m) new' := by
    unfold routeMsg
    simp only
    split
    · exact ⟨k2.eps, k2.active, k2.dedup, k2.checks, k2.out⟩
    · exact k2
  obtain ⟨_, hA, rfl⟩ := hA
  refine ⟨by rw [hB.eps, hA.eps, x.eps], by rw [hB.active, hA.active, hA.eps, x.active], by rw [hB.dedup, hA.dedup, x.dedup],
    by rw [hB.checks, hA.checks, x.checks], by rw [hA.eps]; exact x.below, ?_⟩
  rw [hA.out, hB.out, hA.eps]
  exact SameVis.append ⟨x.out.1, fun s => x.out.2.1 s.1, x.out.2.2⟩ k3

theorem handleMsg_same (env : Env σ) (env' : Env τ) (hn : SameNet env env') (w : World σ) (w' : World τ) (i : Nat) (m : Msg)
    (K : Nat) (S : Prop) (hs : w.active.Pairwise (· < ·)) (x : InStep K S w w') {w1 b} (h : handleMsg env w i m = some (w1, b)) (hx : Ext w.eps w1.eps) :
    ∃ w1', handleMsg env' w' i m = some (w1', b) ∧ InStep K (S ∧ (b = true → Unedited env m)) w1 w1' := by
  unfold handleMsg at h ⊢
  rw [x.eps, x.dedup, x.checks, hn.hashFn, hn.dedupPeriod, hn.clock]
  cases hi : w.eps[i]? with
  | none =>
    rw [hi] at h
    cases h
    exact ⟨w', rfl, x.mono And.left⟩
  | some e =>
    rw [hi] at h
    simp only at h ⊢
    cases hd : w.dedup.check env.hashFn env.dedupPeriod (env.clock w.checks) m.data with
    | none => rw [hd] at h; cases h
    | some r =>
      obtain ⟨d, isNew⟩ := r
      rw [hd] at h
      simp only at h ⊢
      have y : InStep K S { w with dedup := d, checks := w.checks + 1 } { w' with eps := w.eps, dedup := d, checks := w.checks + 1 } :=
        ⟨rfl, x.active, rfl, rfl, x.below, x.out⟩
      split at h
      · rename_i hnew
        cases h
        rw [if_pos hnew]
        exact ⟨_, rfl, y.mono And.left⟩
      · rename_i hnew
        rw [if_neg hnew]
        split at h
        · rename_i hal
          cases h
          rw [if_pos hal]
          exact ⟨_, rfl, y.mono And.left⟩
        · rename_i hal
          rw [if_neg hal]
          cases ha : addSysComp (w.eps.length + 1) w.eps i (sysComp m.srcSys m.srcComp) with
          | none => rw [ha] at h; cases h
          | some eps =>
            rw [ha] at h
            simp only [Option.some.injEq, Prod.mk.injEq] at h ⊢
            obtain ⟨rfl, rfl⟩ := h
            have hext : Ext w.eps eps := by
              obtain ⟨new, k, _⟩ := routeMsg_spec env 1 { w with dedup := d, checks := w.checks + 1, eps := eps } m
              rw [k.eps] at hx
              exact hx
            have z : InStep K S { w with dedup := d, checks := w.checks + 1, eps := eps }
                { w' with dedup := d, checks := w.checks + 1, eps := eps } := by
              refine ⟨rfl, ?_, rfl, rfl, fun i hi => (isLogEp_ext hext i).trans (x.below i hi), x.out.congr hext⟩
              show w'.active = _
              rw [x.active]
              congr 1
              funext k
              rw [isLogEp_ext hext]
            exact ⟨_, ⟨rfl, rfl⟩, (routeMsg_same env env' hn _ _ m K S (by exact hs) z).mono fun s => ⟨s.1, s.2 rfl⟩⟩

theorem runMsgs_same (env : Env σ) (env' : Env τ) (hn : SameNet env env') (i : Nat) : ∀ (ms : List Msg) (w : World σ) (w' : World τ)
    (K : Nat) (S : Prop), RouterInv w → InStep K S w w' → ∀ {w1 as}, runMsgs env i w ms = some (w1, as) →
    ∃ w1', runMsgs env' i w' ms = some (w1', as) ∧ InStep K (S ∧ ∀ a ∈ as, a.passed = true → Unedited env a.msg) w1 w1' := by
  intro ms
  induction ms with
  | nil =>
    intro w w' K S _ x w1 as h
    cases h
    exact ⟨w', rfl, x.mono And.left⟩
  | cons m ms ih =>
    intro w w' K S hw x w1 as h
    obtain ⟨w2, b, h1, h2, h3, _⟩ := handleMsg_spec env w hw i m
    obtain ⟨w2', g1, g2⟩ := handleMsg_same env env' hn w w' i m K S hw.actSorted x h1 h3.ext
    simp only [runMsgs, h1] at h
    cases hr : runMsgs env i w2 ms with
    | none => rw [hr] at h; cases h
    | some r =>
      obtain ⟨w3, bs⟩ := r
      rw [hr] at h
      cases h
      obtain ⟨w3', k1, k2⟩ := ih w2 w2' K _ h2 g2 hr
      refine ⟨w3', by simp only [runMsgs, g1, k1], k2.mono ?_⟩
      rintro ⟨s1, s2⟩
      exact ⟨⟨s1, fun hb => s2 _ (List.mem_cons_self ..) hb⟩, fun a ha => s2 a (List.mem_cons_of_mem _ ha)⟩

theorem logCall_same (env : Env σ) (w : World σ) (w' : World τ) (i : Nat) (c : LogCall) (K : Nat) (S : Prop) (x : InStep K S w w') :
    InStep K S (logCall env w i c) w' := by
  obtain ⟨new, hk, hg⟩ := logCall_kept env w i c
  refine ⟨x.eps.trans hk.eps.symm, by rw [hk.eps, hk.active, x.active], x.dedup.trans hk.dedup.symm, x.checks.trans hk.checks.symm,
    by rw [hk.eps]; exact x.below, ?_⟩
  rw [hk.eps, hk.out]
  unfold SameVis
  rw [vis_append, vis_gen _ _ hg, List.append_nil]
  exact x.out

theorem routerStep_same (env : Env σ) (env' : Env τ) (hn : SameNet env env') (w : World σ) (w' : World τ) (K : Nat) (S : Prop)
    (hw : RouterInv w) (x : InStep K S w w') (ev : RouterEv) (hev : notLogCall ev = true) {w1 as}
    (h : routerStep env w ev = some (w1, as)) :
    ∃ w1', routerStep env' w' ev = some (w1', as) ∧ InStep K (S ∧ ∀ a ∈ as, a.passed = true → Unedited env a.msg) w1 w1' := by
  obtain ⟨v1, bs, hv, _, hist⟩ := routerStep_spec env w hw ev
  rw [h] at hv
  cases hv
  have hext := hist.ext
  have hact : w.active.filter (fun i => !isLogEp w.eps i) = w.active.filter (fun i => !isLogEp w1.eps i) := by
    congr 1
    funext k
    rw [isLogEp_ext hext]
  cases ev with
  | read i io =>
    simp only [routerStep, handleRead] at h ⊢
    rw [x.eps]
    cases hi : w.eps[i]? with
    | none =>
      rw [hi] at h
      cases h
      exact ⟨w', rfl, x.mono And.left⟩
    | some e =>
      rw [hi] at h
      simp only at h ⊢
      rw [hn.tbl]
      obtain ⟨hi1, hi2⟩ := set_inv hw (e' := { e with rx := (drain env.tbl e.fdOpen (rxBufMax + 1) e.rx io).1 })
        hi rfl rfl rfl rfl rfl
      refine runMsgs_same env env' hn i _ _ _ K S hi1 ?_ h
      refine ⟨rfl, ?_, x.dedup, x.checks, fun i hi => (isLogEp_ext hi2.ext i).trans (x.below i hi), x.out.congr hi2.ext⟩
      show w'.active = _
      rw [x.active]
      congr 1
      funext k
      rw [isLogEp_ext hi2.ext]
  | accept =>
    simp only [routerStep, Option.some.injEq, Prod.mk.injEq] at h ⊢
    obtain ⟨rfl, rfl⟩ := h
    refine ⟨_, ⟨rfl, rfl⟩, ?_⟩
    refine InStep.mono (K := K) (S := S) ⟨by rw [x.eps], ?_, x.dedup, x.checks, fun i hi => (isLogEp_ext hext i).trans (x.below i hi), x.out.congr hext⟩ And.left
    show w'.active ++ [w'.eps.length] = List.filter _ (w.active ++ [w.eps.length])
    rw [x.active, x.eps, List.filter_append, hact]
    congr 1
    simp [isLogEp]
  | hangups gone =>
    simp only [routerStep, Option.some.injEq, Prod.mk.injEq] at h ⊢
    obtain ⟨rfl, rfl⟩ := h
    refine ⟨_, ⟨rfl, rfl⟩, ?_⟩
    refine InStep.mono (K := K) (S := S) ⟨x.eps, ?_, x.dedup, x.checks, x.below, x.out⟩ And.left
    show w'.active.filter _ = List.filter _ (w.active.filter _)
    rw [x.active, List.filter_filter, List.filter_filter]
    congr 1
    funext k
    rw [Bool.and_comm]
  | fd i o =>
    simp only [routerStep] at h ⊢
    rw [x.eps]
    cases hi : w.eps[i]? with
    | none =>
      rw [hi] at h
      cases h
      exact ⟨w', rfl, x.mono And.left⟩
    | some e =>
      rw [hi] at h
      simp only [Option.some.injEq, Prod.mk.injEq] at h ⊢
      obtain ⟨rfl, rfl⟩ := h
      refine ⟨_, ⟨rfl, rfl⟩, ?_⟩
      refine InStep.mono (K := K) (S := S) ⟨rfl, ?_, x.dedup, x.checks, fun i hi => (isLogEp_ext hext i).trans (x.below i hi), x.out.congr hext⟩ And.left
      show w'.active = _
      rw [x.active, hact]
  | logCall i c => cases hev
  | aggregate =>
    simp only [routerStep, Option.some.injEq, Prod.mk.injEq] at h ⊢
    obtain ⟨rfl, rfl⟩ := h
    refine ⟨_, ⟨rfl, rfl⟩, InStep.mono (K := K) (S := S) ?_ And.left⟩
    unfold aggregate
    constructor <;> (first | split <;> split | split) <;> first | exact x.eps | exact x.below | exact x.active | exact x.dedup | exact x.checks | exact x.out

theorem runRouter_same (env : Env σ) (env' : Env τ) (hn : SameNet env env') : ∀ (evs : List RouterEv) (w : World σ) (w' : World τ)
    (K : Nat) (S : Prop), RouterInv w → InStep K S w w' →
    ∃ w1 w1' as, runRouter env w evs = some (w1, as) ∧ runRouter env' w' (evs.filter notLogCall) = some (w1', as) ∧
      InStep K (S ∧ ∀ a ∈ as, a.passed = true → Unedited env a.msg) w1 w1' := by
  intro evs
  induction evs with
  | nil => intro w w' K S _ x; exact ⟨w, w', [], rfl, rfl, x.mono And.left⟩
  | cons ev evs ih =>
    intro w w' K S hw x
    obtain ⟨w2, as, h1, h2, _⟩ := routerStep_spec env w hw ev
    cases hev : notLogCall ev with
    | true =>
      rw [List.filter_cons_of_pos hev]
      obtain ⟨w2', g1, g2⟩ := routerStep_same env env' hn w w' K S hw x ev hev h1
      obtain ⟨w3, w3', bs, k1, k2, k3⟩ := ih w2 w2' K _ h2 g2
      refine ⟨w3, w3', as ++ bs, by simp only [runRouter, h1, k1], by simp only [runRouter, g1, k2], k3.mono ?_⟩
      rintro ⟨s1, s2⟩
      exact ⟨⟨s1, fun a ha => s2 a (List.mem_append_left _ ha)⟩, fun a ha => s2 a (List.mem_append_right _ ha)⟩
    | false =>
      rw [List.filter_cons_of_neg (by rw [hev]; simp)]
      cases ev with
      | logCall i c =>
        simp only [routerStep, Option.some.injEq, Prod.mk.injEq] at h1
        obtain ⟨rfl, rfl⟩ := h1
        obtain ⟨w3, w3', bs, k1, k2, k3⟩ := ih _ w' K S h2 (logCall_same env w w' i c K S x)
        exact ⟨w3, w3', bs, by simp only [runRouter, routerStep, k1, List.nil_append], k2, k3⟩
      | read i io => cases hev
      | accept => cases hev
      | hangups g => cases hev
      | fd i o => cases hev
      | aggregate => cases hev

end Verif
