import Verif.Props.UdpRouter

/-
C124: a system may move to another link.
-/

namespace Verif

open Spec

variable {σ : Type}

/-! ### Specification -/

/-- System `s`, component `c` was let in on endpoint `j`. -/
def Spec.HeardOn (as : List Arrival) (j : Nat) (s c : UInt8) : Prop :=
  ∃ y ∈ as, y.passed = true ∧ y.ep = j ∧ y.msg.srcSys = s ∧ y.msg.srcComp = c

/-- System `s`, component `c` is on endpoint `j` now: it was heard there last. -/
def Spec.NowOn (as : List Arrival) (j : Nat) (s c : UInt8) : Prop :=
  ∃ pre y post, as = pre ++ y :: post ∧ y.passed = true ∧ y.ep = j ∧ y.msg.srcSys = s ∧ y.msg.srcComp = c ∧
    ∀ z ∈ post, ¬ (z.msg.srcSys = s ∧ z.msg.srcComp = c)

/-- What is addressed to a system goes to the link where it is now and to no other. -/
def Spec.Followed (env : Env σ) (eps : List Ep) (logs : Nat → σ) : Prop :=
  ∀ (evs : List RouterEv) (ev : RouterEv) (w1 w2 : World σ) (as : List Arrival) (x : Arrival) (j : Nat) (s c : UInt8),
    runRouter env (start eps logs) evs = some (w1, as) → routerStep env w1 ev = some (w2, [x]) → x.passed = true →
    x.msg.targetSys = s.toNat → x.msg.targetComp = c.toNat → NowOn as j s c →
    ∀ o ∈ w2.out.drop w1.out.length, o.ep = j

/-- What a system broadcasts goes to every link other than the one it is on (and the links grouped with it), so also to the stations
behind a link it was on before; filters permitting. -/
def Spec.HeardEverywhere (env : Env σ) (eps : List Ep) (logs : Nat → σ) : Prop :=
  ∀ (evs : List RouterEv) (ev : RouterEv) (w1 w2 : World σ) (as : List Arrival) (x : Arrival),
    runRouter env (start eps logs) evs = some (w1, as) → routerStep env w1 ev = some (w2, [x]) → x.passed = true →
    x.msg.targetSys ≤ 0 → ∀ i ∈ w1.active, ¬ Peer eps x.ep i → (∀ e, eps[i]? = some e → outOk e.filters x.msg) →
    i ∈ (w2.out.drop w1.out.length).map Sent.ep

/-! ### What holds -/

/-- A message that is wanted on endpoint `j` whatever else arrives in between is written there. -/
theorem wanted_written (env : Env σ) (ht : TableOk env.tbl)
    (eps : List Ep) (hc : ConfigOk eps) (logs : Nat → σ)
    (evs1 evs2 : List RouterEv) (w1 w2 : World σ) (as1 as2 : List Arrival)
    (h1 : runRouter env (start eps logs) evs1 = some (w1, as1)) (h2 : runRouter env w1 evs2 = some (w2, as2))
    (j : Nat) (hj : j ∈ w1.active) (hgone : ∀ gone, RouterEv.hangups gone ∈ evs2 → j ∉ gone)
    (x : Arrival) (hx : x ∈ as2) (hpass : x.passed = true)
    (hw : ∀ mid, (∀ a ∈ as1, a ∈ mid) → (∀ a ∈ mid, a ∈ as1 ++ as2) → Wanted env.sniffer.toNat eps j mid x.msg) :
    ∃ o ∈ writesTo j w1 w2, o.ep = j ∧ (UneditedBefore env eps j x.msg → o.bytes = x.msg.data) := by
  have hacc := C88_complete_partial env ht eps hc logs evs1 evs2 w1 w2 as1 as2 h1 h2 j hj hgone
  have hex : x ∈ expected env.sniffer.toNat eps j as1 as2 := mem_expected as2 _ hx hpass hw
  obtain ⟨k, hk⟩ := List.getElem?_of_mem hex
  have hkl : k < (expected env.sniffer.toNat eps j as1 as2).length := (List.getElem?_eq_some_iff.mp hk).1
  rw [← hacc.1] at hkl
  have ho := List.getElem?_eq_getElem hkl
  generalize (writesTo j w1 w2)[k] = o at ho
  have hom : o ∈ writesTo j w1 w2 := List.mem_of_getElem? ho
  refine ⟨o, hom, ?_, hacc.2 k o x ho hk⟩
  unfold writesTo directSince at hom
  simp only [List.mem_filter, beq_iff_eq] at hom
  exact hom.2

/-- **C124** (partial, new link): wherever system `s/c` was before, once a message of it was let in on endpoint `j`, every message
for it, let in on any link, is sent to `j` (unless its sender was seen on `j` too, or the outgoing filters of `j` stop it). Missing:
that it is sent there only (`C124_violated`). The bytes are those received, for configured links always (`unedited_link`). -/
theorem C124_follows_partial (env : Env σ) (ht : TableOk env.tbl)
    (eps : List Ep) (hc : ConfigOk eps) (logs : Nat → σ)
    (evs1 evs2 : List RouterEv) (w1 w2 : World σ) (as1 as2 : List Arrival)
    (h1 : runRouter env (start eps logs) evs1 = some (w1, as1)) (h2 : runRouter env w1 evs2 = some (w2, as2))
    (j : Nat) (hj : j ∈ w1.active) (hgone : ∀ gone, RouterEv.hangups gone ∈ evs2 → j ∉ gone)
    (s c : UInt8) (hh : HeardOn as1 j s c) (x : Arrival) (hx : x ∈ as2) (hpass : x.passed = true)
    (hto : x.msg.targetSys = s.toNat ∧ (x.msg.targetComp = c.toNat ∨ x.msg.targetComp ≤ 0))
    (hother : ¬ SeenAt eps (as1 ++ as2) j x.msg.srcSys.toNat x.msg.srcComp.toNat)
    (hout : ∀ e, eps[j]? = some e → outOk e.filters x.msg) :
    ∃ o ∈ writesTo j w1 w2, o.ep = j ∧ (UneditedBefore env eps j x.msg → o.bytes = x.msg.data) := by
  have hseen : SeenAt eps as1 j s.toNat c.toNat := by
    obtain ⟨y, y1, y2, y3, y4, y5⟩ := hh
    exact .inr ⟨y, y1, y2, by rw [y4], by rw [y5], by rw [y3]; exact .inl rfl⟩
  refine wanted_written env ht eps hc logs evs1 evs2 w1 w2 as1 as2 h1 h2 j hj hgone x hx hpass
    (fun mid m1 m2 => ⟨fun hsn => hother (SeenAt.mono hsn m2), hout, ?_⟩)
  have hsm : SeenAt eps mid j s.toNat c.toNat := SeenAt.mono hseen m1
  by_cases h0 : x.msg.targetSys ≤ 0
  · exact .inl h0
  · right
    have hts : x.msg.targetSys.toNat = s.toNat := by rw [hto.1]; rfl
    by_cases hc0 : x.msg.targetComp ≤ 0
    · exact .inl ⟨hc0, _, by rw [hts]; exact hsm⟩
    · right; left
      have htc : x.msg.targetComp = c.toNat := hto.2.resolve_right hc0
      exact ⟨by omega, by rw [hts, htc]; exact hsm⟩

/-- **C124** (partial, broadcasts): what a system broadcasts is sent to every link on which it was never heard (nor on a link grouped
with it). Missing: links it was on before (`C124_violated`). -/
theorem C124_heard_partial (env : Env σ) (ht : TableOk env.tbl)
    (eps : List Ep) (hc : ConfigOk eps) (logs : Nat → σ)
    (evs1 evs2 : List RouterEv) (w1 w2 : World σ) (as1 as2 : List Arrival)
    (h1 : runRouter env (start eps logs) evs1 = some (w1, as1)) (h2 : runRouter env w1 evs2 = some (w2, as2))
    (i : Nat) (hi : i ∈ w1.active) (hgone : ∀ gone, RouterEv.hangups gone ∈ evs2 → i ∉ gone)
    (x : Arrival) (hx : x ∈ as2) (hpass : x.passed = true) (hto : x.msg.targetSys ≤ 0)
    (hnever : ∀ k, Peer eps k i → ¬ HeardOn (as1 ++ as2) k x.msg.srcSys x.msg.srcComp)
    (hlog : ∀ e, eps[i]? = some e → e.kind = .log → ¬ (x.msg.srcSys = 2 ∧ x.msg.srcComp = 0))
    (hout : ∀ e, eps[i]? = some e → outOk e.filters x.msg) :
    ∃ o ∈ writesTo i w1 w2, o.ep = i ∧ (UneditedBefore env eps i x.msg → o.bytes = x.msg.data) := by
  refine wanted_written env ht eps hc logs evs1 evs2 w1 w2 as1 as2 h1 h2 i hi hgone x hx hpass
    (fun mid m1 m2 => ⟨?_, hout, .inl hto⟩)
  rintro (⟨e, e1, e2, e3, e4⟩ | ⟨a, a1, a2, a3, a4, a5⟩)
  · exact hlog e e1 e2 ⟨UInt8.toNat_inj.mp e3, UInt8.toNat_inj.mp e4⟩
  · exact hnever a.ep a5 ⟨a, m2 a a1, a2, rfl, UInt8.toNat_inj.mp a3, UInt8.toNat_inj.mp a4⟩

/-! ### What does not -/

namespace Sample

/-- A ground station on link 0, two radios on links 1 and 2. -/
def epsMove : List Ep := [{ kind := .uart }, { kind := .uart }, { kind := .uart }]

/-- 1/1 is heard on link 1, then on link 2. -/
def moves : List RouterEv := [.read 1 (.got hb2.encode), .read 2 (.got hb2.encode)]

/-- What the sample router writes for one more event after `moves`. -/
def afterMove (ev : RouterEv) : Option (List Arrival × List Nat) :=
  (runRouter envQuiet (start epsMove (fun _ => 0)) moves).bind fun r =>
    (routerStep envQuiet r.1 ev).map fun q => (q.2, (q.1.out.drop r.1.out.length).map Sent.ep)

theorem afterMove_some {ev : RouterEv} {as : List Arrival} {l : List Nat} (h : afterMove ev = some (as, l)) :
    ∃ w1 as1 w2, runRouter envQuiet (start epsMove (fun _ => 0)) moves = some (w1, as1) ∧ routerStep envQuiet w1 ev = some (w2, as) ∧
      (w2.out.drop w1.out.length).map Sent.ep = l := by
  unfold afterMove at h
  cases h1 : runRouter envQuiet (start epsMove (fun _ => 0)) moves with
  | none => rw [h1] at h; cases h
  | some r =>
    rw [h1, Option.bind_some] at h
    cases h2 : routerStep envQuiet r.1 ev with
    | none => rw [h2] at h; cases h
    | some q =>
      rw [h2] at h
      simp only [Option.map_some, Option.some.injEq, Prod.mk.injEq] at h
      exact ⟨r.1, r.2, q.1, rfl, by rw [h2, ← h.1], h.2⟩

end Sample

/-- **C124** is false of the code: lists of connected systems are only ever added to (src/endpoint.cpp:461-480), so after 1/1 has moved
from link 1 to link 2 commands for it still go to link 1 too, and what it sends is kept from everybody behind link 1. -/
theorem C124_violated : ¬ Followed Sample.envQuiet Sample.epsMove (fun _ => 0) ∧
    ¬ HeardEverywhere Sample.envQuiet Sample.epsMove (fun _ => 0) := by
  have has : (runRouter Sample.envQuiet (start Sample.epsMove (fun _ => 0)) Sample.moves).map (fun r => (r.2, r.1.active)) =
      some ([⟨1, (Sample.hb2.toMsg Sample.tbl).1, true⟩, ⟨2, (Sample.hb2.toMsg Sample.tbl).1, true⟩], [0, 1, 2]) := by decide +kernel
  constructor
  · intro h
    obtain ⟨w1, as1, w2, h1, h2, h3⟩ := Sample.afterMove_some
      (show Sample.afterMove (.read 0 (.got Sample.cmdTo1.encode)) =
        some ([⟨0, (Sample.cmdTo1.toMsg Sample.tbl).1, true⟩], [1, 2]) by decide +kernel)
    rw [h1] at has
    simp only [Option.map_some, Option.some.injEq, Prod.mk.injEq] at has
    have := h _ _ _ _ _ _ 2 1 1 h1 h2 rfl (by decide +kernel) (by decide +kernel)
      ⟨[⟨1, (Sample.hb2.toMsg Sample.tbl).1, true⟩], ⟨2, (Sample.hb2.toMsg Sample.tbl).1, true⟩, [], by rw [has.1]; rfl, rfl, rfl,
        by decide +kernel, by decide +kernel, by simp⟩
    have h1m : 1 ∈ (w2.out.drop w1.out.length).map Sent.ep := by rw [h3]; simp
    obtain ⟨o, o1, o2⟩ := List.mem_map.mp h1m
    exact absurd (this o o1) (by omega)
  · intro h
    obtain ⟨w1, as1, w2, h1, h2, h3⟩ := Sample.afterMove_some
      (show Sample.afterMove (.read 2 (.got Sample.hb2.encode)) =
        some ([⟨2, (Sample.hb2.toMsg Sample.tbl).1, true⟩], [0]) by decide +kernel)
    rw [h1] at has
    simp only [Option.map_some, Option.some.injEq, Prod.mk.injEq] at has
    have := h _ _ _ _ _ _ h1 h2 rfl (by decide +kernel) 1 (by rw [has.2]; simp)
      (by rintro (h | ⟨e, e', g1, g2, g3, _⟩)
          · exact absurd h (by decide)
          · simp [Sample.epsMove] at g1 g2; subst g1 g2; simp at g3)
      (by intro e he; simp [Sample.epsMove] at he; subst he; simp [outOk, passes])
    rw [h3] at this
    exact absurd this (by decide)

/-- The hypotheses of the partial theorems are met: after the move, a command from 42/200 on link 0 is written to link 2, and a
heartbeat of 1/1 on link 2 to link 0. -/
example : ∃ w1 as1 w2 w3, runRouter Sample.envQuiet (start Sample.epsMove (fun _ => 0)) Sample.moves = some (w1, as1) ∧
    (∃ o ∈ writesTo 2 w1 w2, o.bytes = Sample.cmdTo1.encode) ∧ (∃ o ∈ writesTo 0 w1 w3, o.bytes = Sample.hb2.encode) := by
  have has : (runRouter Sample.envQuiet (start Sample.epsMove (fun _ => 0)) Sample.moves).map (fun r => (r.2, r.1.active)) =
      some ([⟨1, (Sample.hb2.toMsg Sample.tbl).1, true⟩, ⟨2, (Sample.hb2.toMsg Sample.tbl).1, true⟩], [0, 1, 2]) := by decide +kernel
  have hcfg : ConfigOk Sample.epsMove := by intro e he; simp [Sample.epsMove] at he; subst he; simp
  have hpeer : ∀ a b, Peer Sample.epsMove a b → a = b := by
    rintro a b (h | ⟨e, e', g1, g2, g3, _⟩)
    · exact h
    · have := List.mem_of_getElem? g1
      simp [Sample.epsMove] at this
      subst this; simp at g3
  have hout : ∀ (m : Msg) (k : Nat) e, Sample.epsMove[k]? = some e → outOk e.filters m := by
    intro m k e he
    have := List.mem_of_getElem? he
    simp [Sample.epsMove] at this
    subst this; simp [outOk, passes]
  have hlog : ∀ (k : Nat) e, Sample.epsMove[k]? = some e → e.kind ≠ .log := by
    intro k e he
    have := List.mem_of_getElem? he
    simp [Sample.epsMove] at this
    subst this; simp
  obtain ⟨w1, as1, w2, h1, h2, _⟩ := Sample.afterMove_some
    (show Sample.afterMove (.read 0 (.got Sample.cmdTo1.encode)) =
      some ([⟨0, (Sample.cmdTo1.toMsg Sample.tbl).1, true⟩], [1, 2]) by decide +kernel)
  obtain ⟨w1', as1', w3, h1', h3, _⟩ := Sample.afterMove_some
    (show Sample.afterMove (.read 2 (.got Sample.hb2.encode)) =
      some ([⟨2, (Sample.hb2.toMsg Sample.tbl).1, true⟩], [0]) by decide +kernel)
  rw [h1] at h1' has
  cases h1'
  simp only [Option.map_some, Option.some.injEq, Prod.mk.injEq] at has
  have run1 : ∀ {ev : RouterEv} {w : World Nat} {as : List Arrival}, routerStep Sample.envQuiet w1 ev = some (w, as) →
      runRouter Sample.envQuiet w1 [ev] = some (w, as) := by
    intro ev w as h; simp [runRouter, h]
  refine ⟨w1, as1, w2, w3, h1, ?_, ?_⟩
  · obtain ⟨o, o1, _, o2⟩ := C124_follows_partial Sample.envQuiet Sample.tbl_ok Sample.epsMove hcfg
      (fun _ => 0) _ _ _ _ _ _ h1 (run1 h2) 2 (by rw [has.2]; simp) (by simp) 1 1
      ⟨⟨2, (Sample.hb2.toMsg Sample.tbl).1, true⟩, by rw [has.1]; simp, rfl, rfl, by decide +kernel, by decide +kernel⟩
      _ (List.mem_singleton.mpr rfl) rfl (by decide +kernel)
      (by
        rintro (⟨e, e1, e2, _⟩ | ⟨a, a1, _, a3, _, a5⟩)
        · exact hlog _ e e1 e2
        · rw [has.1] at a1
          simp at a1
          rcases a1 with rfl | rfl | rfl
          · exact absurd a3 (by decide +kernel)
          · exact absurd a3 (by decide +kernel)
          · exact absurd (hpeer _ _ a5) (by decide))
      (hout _ _)
    exact ⟨o, o1, by rw [o2 (fun _ _ _ _ => rfl)]; decide +kernel⟩
  · obtain ⟨o, o1, _, o2⟩ := C124_heard_partial Sample.envQuiet Sample.tbl_ok Sample.epsMove hcfg
      (fun _ => 0) _ _ _ _ _ _ h1 (run1 h3) 0 (by rw [has.2]; simp) (by simp)
      _ (List.mem_singleton.mpr rfl) rfl (by decide +kernel)
      (by
        rintro k hk ⟨y, y1, _, y3, _⟩
        have := hpeer _ _ hk
        subst this
        rw [has.1] at y1
        simp at y1
        rcases y1 with rfl | rfl | rfl <;> exact absurd y3 (by decide))
      (fun e h1 h2 => absurd h2 (hlog _ e h1)) (hout _ _)
    exact ⟨o, o1, by rw [o2 (fun _ _ _ _ => rfl)]; decide +kernel⟩

end Verif
