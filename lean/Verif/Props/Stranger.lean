import Verif.Spec.Stranger
import Verif.Props.Alike
import Verif.Props.UdpRouter

/- Property C138: a further system does not disturb the others. -/

namespace Verif
open Spec

variable {σ : Type}

theorem without_passed {x : UInt8} {f : Nat → Filters} : ∀ {as as' : List Arrival}, Without x as as' →
    (∀ a ∈ as, (a.passed = true ↔ inOk (f a.ep) a.msg)) → (∀ a ∈ as', (a.passed = true ↔ inOk (f a.ep) a.msg)) →
    as' = as.filter (fun a => ¬ FromSys x a) := by
  intro as as' h
  unfold Without at h
  intro ha hb
  have ha' : ∀ a ∈ as.filter (fun a => ¬ FromSys x a), (a.passed = true ↔ inOk (f a.ep) a.msg) :=
    fun a h => ha a (List.mem_filter.mp h).1
  generalize as.filter (fun a => ¬ FromSys x a) = bs at h ha'
  clear ha
  induction bs generalizing as' with
  | nil => exact List.map_eq_nil_iff.mp h
  | cons b bs ih =>
    cases as' with
    | nil => cases h
    | cons a as' =>
      simp only [List.map_cons, List.cons.injEq, Prod.mk.injEq] at h
      obtain ⟨⟨h1, h2⟩, h3⟩ := h
      rw [ih (fun y hy => hb y (by simp [hy])) h3 (fun y hy => ha' y (by simp [hy]))]
      have e1 := hb a (by simp)
      have e2 := ha' b (by simp)
      rw [h1, h2] at e1
      have : a.passed = b.passed := Bool.eq_iff_iff.mpr (e1.trans e2.symm)
      cases a; cases b
      simp only at h1 h2 this
      subst h1 h2 this
      rfl

theorem seenAt_stranger {eps : List Ep} {x : UInt8} (as : List Arrival) (j s c : Nat) (hs : s ≠ x.toNat) :
    SeenAt eps as j s c ↔ SeenAt eps (as.filter (fun a => ¬ FromSys x a)) j s c := by
  unfold SeenAt
  apply or_congr Iff.rfl
  constructor
  · rintro ⟨a, ha, hp, h1, h2, h3⟩
    refine ⟨a, List.mem_filter.mpr ⟨ha, ?_⟩, hp, h1, h2, h3⟩
    simp only [decide_eq_true_eq]
    intro hx
    unfold FromSys at hx
    exact hs (by rw [← h1, hx])
  · rintro ⟨a, ha, hp, h⟩
    exact ⟨a, (List.mem_filter.mp ha).1, hp, h⟩

theorem wanted_stranger {sniffer : Nat} {eps : List Ep} {x : UInt8} (hn : NotSniffer x sniffer) (as : List Arrival) (j : Nat)
    {m : Msg} (hm : m.srcSys ≠ x) (ht : m.targetSys ≠ (x.toNat : Int)) :
    Wanted sniffer eps j as m ↔ Wanted sniffer eps j (as.filter (fun a => ¬ FromSys x a)) m := by
  have hsrc : m.srcSys.toNat ≠ x.toNat := fun h => hm (UInt8.toNat_inj.mp h)
  have h1 := seenAt_stranger (eps := eps) (x := x) as j m.srcSys.toNat m.srcComp.toNat hsrc
  by_cases h0 : m.targetSys ≤ 0
  · simp only [Wanted, h1, h0, true_or]
  · have htgt : m.targetSys.toNat ≠ x.toNat := by omega
    have h2 := fun c => seenAt_stranger (eps := eps) (x := x) as j m.targetSys.toNat c htgt
    have h3 : (sniffer ≠ 0 ∧ ∃ c, SeenAt eps as j (sniffer % 256) c) ↔
        (sniffer ≠ 0 ∧ ∃ c, SeenAt eps (as.filter (fun a => ¬ FromSys x a)) j (sniffer % 256) c) := by
      rcases hn with hn | hn
      · simp [hn]
      · exact and_congr Iff.rfl (exists_congr fun c => seenAt_stranger as j _ c hn)
    simp only [Wanted, h1, h2, h3]

theorem expected_stranger {sniffer : Nat} {eps : List Ep} {x : UInt8} (hn : NotSniffer x sniffer) (j : Nat) :
    ∀ (as past : List Arrival), (expected sniffer eps j past as).filter (fun a => ¬ Concerns x a) =
      (expected sniffer eps j (past.filter (fun a => ¬ FromSys x a)) (as.filter (fun a => ¬ FromSys x a))).filter
        (fun a => ¬ Concerns x a)
  | [], _ => rfl
  | a :: as, past => by
    have ih := expected_stranger (eps := eps) hn j as (past ++ [a])
    rw [List.filter_append] at ih
    by_cases hx : FromSys x a
    · have hf : [a].filter (fun a => ¬ FromSys x a) = [] := by simp [hx]
      have hc : [a].filter (fun a => ¬ Concerns x a) = [] := by
        have : Concerns x a := Or.inl hx
        simp [this]
      rw [hf, List.append_nil] at ih
      rw [List.filter_cons_of_neg (by simp [hx]), ← ih]
      simp only [expected]
      rw [List.filter_append]
      split
      · rw [hc, List.nil_append]
      · rfl
    · have hf : [a].filter (fun a => ¬ FromSys x a) = [a] := by simp [hx]
      rw [hf] at ih
      rw [List.filter_cons_of_pos (by simp [hx])]
      simp only [expected]
      rw [List.filter_append, List.filter_append, ih]
      congr 1
      by_cases hc : Concerns x a
      · have hcc : [a].filter (fun a => ¬ Concerns x a) = [] := by simp [hc]
        split <;> split <;> first | rfl | (rw [hcc]; rfl) | rw [hcc]
      · have hw := wanted_stranger (eps := eps) hn (past ++ [a]) j (m := a.msg) (fun h => hc (Or.inl h)) (fun h => hc (Or.inr h))
        rw [List.filter_append, hf] at hw
        by_cases hp : a.passed = true ∧ Wanted sniffer eps j (past ++ [a]) a.msg
        · rw [if_pos hp, if_pos ⟨hp.1, hw.mp hp.2⟩]
        · rw [if_neg hp, if_neg (fun y => hp ⟨y.1, hw.mpr y.2⟩)]

theorem expected_sublist (sniffer : Nat) (eps : List Ep) (j : Nat) : ∀ (as past : List Arrival),
    (expected sniffer eps j past as).Sublist as
  | [], _ => List.Sublist.refl _
  | a :: as, past => by
    have ih := expected_sublist sniffer eps j as (past ++ [a])
    simp only [expected]
    split
    · exact ih.cons_cons a
    · exact ih.cons a

/-- Nothing arrives twice without the stranger, either. -/
theorem noCopies_without {hashFn : List UInt8 → UInt64} {x : UInt8} {as as' : List Arrival} (hw : Without x as as')
    (h : NoCopies hashFn [] as) : NoCopies hashFn [] as' := by
  have e : as'.map (fun a => hashFn a.msg.data) = (as.filter (fun a => ¬ FromSys x a)).map (fun a => hashFn a.msg.data) := by
    have := congrArg (List.map fun p : Nat × Msg => hashFn p.2.data) hw
    simpa [List.map_map, Function.comp_def] using this
  exact ⟨e ▸ h.1.sublist (List.filter_sublist.map _), fun _ _ b hb => by simp at hb⟩

/-- **C138**: two histories of a router, without de-duplication or without packets that arrive twice, that differ only in the messages of system `x`, which is not the
sniffer (what else happens may differ, too). Then every configured link that does not hang up is handed in both the same of the
messages that are neither from `x` nor addressed to it, byte for byte and in the same order. -/
theorem C138_stranger (env : Env σ) (ht : TableOk env.tbl) (eps : List Ep) (hc : ConfigOk eps)
    (logs logs' : Nat → σ) (evs evs' : List RouterEv) (w w' : World σ) (as as' : List Arrival) (x : UInt8)
    (hn : NotSniffer x env.sniffer.toNat) (hp : env.dedupPeriod = 0 ∨ NoCopies env.hashFn [] as)
    (h : runRouter env (start eps logs) evs = some (w, as)) (h' : runRouter env (start eps logs') evs' = some (w', as'))
    (hw : Without x as as') (j : Nat) (hl : LinkAt eps j)
    (hgone : ∀ gone, RouterEv.hangups gone ∈ evs ∨ RouterEv.hangups gone ∈ evs' → j ∉ gone) :
    ∃ got got' : List Arrival, got.Sublist as ∧ got'.Sublist as' ∧
      (writesTo j (start eps logs) w).map Sent.bytes = got.map (fun a => a.msg.data) ∧
      (writesTo j (start eps logs') w').map Sent.bytes = got'.map (fun a => a.msg.data) ∧
      got.filter (fun a => ¬ Concerns x a) = got'.filter (fun a => ¬ Concerns x a) := by
  have hlt : j < eps.length := hl.1
  have hact : ∀ logs : Nat → σ, j ∈ (start eps logs).active := fun _ => List.mem_range.mpr hlt
  have he := without_passed (f := fun k => ((eps[k]?).map Ep.filters).getD {}) hw
    (passed_once env ht eps hc logs evs w [] as h hp)
    (passed_once env ht eps hc logs' evs' w' [] as' h' (hp.imp_right (noCopies_without hw)))
  refine ⟨expected env.sniffer.toNat eps j [] as, expected env.sniffer.toNat eps j [] as', expected_sublist _ _ _ _ _,
    expected_sublist _ _ _ _ _,
    C88_links env ht eps hc logs [] evs _ w [] as rfl h j hl (hact _) (fun g hg => hgone g (.inl hg)),
    C88_links env ht eps hc logs' [] evs' _ w' [] as' rfl h' j hl (hact _) (fun g hg => hgone g (.inr hg)), ?_⟩
  rw [expected_stranger hn j as [], ← he]
  rfl

namespace Sample

/-- A message of system 9, which nobody else knows of. -/
def stranger : Frame := { unk with sys := 9 }

/-- A heartbeat of 1/1, a message of 9, and a message of 42/200 to 1/1 on another link. -/
def strEvs : List RouterEv := [.read 0 (.got hb2.encode), .read 0 (.got stranger.encode), .read 1 (.got cmdTo1.encode)]

end Sample

/-- With and without the stranger. -/
example : TableOk Sample.envQuiet.tbl ∧ Sample.envQuiet.dedupPeriod = 0 ∧ ConfigOk Sample.epsUdp ∧ LinkAt Sample.epsUdp 0 ∧
    NotSniffer 9 Sample.envQuiet.sniffer.toNat ∧
    (runRouter Sample.envQuiet (start Sample.epsUdp (fun _ => 0)) Sample.strEvs).map
      (fun r => (r.2.map (fun a => (a.ep, a.msg.srcSys)), r.1.out.map (fun o => (o.ep, o.bytes)))) =
      some ([(0, 1), (0, 9), (1, 42)], [(1, Sample.hb2.encode), (1, Sample.stranger.encode), (0, Sample.cmdTo1.encode)]) ∧
    (runRouter Sample.envQuiet (start Sample.epsUdp (fun _ => 0)) (Sample.strEvs.eraseIdx 1)).map
      (fun r => (r.2.map (fun a => (a.ep, a.msg.srcSys)), r.1.out.map (fun o => (o.ep, o.bytes)))) =
      some ([(0, 1), (1, 42)], [(1, Sample.hb2.encode), (0, Sample.cmdTo1.encode)]) := by
  refine ⟨Sample.tbl_ok, rfl, ?_, ⟨by decide, by intro i hi; omega⟩, Or.inl rfl, by decide +kernel, by decide +kernel⟩
  intro e he
  simp only [Sample.epsUdp, List.mem_cons, List.not_mem_nil, or_false] at he
  rcases he with rfl | rfl <;> simp

/-- With de-duplication on; no packet arrives twice. -/
example : Sample.envDedup.dedupPeriod = 100 ∧
    (runRouter Sample.envDedup (start Sample.epsUdp (fun _ => 0)) Sample.strEvs).map
      (fun r => (decide (NoCopies Sample.envDedup.hashFn [] r.2), r.1.out.map (fun o => (o.ep, o.bytes)))) =
      some (true, [(1, Sample.hb2.encode), (1, Sample.stranger.encode), (0, Sample.cmdTo1.encode)]) := by
  decide +kernel

end Verif
