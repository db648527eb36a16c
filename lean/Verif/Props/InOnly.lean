import Verif.Spec.InOnly
import Verif.Props.Serve

/- Property C142: what incoming filters drop might as well never have been sent. -/

namespace Verif
open Spec

variable {σ τ : Type}

theorem noIn_at (eps : List Ep) (i : Nat) : (eps.map noIn)[i]? = (eps[i]?).map noIn := List.getElem?_map ..

theorem noIn_config {eps : List Ep} (hc : ConfigOk eps) : ConfigOk (eps.map noIn) := by
  intro e he
  obtain ⟨x, hx, rfl⟩ := List.mem_map.mp he
  exact hc x hx

theorem noIn_link {eps : List Ep} {j : Nat} (hl : LinkAt eps j) : LinkAt (eps.map noIn) j := by
  refine ⟨by simpa using hl.1, fun i hi e he => ?_⟩
  rw [noIn_at] at he
  obtain ⟨x, hx, rfl⟩ := Option.map_eq_some_iff.mp he
  exact hl.2 i hi x hx

theorem noIn_peer (eps : List Ep) (i j : Nat) : Peer (eps.map noIn) i j ↔ Peer eps i j := by
  unfold Peer
  apply or_congr Iff.rfl
  constructor
  · rintro ⟨e, e', h1, h2, h3⟩
    rw [noIn_at] at h1 h2
    obtain ⟨x, hx, rfl⟩ := Option.map_eq_some_iff.mp h1
    obtain ⟨x', hx', rfl⟩ := Option.map_eq_some_iff.mp h2
    exact ⟨x, x', hx, hx', h3⟩
  · rintro ⟨e, e', h1, h2, h3⟩
    exact ⟨noIn e, noIn e', by rw [noIn_at, h1]; rfl, by rw [noIn_at, h2]; rfl, h3⟩

/-- The same messages from the same links, all of them let in, and nothing let in beside them. -/
theorem seenAt_unsent {eps : List Ep} {past past' : List Arrival}
    (hz : past'.map (fun a => (a.ep, a.msg)) = (past.filter Arrival.passed).map (fun a => (a.ep, a.msg))) (hp : ∀ a ∈ past', a.passed = true)
    (j s c : Nat) : SeenAt (eps.map noIn) past' j s c ↔ SeenAt eps past j s c := by
  unfold SeenAt
  apply or_congr
  · constructor
    · rintro ⟨e, h1, h2⟩
      rw [noIn_at] at h1
      obtain ⟨x, hx, rfl⟩ := Option.map_eq_some_iff.mp h1
      exact ⟨x, hx, h2⟩
    · rintro ⟨e, h1, h2⟩
      exact ⟨noIn e, by rw [noIn_at, h1]; rfl, h2⟩
  · constructor
    · rintro ⟨a, ha, _, h1, h2, h3⟩
      have : (a.ep, a.msg) ∈ past'.map (fun a => (a.ep, a.msg)) := List.mem_map.mpr ⟨a, ha, rfl⟩
      rw [hz] at this
      obtain ⟨b, hb, he⟩ := List.mem_map.mp this
      obtain ⟨hb1, hb2⟩ := List.mem_filter.mp hb
      simp only [Prod.mk.injEq] at he
      refine ⟨b, hb1, hb2, by rw [he.2]; exact h1, by rw [he.2]; exact h2, ?_⟩
      rw [he.1]; exact (noIn_peer ..).mp h3
    · rintro ⟨b, hb1, hb2, h1, h2, h3⟩
      have : (b.ep, b.msg) ∈ (past.filter Arrival.passed).map (fun a => (a.ep, a.msg)) :=
        List.mem_map.mpr ⟨b, List.mem_filter.mpr ⟨hb1, hb2⟩, rfl⟩
      rw [← hz] at this
      obtain ⟨a, ha, he⟩ := List.mem_map.mp this
      simp only [Prod.mk.injEq] at he
      refine ⟨a, ha, hp a ha, by rw [he.2]; exact h1, by rw [he.2]; exact h2, ?_⟩
      rw [he.1]; exact (noIn_peer ..).mpr h3

theorem expected_unsent (sn : Nat) (eps : List Ep) (j : Nat) : ∀ (as as' past past' : List Arrival),
    past'.map (fun a => (a.ep, a.msg)) = (past.filter Arrival.passed).map (fun a => (a.ep, a.msg)) → (∀ a ∈ past', a.passed = true) →
    as'.map (fun a => (a.ep, a.msg)) = (as.filter Arrival.passed).map (fun a => (a.ep, a.msg)) → (∀ a ∈ as', a.passed = true) →
    (expected sn (eps.map noIn) j past' as').map (fun a => a.msg.data) = (expected sn eps j past as).map (fun a => a.msg.data)
  | [], as', past, past', _, _, h2, _ => by
    have : as' = [] := List.map_eq_nil_iff.mp h2
    subst this; rfl
  | a :: as, as', past, past', h1, hp1, h2, hp2 => by
    cases hpa : a.passed with
    | false =>
      rw [List.filter_cons_of_neg (by simp [hpa])] at h2
      have ih := expected_unsent sn eps j as as' (past ++ [a]) past' (by simpa [List.filter_append, hpa] using h1) hp1 h2 hp2
      rw [ih]
      simp [expected, hpa]
    | true =>
      rw [List.filter_cons_of_pos (by simp [hpa])] at h2
      cases as' with
      | nil => cases h2
      | cons a' as' =>
        simp only [List.map_cons, List.cons.injEq, Prod.mk.injEq] at h2
        obtain ⟨⟨e1, e2⟩, h2⟩ := h2
        have hpa' := hp2 a' (by simp)
        have hz : (past' ++ [a']).map (fun a => (a.ep, a.msg)) = ((past ++ [a]).filter Arrival.passed).map (fun a => (a.ep, a.msg)) := by
          simp [List.filter_append, hpa, h1, e1, e2]
        have hp1' : ∀ x ∈ past' ++ [a'], x.passed = true := by
          intro x hx
          rcases List.mem_append.mp hx with hx | hx
          · exact hp1 x hx
          · simp only [List.mem_singleton] at hx; rw [hx]; exact hpa'
        have ih := expected_unsent sn eps j as as' (past ++ [a]) (past' ++ [a']) hz hp1' h2 (fun x hx => hp2 x (by simp [hx]))
        have hs := seenAt_unsent (eps := eps) hz hp1' j
        have hout : (∀ e, (eps.map noIn)[j]? = some e → outOk e.filters a.msg) ↔ (∀ e, eps[j]? = some e → outOk e.filters a.msg) := by
          rw [noIn_at]
          cases eps[j]? with
          | none => simp
          | some x => simp only [Option.map_some, Option.some.injEq, forall_eq']; exact Iff.rfl
        have hw : Wanted sn (eps.map noIn) j (past' ++ [a']) a'.msg ↔ Wanted sn eps j (past ++ [a]) a.msg := by
          simp only [Wanted, hs, e2, hout]
        simp only [expected, List.map_append, ih]
        congr 1
        by_cases hx : Wanted sn eps j (past ++ [a]) a.msg
        · rw [if_pos ⟨hpa', hw.mpr hx⟩, if_pos ⟨hpa, hx⟩]; simp [e2]
        · rw [if_neg (fun y => hx (hw.mp y.2)), if_neg (fun y => hx y.2)]

theorem admitted_iff (eps : List Ep) (a : Arrival) : Admitted eps a ↔ inOk (((eps[a.ep]?).map Ep.filters).getD {}) a.msg := by
  unfold Admitted
  cases eps[a.ep]? with
  | none => simp [inOk, passes]
  | some e => simp

theorem admitted_noIn (eps : List Ep) (a : Arrival) : inOk ((((eps.map noIn)[a.ep]?).map Ep.filters).getD {}) a.msg := by
  rw [noIn_at]
  cases eps[a.ep]? <;> simp [inOk, passes, noIn]

/-- **C142**: a router with incoming filters, and one without them but with the same links otherwise, at which exactly those messages arrive
that the filters of the first admit, in the same order - the histories may be different otherwise. If there is no de-duplication, or no
packet arrives twice, every configured link is handed the same bytes in the same order by both. -/
theorem C142_unsent (env : Env σ) (env' : Env τ) (ht : TableOk env.tbl) (htb : env'.tbl = env.tbl) (hsn : env'.sniffer = env.sniffer)
    (hh : env'.hashFn = env.hashFn) (eps : List Ep) (hc : ConfigOk eps) (logs : Nat → σ) (logs' : Nat → τ) (evs evs' : List RouterEv)
    (w : World σ) (w' : World τ) (as as' : List Arrival) (h : runRouter env (start eps logs) evs = some (w, as))
    (h' : runRouter env' (start (eps.map noIn) logs') evs' = some (w', as'))
    (hsame : as'.map (fun a => (a.ep, a.msg)) = (comingIn eps as).map (fun a => (a.ep, a.msg)))
    (hp : (env.dedupPeriod = 0 ∧ env'.dedupPeriod = 0) ∨ NoCopies env.hashFn [] as)
    (j : Nat) (hl : LinkAt eps j) (hgone : ∀ gone, RouterEv.hangups gone ∈ evs ++ evs' → j ∉ gone) :
    (writesTo j (start (eps.map noIn) logs') w').map Sent.bytes = (writesTo j (start eps logs) w).map Sent.bytes := by
  have ht' : TableOk env'.tbl := by rw [htb]; exact ht
  have hc' := noIn_config hc
  have f : ∀ a ∈ as, (a.passed = true ↔ Admitted eps a) := by
    intro a ha
    rw [admitted_iff]
    rcases hp with hp | hp
    · exact passed_filters env ht hp.1 eps hc logs evs w as h a ha
    · exact passed_nocopy env ht eps hc logs evs w [] as h hp a ha
  have hfil : comingIn eps as = as.filter Arrival.passed := by
    unfold comingIn
    refine List.filter_congr (fun a ha => ?_)
    have := f a ha
    cases hx : a.passed <;> simp_all
  rw [hfil] at hsame
  have f' : ∀ a ∈ as', a.passed = true := by
    intro a ha
    rcases hp with hp | hp
    · exact (passed_filters env' ht' hp.2 _ hc' logs' evs' w' as' h' a ha).mpr (admitted_noIn ..)
    · refine (passed_nocopy env' ht' _ hc' logs' evs' w' [] as' h' ⟨?_, by simp⟩ a ha).mpr (admitted_noIn ..)
      have e := congrArg (List.map fun p => env.hashFn p.2.data) hsame
      simp only [List.map_map] at e
      rw [hh]
      exact e ▸ hp.1.sublist (List.filter_sublist.map _)
  have e1 := C88_links env ht eps hc logs [] evs _ w [] as rfl h j hl (List.mem_range.mpr hl.1) (fun g hg => hgone g (by simp [hg]))
  have hl' := noIn_link hl
  have e2 := C88_links env' ht' _ hc' logs' [] evs' _ w' [] as' rfl h' j hl' (List.mem_range.mpr hl'.1) (fun g hg => hgone g (by simp [hg]))
  rw [e1, e2, hsn]
  exact expected_unsent _ eps j as as' [] [] rfl (by simp) hsame f'

namespace Sample

/-- The ground station's link (2) does not admit messages with number 300. -/
def epsIn : List Ep := [{ kind := .uart }, { kind := .udp }, { kind := .udp, filters := { blockInMsg := [300] } }]

end Sample

/-- A heartbeat of the vehicle, a command and another message of the ground station, which its link does not admit; and the same without
that message and without filters. De-duplication is on in both. -/
example : ConfigOk Sample.epsIn ∧ LinkAt Sample.epsIn 0 ∧
    (runRouter Sample.envDedup (start Sample.epsIn fun _ => 0) (Sample.evsMeet ++ [.read 2 (.got Sample.unk42.encode)])).map Prod.snd =
      some [Sample.came 0 Sample.hb2, Sample.came 2 Sample.cmdTo1, { Sample.came 2 Sample.unk42 with passed := false }] ∧
    (runRouter Sample.envDedup (start (Sample.epsIn.map noIn) fun _ => 0) Sample.evsMeet).map Prod.snd =
      some [Sample.came 0 Sample.hb2, Sample.came 2 Sample.cmdTo1] ∧
    comingIn Sample.epsIn [Sample.came 0 Sample.hb2, Sample.came 2 Sample.cmdTo1, { Sample.came 2 Sample.unk42 with passed := false }] =
      [Sample.came 0 Sample.hb2, Sample.came 2 Sample.cmdTo1] ∧
    NoCopies Sample.envDedup.hashFn [] [Sample.came 0 Sample.hb2, Sample.came 2 Sample.cmdTo1, { Sample.came 2 Sample.unk42 with passed := false }] ∧
    (Sample.handed Sample.envDedup Sample.epsIn (Sample.evsMeet ++ [.read 2 (.got Sample.unk42.encode)])).map Prod.snd =
      some [(1, Sample.hb2.encode), (2, Sample.hb2.encode), (0, Sample.cmdTo1.encode)] := by
  refine ⟨?_, ⟨by decide, fun i hi => by omega⟩, by decide +kernel, by decide +kernel, ?_, ⟨by decide +kernel, by simp⟩, by decide +kernel⟩
  · intro e he
    simp only [Sample.epsIn, List.mem_cons, List.not_mem_nil, or_false] at he
    rcases he with rfl | rfl | rfl <;> simp
  · have y0 : Admitted Sample.epsIn (Sample.came 0 Sample.hb2) := by
      intro e he; cases he; simp [inOk, passes]
    have y1 : Admitted Sample.epsIn (Sample.came 2 Sample.cmdTo1) := by
      intro e he; cases he
      have : (Sample.came 2 Sample.cmdTo1).msg.msgId ≠ 300 := by decide +kernel
      simpa [inOk, passes] using this
    have n2 : ¬ Admitted Sample.epsIn { Sample.came 2 Sample.unk42 with passed := false } := by
      intro hx
      have := (hx _ rfl).1
      have hm : (Sample.came 2 Sample.unk42).msg.msgId = 300 := by decide +kernel
      simp [passes, hm] at this
    unfold comingIn
    rw [List.filter_cons_of_pos (by simpa using y0), List.filter_cons_of_pos (by simpa using y1), List.filter_cons_of_neg (by simpa using n2)]
    rfl

end Verif
