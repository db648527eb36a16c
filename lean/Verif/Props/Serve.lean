import Verif.Spec.Serve
import Verif.Props.DedupOnly
import Verif.Props.ArrivalOrder
import Verif.Props.UdpRouter

/- Property C141: the order in which the links are served does not matter. -/

namespace Verif
open Spec

variable {σ : Type}

/-- The messages a receiver gives for what happens at its link. -/
def recvMsgs (tbl : MsgTable) : Option (Rx × Bool) → List RouterEv → List Msg
  | _, [] => []
  | none, _ => []
  | some r, .read _ io :: evs => (drain tbl r.2 (rxBufMax + 1) r.1 io).2.1.map Prod.fst ++
      recvMsgs tbl (some ((drain tbl r.2 (rxBufMax + 1) r.1 io).1, r.2)) evs
  | some r, .fd _ o :: evs => recvMsgs tbl (some (r.1, o)) evs
  | some r, _ :: evs => recvMsgs tbl (some r) evs

theorem recvMsgs_none (tbl : MsgTable) (evs : List RouterEv) : recvMsgs tbl none evs = [] := by cases evs <;> rfl

theorem step_recv (env : Env σ) (i : Nat) {w w1 : World σ} {ev : RouterEv} {as : List Arrival}
    (hs : routerStep env w ev = some (w1, as)) (hst : ev ≠ .accept) (rest : List RouterEv) :
    (from_ i as).map Arrival.msg ++ recvMsgs env.tbl (receivers w1)[i]? rest =
      recvMsgs env.tbl (receivers w)[i]? (atLink i [ev] ++ rest) := by
  have hrec := receivers_step env hs
  have hgi : ∀ j : Nat, (receivers w)[j]? = (w.eps[j]?).map (fun e => (e.rx, e.fdOpen)) := fun j => by simp [receivers]
  cases ev with
  | read j io =>
    cases he : w.eps[j]? with
    | none =>
      simp only [routerStep, handleRead, he] at hs
      cases hs
      by_cases hij : j = i
      · subst hij; rw [hgi, he]; simp [from_, recvMsgs_none]
      · simp [from_, atLink, hij]
    | some e =>
      simp only [routerStep, handleRead, he] at hs
      obtain ⟨h1, h2⟩ := runMsgs_arrivals env j _ hs
      have hj : (receivers w)[j]? = some (e.rx, e.fdOpen) := by rw [hgi, he]; rfl
      simp only [receiversAfter, hj] at hrec
      by_cases hij : j = i
      · subst hij
        have hlt : j < (receivers w).length := (List.getElem?_eq_some_iff.mp hj).1
        have hf : from_ j as = as := List.filter_eq_self.mpr (fun a ha => by simp [h2 a ha])
        rw [hf, h1, hrec, List.getElem?_set_self hlt, hj]
        simp [atLink, recvMsgs]
      · have hf : from_ i as = [] := List.filter_eq_nil_iff.mpr (fun a ha => by simp [h2 a ha, hij])
        rw [hf, hrec, List.getElem?_set_ne hij]
        simp [atLink, hij]
  | accept => exact absurd rfl hst
  | fd j o =>
    have hn : as = [] := by
      simp only [routerStep] at hs
      split at hs <;> cases hs <;> rfl
    subst hn
    rw [hrec]
    simp only [receiversAfter, List.getElem?_modify, from_, List.filter_nil, List.map_nil, List.nil_append]
    by_cases hij : j = i
    · subst hij
      cases (receivers w)[j]? <;> simp [atLink, recvMsgs, recvMsgs_none]
    · simp [atLink, hij]
  | hangups gone => cases hs; rw [hrec]; simp [receiversAfter, atLink, from_]
  | logCall j c => cases hs; rw [hrec]; simp [receiversAfter, atLink, from_]
  | aggregate => cases hs; rw [hrec]; simp [receiversAfter, atLink, from_]

theorem atLink_cons (i : Nat) (ev : RouterEv) (evs : List RouterEv) : atLink i (ev :: evs) = atLink i [ev] ++ atLink i evs := by
  unfold atLink
  rw [← List.filter_append]; rfl

theorem run_recv (env : Env σ) (i : Nat) : ∀ (evs : List RouterEv) (w : World σ) {w' : World σ} {as : List Arrival},
    runRouter env w evs = some (w', as) → RouterEv.accept ∉ evs →
    (from_ i as).map Arrival.msg = recvMsgs env.tbl (receivers w)[i]? (atLink i evs)
  | [], w, w', as, h, _ => by
    cases h
    cases (receivers w)[i]? <;> simp [from_, atLink, recvMsgs]
  | ev :: evs, w, w', as, h, hst => by
    unfold runRouter at h
    split at h
    · cases h
    · rename_i w1 as1 hs
      split at h
      · cases h
      · rename_i w2 as2 hr2
        cases h
        have ih := run_recv env i evs w1 hr2 (fun hm => hst (List.mem_cons_of_mem _ hm))
        rw [atLink_cons, ← step_recv env i hs (fun he => hst (by simp [he])), ← ih]
        simp [from_]

/-- What has the same elements from every link, in the same order, is a permutation. -/
theorem perm_of_filter {α : Type} (f : α → Nat) {l l' : List α} (h : ∀ i, l'.filter (fun a => f a == i) = l.filter (fun a => f a == i)) :
    l'.Perm l := by
  classical
  refine List.perm_iff_count.mpr (fun a => ?_)
  have key : ∀ (l : List α), l.count a = (l.filter (fun x => f x == f a)).count a := fun l => by
    rw [List.count_filter (by simp)]
  rw [key, key l, h]

/-- The arrivals of every link are the same. -/
theorem same_arrivals (env : Env σ) (ht : TableOk env.tbl) (eps : List Ep) (hc : ConfigOk eps) (logs : Nat → σ)
    (evs1 evs2 evs2' : List RouterEv) (w1 w2 w2' : World σ) (as1 as2 as2' : List Arrival)
    (h1 : runRouter env (start eps logs) evs1 = some (w1, as1)) (h2 : runRouter env w1 evs2 = some (w2, as2))
    (h2' : runRouter env w1 evs2' = some (w2', as2')) (hsame : SameAtLinks evs2 evs2')
    (hp : env.dedupPeriod = 0 ∨ NoCopies env.hashFn as1 as2) (i : Nat) : from_ i as2' = from_ i as2 := by
  have hm : ∀ i, (from_ i as2').map Arrival.msg = (from_ i as2).map Arrival.msg := fun i => by
    have e := run_recv env i evs2 w1 h2 hsame.steady
    have e' := run_recv env i evs2' w1 h2' hsame.steady'
    rw [hsame.same] at e'
    exact e'.trans e.symm
  have hpair : ∀ i (l : List Arrival), (l.map fun a => (a.ep, a.msg)).filter (fun p => p.1 == i) = ((from_ i l).map Arrival.msg).map (fun m => (i, m)) := by
    intro i l
    rw [List.filter_map, List.map_map]
    apply List.map_congr_left
    intro a ha
    have := (List.mem_filter.mp ha).2
    simp only [Function.comp_apply, beq_iff_eq] at this
    simp [this]
  have hperm : (as2'.map fun a => (a.ep, a.msg)).Perm (as2.map fun a => (a.ep, a.msg)) :=
    perm_of_filter Prod.fst (fun i => by rw [hpair, hpair, hm])
  have hh := hperm.map (fun p => env.hashFn p.2.data)
  simp only [List.map_map] at hh
  have hp' : env.dedupPeriod = 0 ∨ NoCopies env.hashFn as1 as2' := by
    rcases hp with hp | ⟨n1, n2⟩
    · exact .inl hp
    · refine .inr ⟨hh.nodup_iff.mpr n1, fun a ha b hb => ?_⟩
      have : (a.ep, a.msg) ∈ as2.map fun a => (a.ep, a.msg) := hperm.mem_iff.mp (List.mem_map.mpr ⟨a, ha, rfl⟩)
      obtain ⟨c, hcm, hce⟩ := List.mem_map.mp this
      have he : c.msg = a.msg := congrArg Prod.snd hce
      rw [← he]
      exact n2 c hcm b hb
  have f : ∀ a ∈ as2, (a.passed = true ↔ inOk (((eps[a.ep]?).map Ep.filters).getD {}) a.msg) := by
    rcases hp with hp | hp
    · exact fun a ha => passed_filters env ht hp eps hc logs _ w2 _ (runRouter_append evs1 h1 h2) a (by simp [ha])
    · exact passed_nocopy env ht eps hc logs _ w2 _ _ (runRouter_append evs1 h1 h2) hp
  have f' : ∀ a ∈ as2', (a.passed = true ↔ inOk (((eps[a.ep]?).map Ep.filters).getD {}) a.msg) := by
    rcases hp' with hp | hp
    · exact fun a ha => passed_filters env ht hp eps hc logs _ w2' _ (runRouter_append evs1 h1 h2') a (by simp [ha])
    · exact passed_nocopy env ht eps hc logs _ w2' _ _ (runRouter_append evs1 h1 h2') hp
  have key : ∀ (xs xs' : List Arrival), (∀ a ∈ xs, a ∈ from_ i as2) → (∀ a ∈ xs', a ∈ from_ i as2') →
      xs'.map Arrival.msg = xs.map Arrival.msg → xs' = xs := by
    intro xs
    induction xs with
    | nil => intro xs' _ _ hx; exact List.map_eq_nil_iff.mp hx
    | cons x xs ih =>
      intro xs' hx hx' hmap
      cases xs' with
      | nil => cases hmap
      | cons x' xs' =>
        simp only [List.map_cons, List.cons.injEq] at hmap
        rw [ih xs' (fun a ha => hx a (by simp [ha])) (fun a ha => hx' a (by simp [ha])) hmap.2]
        obtain ⟨m1, m2⟩ := List.mem_filter.mp (hx x (by simp))
        obtain ⟨m1', m2'⟩ := List.mem_filter.mp (hx' x' (by simp))
        have ep : x.ep = i := by simpa using m2
        have ep' : x'.ep = i := by simpa using m2'
        have g := f x m1
        have g' := f' x' m1'
        rw [ep', hmap.1, ← ep, ← g] at g'
        have hpas : x'.passed = x.passed := by
          cases h : x.passed <;> cases h' : x'.passed <;> simp_all
        congr 1
        obtain ⟨a, b, c⟩ := x
        obtain ⟨a', b', c'⟩ := x'
        simp only at ep ep' hmap hpas
        rw [ep, ep', hmap.1, hpas]
  exact key _ _ (fun _ h => h) (fun _ h => h) (hm i)

theorem seen_known {eps : List Ep} {past as : List Arrival} (hk : AllKnown eps past as) {xs : List Arrival} (hx : ∀ a ∈ xs, a ∈ as)
    (j s c : Nat) : SeenAt eps (past ++ xs) j s c ↔ SeenAt eps past j s c := by
  unfold SeenAt
  apply or_congr Iff.rfl
  constructor
  · rintro ⟨a, ha, hp, h1, h2, h3⟩
    rcases List.mem_append.mp ha with ha | ha
    · exact ⟨a, ha, hp, h1, h2, h3⟩
    · obtain ⟨b, hb, g1, g2, g3, g4⟩ := hk a (hx a ha) hp
      exact ⟨b, hb, g1, by rw [g2]; exact h1, by rw [g3]; exact h2, peer_trans g4 h3⟩
  · rintro ⟨a, ha, h⟩
    exact ⟨a, List.mem_append_left _ ha, h⟩

open Classical in
theorem expected_known {eps : List Ep} {past as : List Arrival} (hk : AllKnown eps past as) (sn j : Nat) : ∀ (xs pre : List Arrival),
    (∀ a ∈ pre, a ∈ as) → (∀ a ∈ xs, a ∈ as) →
    expected sn eps j (past ++ pre) xs = xs.filter (fun a => decide (a.passed = true ∧ Wanted sn eps j past a.msg))
  | [], _, _, _ => rfl
  | x :: xs, pre, hp, hx => by
    have hp' : ∀ a ∈ pre ++ [x], a ∈ as := fun a ha => by
      rcases List.mem_append.mp ha with h | h
      · exact hp a h
      · exact hx a (by simp_all)
    have ih := expected_known hk sn j xs (pre ++ [x]) hp' (fun a ha => hx a (by simp [ha]))
    have hw : Wanted sn eps j (past ++ pre ++ [x]) x.msg ↔ Wanted sn eps j past x.msg := by
      simp only [Wanted, List.append_assoc, seen_known hk hp']
    simp only [expected]
    rw [List.append_assoc, ih, ← List.append_assoc]
    by_cases hc : x.passed = true ∧ Wanted sn eps j past x.msg
    · rw [if_pos ⟨hc.1, hw.mpr hc.2⟩, List.filter_cons_of_pos (by simpa using hc)]; rfl
    · rw [if_neg (fun z => hc ⟨z.1, hw.mp z.2⟩), List.filter_cons_of_neg (by simpa using hc)]; rfl

/-- **C141**: after any history `evs1`, let the same happen at every link, but the links be served in different order (`evs2`, `evs2'`). If
all senders were known before, and there is no de-duplication or no packet arrives twice, the same messages arrive from every link, and every configured link `j` is handed
the same messages, byte for byte, those of every origin in the same order. -/
theorem C141_served (env : Env σ) (ht : TableOk env.tbl) (eps : List Ep) (hc : ConfigOk eps) (logs : Nat → σ)
    (evs1 evs2 evs2' : List RouterEv) (w1 w2 w2' : World σ) (as1 as2 as2' : List Arrival)
    (h1 : runRouter env (start eps logs) evs1 = some (w1, as1)) (h2 : runRouter env w1 evs2 = some (w2, as2))
    (h2' : runRouter env w1 evs2' = some (w2', as2')) (hsame : SameAtLinks evs2 evs2') (hk : AllKnown eps as1 as2)
    (hp : env.dedupPeriod = 0 ∨ NoCopies env.hashFn as1 as2) :
    (∀ i, from_ i as2' = from_ i as2) ∧
    ∀ j, LinkAt eps j → j ∈ w1.active → (∀ gone, RouterEv.hangups gone ∈ evs2 ++ evs2' → j ∉ gone) →
      ((writesTo j w1 w2').map Sent.bytes).Perm ((writesTo j w1 w2).map Sent.bytes) ∧
      ∃ s s' : List Arrival, s.Sublist as2 ∧ s'.Sublist as2' ∧ (∀ i, from_ i s' = from_ i s) ∧
        (writesTo j w1 w2).map Sent.bytes = s.map (fun a => a.msg.data) ∧
        (writesTo j w1 w2').map Sent.bytes = s'.map (fun a => a.msg.data) := by
  classical
  have hfrom := same_arrivals env ht eps hc logs evs1 evs2 evs2' w1 w2 w2' as1 as2 as2' h1 h2 h2' hsame hp
  refine ⟨hfrom, fun j hl hj hgone => ?_⟩
  have hperm := perm_of_filter Arrival.ep hfrom
  have hk' : AllKnown eps as1 as2' := fun a ha => hk a (hperm.mem_iff.mp ha)
  have e := C88_links env ht eps hc logs evs1 evs2 w1 w2 as1 as2 h1 h2 j hl hj (fun g hg => hgone g (by simp [hg]))
  have e' := C88_links env ht eps hc logs evs1 evs2' w1 w2' as1 as2' h1 h2' j hl hj (fun g hg => hgone g (by simp [hg]))
  have x := expected_known hk env.sniffer.toNat j as2 [] (by simp) (fun _ h => h)
  have x' := expected_known hk' env.sniffer.toNat j as2' [] (by simp) (fun _ h => h)
  rw [List.append_nil] at x x'
  rw [x] at e
  rw [x'] at e'
  refine ⟨?_, _, _, List.filter_sublist, List.filter_sublist, fun i => ?_, e, e'⟩
  · rw [e, e']
    exact (hperm.filter _).map _
  · have := hfrom i
    unfold from_ at this ⊢
    rw [List.filter_filter, List.filter_filter]
    simp only [Bool.and_comm _ (decide _)]
    rw [← List.filter_filter, ← List.filter_filter, this]

namespace Sample

/-- A vehicle on link 0 and a ground station on link 2 become known. -/
def evsMeet : List RouterEv := [.read 0 (.got hb2.encode), .read 2 (.got cmdTo1.encode)]

/-- Another message of the ground station. -/
def unk42 : Frame := { unk with sys := 42, comp := 200, signature := unk.signature.reverse }

/-- What a message of link `i` is like as arrival. -/
def came (i : Nat) (f : Frame) : Arrival := { ep := i, msg := (f.toMsg envQuiet.tbl).1, passed := true }

end Sample

/-- Vehicle and ground station send at the same time; which of the links is served first only changes the order on the third link. -/
example : TableOk Sample.envQuiet.tbl ∧ Sample.envQuiet.dedupPeriod = 0 ∧ ConfigOk Sample.epsTwo ∧ LinkAt Sample.epsTwo 1 ∧
    SameAtLinks Sample.evsMeet Sample.evsMeet.reverse ∧
    AllKnown Sample.epsTwo [Sample.came 0 Sample.hb2, Sample.came 2 Sample.cmdTo1] [Sample.came 0 Sample.hb2, Sample.came 2 Sample.cmdTo1] ∧
    (runRouter Sample.envQuiet (start Sample.epsTwo fun _ => 0) (Sample.evsMeet ++ Sample.evsMeet)).map Prod.snd =
      some [Sample.came 0 Sample.hb2, Sample.came 2 Sample.cmdTo1, Sample.came 0 Sample.hb2, Sample.came 2 Sample.cmdTo1] ∧
    (Sample.handed Sample.envQuiet Sample.epsTwo (Sample.evsMeet ++ Sample.evsMeet)).map Prod.snd =
      some [(1, Sample.hb2.encode), (2, Sample.hb2.encode), (0, Sample.cmdTo1.encode),
        (1, Sample.hb2.encode), (2, Sample.hb2.encode), (0, Sample.cmdTo1.encode)] ∧
    (Sample.handed Sample.envQuiet Sample.epsTwo (Sample.evsMeet ++ Sample.evsMeet.reverse)).map Prod.snd =
      some [(1, Sample.hb2.encode), (2, Sample.hb2.encode), (0, Sample.cmdTo1.encode),
        (0, Sample.cmdTo1.encode), (1, Sample.hb2.encode), (2, Sample.hb2.encode)] := by
  refine ⟨Sample.tbl_ok, rfl, ?_, ⟨by decide, ?_⟩, ⟨fun i => ?_, by decide, by decide⟩, ?_, by decide +kernel,
    by decide +kernel, by decide +kernel⟩
  · intro e he
    simp only [Sample.epsTwo, List.mem_cons, List.not_mem_nil, or_false] at he
    rcases he with rfl | rfl | rfl <;> simp
  · intro i hi e he
    obtain rfl : i = 0 := by omega
    cases he; decide
  · by_cases h0 : 0 = i
    · subst h0; rfl
    · by_cases h2 : 2 = i
      · subst h2; rfl
      · simp [atLink, Sample.evsMeet, h0, h2]
  · intro a ha hp
    exact ⟨a, ha, hp, rfl, rfl, .inl rfl⟩

/-- With de-duplication: further messages of both, none of them twice. -/
example : Sample.envDedup.dedupPeriod ≠ 0 ∧
    NoCopies Sample.envDedup.hashFn [Sample.came 0 Sample.hb2, Sample.came 2 Sample.cmdTo1]
      [Sample.came 0 Sample.unk11, Sample.came 2 Sample.unk42] ∧
    (runRouter Sample.envDedup (start Sample.epsTwo fun _ => 0) (Sample.evsMeet ++ [.read 2 (.got Sample.unk42.encode),
        .read 0 (.got Sample.unk11.encode)])).map Prod.snd =
      some [Sample.came 0 Sample.hb2, Sample.came 2 Sample.cmdTo1, Sample.came 2 Sample.unk42,
        Sample.came 0 Sample.unk11] := by
  refine ⟨by decide, ⟨by decide +kernel, by decide +kernel⟩, by decide +kernel⟩

/-- That the senders are known is necessary: if the command is served before the first message of the vehicle it is for, it goes nowhere. -/
example : (Sample.handed Sample.envQuiet Sample.epsTwo Sample.evsMeet).map Prod.snd =
      some [(1, Sample.hb2.encode), (2, Sample.hb2.encode), (0, Sample.cmdTo1.encode)] ∧
    (Sample.handed Sample.envQuiet Sample.epsTwo Sample.evsMeet.reverse).map Prod.snd =
      some [(1, Sample.hb2.encode), (2, Sample.hb2.encode)] := by
  constructor <;> decide +kernel

end Verif
