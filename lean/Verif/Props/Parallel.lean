/-
C110: parallel links of a group between two routers.
-/
import Verif.Props.Complete

namespace Verif

open Verif.Spec

variable {σ : Type}

/-! ### The sending side -/

theorem seenAt_peer {eps : List Ep} (hc : ConfigOk eps) {past : List Arrival} {i j s c : Nat} (p : Peer eps i j)
    (h : SeenAt eps past i s c) : SeenAt eps past j s c := by
  rcases h with ⟨e, he, hk, h1, h2⟩ | ⟨a, ha, h1, h2, h3, h4⟩
  · refine .inl ⟨e, ?_, hk, h1, h2⟩
    rcases p with rfl | ⟨x, y, hx, _, hne, _⟩
    · exact he
    · rw [hx] at he
      cases he
      exact absurd ((hc e (List.mem_of_getElem? hx)).2.1 hk).1 hne
  · exact .inr ⟨a, ha, h1, h2, h3, peer_trans h4 p⟩

theorem wanted_peer {sn : Nat} {eps : List Ep} (hc : ConfigOk eps) {past : List Arrival} {i j : Nat} {m : Msg}
    (p : Peer eps i j)
    (hf : ∀ e e', eps[i]? = some e → eps[j]? = some e' → outOk e.filters m → outOk e'.filters m)
    (h : Wanted sn eps i past m) : Wanted sn eps j past m := by
  obtain ⟨h1, h2, h3⟩ := h
  refine ⟨fun g => h1 (seenAt_peer hc (peer_symm p) g), ?_, ?_⟩
  · intro e' he'
    rcases p with rfl | ⟨x, y, hx, hy, _, _⟩
    · exact h2 e' he'
    · exact hf x e' hx he' (h2 x hx)
  · rcases h3 with h3 | ⟨h3, c, h4⟩ | ⟨h3, h4⟩ | ⟨h3, c, h4⟩
    · exact .inl h3
    · exact .inr (.inl ⟨h3, c, seenAt_peer hc p h4⟩)
    · exact .inr (.inr (.inl ⟨h3, seenAt_peer hc p h4⟩))
    · exact .inr (.inr (.inr ⟨h3, c, seenAt_peer hc p h4⟩))

theorem expected_peer {sn : Nat} {eps : List Ep} (hc : ConfigOk eps) {i j : Nat} (p : Peer eps i j)
    (hf : ∀ e e', eps[i]? = some e → eps[j]? = some e' → ∀ m, outOk e.filters m ↔ outOk e'.filters m) :
    ∀ (as past : List Arrival), expected sn eps i past as = expected sn eps j past as := by
  intro as
  induction as with
  | nil => intro past; rfl
  | cons a as ih =>
    intro past
    have : Wanted sn eps i (past ++ [a]) a.msg ↔ Wanted sn eps j (past ++ [a]) a.msg :=
      ⟨wanted_peer hc p (fun e e' h h' => (hf e e' h h' _).mp),
       wanted_peer hc (peer_symm p) (fun e e' h h' => (hf e' e h' h _).mpr)⟩
    simp only [expected, ih]
    congr 1
    by_cases hw : Wanted sn eps j (past ++ [a]) a.msg
    · simp only [hw, this.mpr hw]
    · simp only [hw, show ¬ Wanted sn eps i (past ++ [a]) a.msg from fun h => hw (this.mp h)]

/-- **C110** (sending): over any part of any history, two links of one group with the same outgoing filters are given the
same messages with the same bytes in the same order, so each of them alone carries everything. (Configured links stand before
the log endpoints, `C92_links_first`.) -/
theorem C110_all_links (env : Env σ) (ht : TableOk env.tbl) (eps : List Ep) (hc : ConfigOk eps) (logs : Nat → σ)
    (evs1 evs2 : List RouterEv) (w1 w2 : World σ) (as1 as2 : List Arrival)
    (h1 : runRouter env (start eps logs) evs1 = some (w1, as1)) (h2 : runRouter env w1 evs2 = some (w2, as2))
    (i j : Nat) (p : Peer eps i j) (li : LinkAt eps i) (lj : LinkAt eps j)
    (hf : ∀ e e', eps[i]? = some e → eps[j]? = some e' → ∀ m, outOk e.filters m ↔ outOk e'.filters m)
    (hi : i ∈ w1.active) (hj : j ∈ w1.active)
    (hgone : ∀ gone, RouterEv.hangups gone ∈ evs2 → i ∉ gone ∧ j ∉ gone) :
    (writesTo i w1 w2).map Sent.bytes = (writesTo j w1 w2).map Sent.bytes := by
  rw [C88_links env ht eps hc logs evs1 evs2 w1 w2 as1 as2 h1 h2 i li hi (fun g hg => (hgone g hg).1),
    C88_links env ht eps hc logs evs1 evs2 w1 w2 as1 as2 h1 h2 j lj hj (fun g hg => (hgone g hg).2), expected_peer hc p hf]

/-! ### The receiving side -/

theorem dedupPass_first (hashFn : List UInt8 → UInt64) (P : Nat) : ∀ (es : List (Nat × List UInt8))
    (acc : List (Nat × UInt64)) (k t : Nat) (pkt : List UInt8), es[k]? = some (t, pkt) →
    (∀ a ∈ acc, a.2 ≠ hashFn pkt) → (∀ j t' pkt', j < k → es[j]? = some (t', pkt') → hashFn pkt' ≠ hashFn pkt) →
    (dedupPass hashFn P acc es)[k]? = some true := by
  intro es
  induction es with
  | nil => intro acc k t pkt h; simp at h
  | cons e es ih =>
    intro acc k t pkt he hacc hes
    obtain ⟨t0, p0⟩ := e
    unfold dedupPass
    cases k with
    | zero =>
      cases he
      rw [if_neg]
      · rfl
      · rintro ⟨a, ha, h1, _⟩
        exact hacc a ha h1
    | succ k =>
      have hes' : ∀ j t' pkt', j < k → es[j]? = some (t', pkt') → hashFn pkt' ≠ hashFn pkt :=
        fun j t' pkt' hj hj' => hes (j + 1) t' pkt' (by omega) hj'
      split
      · exact ih acc k t pkt he hacc hes'
      · refine ih _ k t pkt he ?_ hes'
        intro a ha
        rcases List.mem_cons.mp ha with rfl | ha
        · exact hes 0 t0 p0 (by omega) rfl
        · exact hacc a ha

theorem dedupPass_repeat (hashFn : List UInt8 → UInt64) (P : Nat) : ∀ (es : List (Nat × List UInt8))
    (acc : List (Nat × UInt64)) (j k t t' : Nat) (pkt pkt' : List UInt8), j < k → es[j]? = some (t, pkt) →
    es[k]? = some (t', pkt') → hashFn pkt' = hashFn pkt → t' ≤ t + P →
    (dedupPass hashFn P acc es)[j]? = some true → (dedupPass hashFn P acc es)[k]? = some false := by
  have later : ∀ (es : List (Nat × List UInt8)) (acc : List (Nat × UInt64)) (k t' : Nat) (pkt' : List UInt8),
      es[k]? = some (t', pkt') → (∃ a ∈ acc, a.2 = hashFn pkt' ∧ t' ≤ a.1 + P) →
      (dedupPass hashFn P acc es)[k]? = some false := by
    intro es
    induction es with
    | nil => intro acc k t' pkt' h; simp at h
    | cons e es ih =>
      intro acc k t' pkt' he hacc
      obtain ⟨t0, p0⟩ := e
      unfold dedupPass
      cases k with
      | zero => cases he; rw [if_pos hacc]; rfl
      | succ k =>
        split
        · exact ih acc k t' pkt' he hacc
        · obtain ⟨a, ha, h⟩ := hacc
          exact ih _ k t' pkt' he ⟨a, List.mem_cons_of_mem _ ha, h⟩
  intro es
  induction es with
  | nil => intro acc j k t t' pkt pkt' _ h; simp at h
  | cons e es ih =>
    intro acc j k t t' pkt pkt' hjk hj hk hh ht h
    obtain ⟨t0, p0⟩ := e
    obtain ⟨k, rfl⟩ : ∃ n, k = n + 1 := ⟨k - 1, by omega⟩
    unfold dedupPass at h ⊢
    cases j with
    | zero =>
      cases hj
      split at h
      · simp at h
      · rename_i hn
        rw [if_neg hn]
        exact later es _ k t' pkt' hk ⟨(t, hashFn pkt), List.mem_cons_self, hh.symm, ht⟩
    | succ j =>
      split at h
      · rename_i hn
        rw [if_pos hn]
        exact ih acc j k t t' pkt pkt' (by omega) hj hk hh ht h
      · rename_i hn
        rw [if_neg hn]
        exact ih _ j k t t' pkt pkt' (by omega) hj hk hh ht h

/-- The first arrival with these bytes. -/
theorem first_copy (data : List UInt8) : ∀ (as : List Arrival), (∃ a ∈ as, a.msg.data = data) →
    ∃ pre a post, as = pre ++ a :: post ∧ a.msg.data = data ∧ ∀ b ∈ pre, b.msg.data ≠ data
  | [], h => by obtain ⟨a, h, _⟩ := h; cases h
  | a :: as, h => by
    by_cases ha : a.msg.data = data
    · exact ⟨[], a, as, rfl, ha, by simp⟩
    · have : ∃ b ∈ as, b.msg.data = data := by
        obtain ⟨b, hb, h⟩ := h
        rcases List.mem_cons.mp hb with rfl | hb
        · exact absurd h ha
        · exact ⟨b, hb, h⟩
      obtain ⟨pre, b, post, rfl, h1, h2⟩ := first_copy data as this
      refine ⟨a :: pre, b, post, rfl, h1, ?_⟩
      intro c hc
      rcases List.mem_cons.mp hc with rfl | hc
      · exact ha
      · exact h2 c hc

/-- The copies of a packet: all come within one de-duplication period, the incoming filters admit them, and no other packet
received has the same hash. -/
structure Spec.Copies {σ : Type} (env : Env σ) (time : Nat → Nat) (eps : List Ep) (as : List Arrival) (data : List UInt8) :
    Prop where
  some : ∃ a ∈ as, a.msg.data = data
  hash : ∀ a ∈ as, env.hashFn a.msg.data = env.hashFn data → a.msg.data = data
  soon : ∀ (j k : Nat) a b, as[j]? = .some a → as[k]? = .some b → a.msg.data = data → b.msg.data = data →
    time k ≤ time j + env.dedupPeriod.toNat
  admit : ∀ a ∈ as, a.msg.data = data → ∀ e, eps[a.ep]? = .some e → inOk e.filters a.msg

/-- **C110** (receiving): whatever else arrives, of the copies of a packet the router passes on the first and no other. -/
theorem C110_first_copy (env : Env σ) (ht : TableOk env.tbl) (hp : env.dedupPeriod ≠ 0) (time : Nat → Nat)
    (hc : ∀ k, env.clock k = time k) (hmono : ∀ a b, a ≤ b → time a ≤ time b)
    (eps : List Ep) (hcfg : ConfigOk eps) (logs : Nat → σ) (evs : List RouterEv) (w : World σ) (as : List Arrival)
    (h : runRouter env (start eps logs) evs = some (w, as))
    (hrange : ∀ k < as.length, time k + env.dedupPeriod.toNat < 4294967296)
    (data : List UInt8) (C : Copies env time w.eps as data) :
    ∃ pre a post, as = pre ++ a :: post ∧ a.msg.data = data ∧ a.passed = true ∧
      (∀ b ∈ pre, b.msg.data ≠ data) ∧ ∀ b ∈ post, b.msg.data = data → b.passed = false := by
  obtain ⟨pre, a, post, rfl, h1, h2⟩ := first_copy data as C.some
  have hk : (pre ++ a :: post)[pre.length]? = some a := by simp
  have hpass : (dedupPass env.hashFn env.dedupPeriod.toNat [] (arrivalTimes time 0 (pre ++ a :: post)))[pre.length]? = some true := by
    apply dedupPass_first _ _ _ _ _ (time (0 + pre.length)) a.msg.data
    · rw [arrivalTimes_get, hk]; rfl
    · simp
    · intro j t' pkt' hj hj'
      rw [arrivalTimes_get, List.getElem?_append_left hj, List.getElem?_eq_getElem hj] at hj'
      simp only [Option.map_some, Option.some.injEq, Prod.mk.injEq] at hj'
      rw [← hj'.2, h1]
      intro hh
      exact h2 _ (List.getElem_mem hj) (C.hash _ (List.mem_append_left _ (List.getElem_mem hj)) hh)
  refine ⟨pre, a, post, rfl, h1, ?_, h2, ?_⟩
  · obtain ⟨e, he, hiff⟩ := C22_router env ht hp time hc hmono eps hcfg logs evs w _ h hrange _ a hk
    exact hiff.mpr ⟨hpass, C.admit a (by simp) h1 e he⟩
  · intro b hb hbd
    obtain ⟨n, hn, hbn⟩ := List.getElem_of_mem hb
    have hkb : (pre ++ a :: post)[pre.length + (n + 1)]? = some b := by
      rw [List.getElem?_append_right (by omega), Nat.add_sub_cancel_left, List.getElem?_cons_succ,
        List.getElem?_eq_getElem hn, hbn]
    obtain ⟨e, he, hiff⟩ := C22_router env ht hp time hc hmono eps hcfg logs evs w _ h hrange _ b hkb
    have hf := dedupPass_repeat env.hashFn env.dedupPeriod.toNat (arrivalTimes time 0 (pre ++ a :: post)) [] pre.length
      (pre.length + (n + 1)) (time (0 + pre.length)) (time (0 + (pre.length + (n + 1)))) a.msg.data b.msg.data
      (by omega) (by rw [arrivalTimes_get, hk]; rfl) (by rw [arrivalTimes_get, hkb]; rfl) (by rw [h1, hbd])
      (by simpa using C.soon _ _ a b hk hkb h1 hbd) hpass
    cases hb' : b.passed with
    | false => rfl
    | true =>
      have := (hiff.mp hb').1
      rw [hf] at this
      cases this

open Classical in
/-- **C110** (receiving, deliveries): the copies lead to exactly one write on each endpoint that is to get the packet when its first
copy arrives, and to none on the others; in particular to none on the links it can come from. (For log endpoints behind another
one: of messages the log endpoints before it do not edit.) -/
theorem C110_delivered_once (env : Env σ) (ht : TableOk env.tbl) (hp : env.dedupPeriod ≠ 0) (time : Nat → Nat)
    (hc : ∀ k, env.clock k = time k) (hmono : ∀ a b, a ≤ b → time a ≤ time b)
    (eps : List Ep) (hcfg : ConfigOk eps) (logs : Nat → σ) (evs : List RouterEv) (w : World σ) (as : List Arrival)
    (h : runRouter env (start eps logs) evs = some (w, as))
    (hrange : ∀ k < as.length, time k + env.dedupPeriod.toNat < 4294967296)
    (data : List UInt8) (C : Copies env time w.eps as data) :
    ∃ pre a post, as = pre ++ a :: post ∧ a.msg.data = data ∧ (∀ b ∈ pre, b.msg.data ≠ data) ∧
      (∀ j, Peer eps a.ep j → ¬ Wanted env.sniffer.toNat eps j (pre ++ [a]) a.msg) ∧
      ∀ j < eps.length, (∀ gone, RouterEv.hangups gone ∈ evs → j ∉ gone) →
        (LinkAt eps j ∨ ∀ b ∈ as, UneditedBefore env eps j b.msg) →
        ((writesTo j (start eps logs) w).map Sent.bytes).count data =
          if Wanted env.sniffer.toNat eps j (pre ++ [a]) a.msg then 1 else 0 := by
  obtain ⟨pre, a, post, has, h1, h2, h3, h4⟩ :=
    C110_first_copy env ht hp time hc hmono eps hcfg logs evs w as h hrange data C
  refine ⟨pre, a, post, has, h1, h3, ?_, ?_⟩
  · intro j hj hw
    exact hw.1 (.inr ⟨a, by simp, h2, rfl, rfl, hj⟩)
  · intro j hj hg hu
    have A := C88_complete_partial env ht eps hcfg logs [] evs _ w [] as rfl h j (by simpa [start] using hj) hg
    rw [accounts_bytes A (fun a ha => hu.elim (fun l => unedited_link l _) (fun u => u a (expected_sub _ _ _ _ _ a ha).1)), has,
      expected_append]
    rw [List.map_append, List.count_append]
    have z1 : ∀ past, List.count data ((expected env.sniffer.toNat eps j past pre).map (fun a => a.msg.data)) = 0 := by
      intro past
      rw [List.count_eq_zero, List.mem_map]
      rintro ⟨b, hb, hbd⟩
      exact h3 b (expected_sub _ _ _ _ _ b hb).1 hbd
    have z2 : ∀ past, List.count data ((expected env.sniffer.toNat eps j past post).map (fun a => a.msg.data)) = 0 := by
      intro past
      rw [List.count_eq_zero, List.mem_map]
      rintro ⟨b, hb, hbd⟩
      obtain ⟨g1, g2⟩ := expected_sub _ _ _ _ _ b hb
      rw [h4 b g1 hbd] at g2
      cases g2
    simp only [expected, List.nil_append, List.map_append, List.count_append, z1, z2, h2, true_and, Nat.zero_add, Nat.add_zero]
    split <;> simp [h1]

/-- Two links of a group, and a ground station; period 100 ms, a check every 60 ms. -/
def Sample.epsPair : List Ep := [{ kind := .udp, group := "g" }, { kind := .uart, group := "g" }, { kind := .tcp }]

/-- The router on the sending side: a heartbeat from the vehicle on endpoint 2 goes to both links. -/
example : ConfigOk Sample.epsPair ∧ Peer Sample.epsPair 0 1 ∧ LinkAt Sample.epsPair 0 ∧ LinkAt Sample.epsPair 1 ∧
    (runRouter Sample.envDedup (start Sample.epsPair (fun _ => 0)) [.read 2 (.got Sample.hb2.encode)]).map
      (fun r => ((writesTo 0 (start Sample.epsPair (fun _ => 0)) r.1).map Sent.bytes,
        (writesTo 1 (start Sample.epsPair (fun _ => 0)) r.1).map Sent.bytes)) =
      some ([Sample.hb2.encode], [Sample.hb2.encode]) := by
  have hl : ∀ j, j < 2 → LinkAt Sample.epsPair j := by
    intro j hj
    refine ⟨Nat.lt_trans hj (by decide), fun i _ e he => ?_⟩
    have hm := List.mem_of_getElem? he
    simp only [Sample.epsPair, List.mem_cons, List.not_mem_nil, or_false] at hm
    rcases hm with rfl | rfl | rfl <;> simp
  exact ⟨by unfold ConfigOk; decide, by simp [Peer, Sample.epsPair], hl 0 (by decide), hl 1 (by decide), by decide +kernel⟩

/-- The receiving side: copies on both links, one delivery to the ground station, nothing sent back. -/
example : ∃ w as, runRouter Sample.envDedup (start Sample.epsPair (fun _ => 0))
      [.read 0 (.got Sample.hb2.encode), .read 1 (.got Sample.hb2.encode)] = some (w, as) ∧
    Copies Sample.envDedup (fun n => 60 * n) w.eps as Sample.hb2.encode ∧
    (writesTo 2 (start Sample.epsPair (fun _ => 0)) w).length = 1 ∧
    (∀ j < 2, (writesTo j (start Sample.epsPair (fun _ => 0)) w).length = 0) := by
  have h : ((runRouter Sample.envDedup (start Sample.epsPair (fun _ => 0))
      [.read 0 (.got Sample.hb2.encode), .read 1 (.got Sample.hb2.encode)]).map (fun r =>
        (r.2.map (fun a => (a.ep, a.msg.data)), r.1.eps.map Ep.filters,
         (List.range 3).map (fun j => (writesTo j (start Sample.epsPair (fun _ => 0)) r.1).length)))) =
      some ([(0, Sample.hb2.encode), (1, Sample.hb2.encode)], [{}, {}, {}], [0, 0, 1]) := by decide +kernel
  cases hr : runRouter Sample.envDedup (start Sample.epsPair (fun _ => 0))
      [.read 0 (.got Sample.hb2.encode), .read 1 (.got Sample.hb2.encode)] with
  | none => rw [hr] at h; cases h
  | some r =>
    obtain ⟨w, as⟩ := r
    rw [hr] at h
    simp only [Option.map_some, Option.some.injEq, Prod.mk.injEq] at h
    obtain ⟨ha, hf, hw⟩ := h
    have hall : ∀ a ∈ as, a.msg.data = Sample.hb2.encode := by
      intro a hm
      have := List.mem_map_of_mem (f := fun a : Arrival => (a.ep, a.msg.data)) hm
      rw [ha] at this
      simp only [List.mem_cons, List.not_mem_nil, or_false, Prod.mk.injEq] at this
      rcases this with h | h <;> exact h.2
    have hlen : as.length = 2 := by simpa using congrArg List.length ha
    have hw' : ∀ j, j < 3 → (writesTo j (start Sample.epsPair (fun _ => 0)) w).length = [0, 0, 1].getD j 0 := by
      intro j hj
      have := congrArg (fun l => l[j]?) hw
      simp only [List.getElem?_map, List.getElem?_range hj, Option.map_some] at this
      rcases j with _ | _ | _ | j
      · simpa using this
      · simpa using this
      · simpa using this
      · omega
    refine ⟨w, as, rfl, ⟨?_, fun a ha _ => hall a ha, ?_, ?_⟩, hw' 2 (by omega), ?_⟩
    · have hl : 0 < as.length := by omega
      exact ⟨as[0], List.getElem_mem _, hall _ (List.getElem_mem _)⟩
    · intro j k a b hj hk _ _
      have : k < 2 := hlen ▸ (List.getElem?_eq_some_iff.mp hk).1
      show 60 * k ≤ 60 * j + 100
      omega
    · intro a _ _ e he
      have : e.filters = {} := by
        have := List.mem_map_of_mem (f := Ep.filters) (List.mem_of_getElem? he)
        rw [hf] at this
        simpa using this
      rw [this]
      simp [inOk, passes]
    · intro j hj
      rw [hw' j (by omega)]
      rcases j with _ | _ | j
      · rfl
      · rfl
      · omega

end Verif
