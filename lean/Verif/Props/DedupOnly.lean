import Verif.Spec.DedupOnly
import Verif.Props.Restart
import Verif.Props.OutOnly

/- Property C140: de-duplication takes repeats away and does nothing else. -/

namespace Verif
open Spec

variable {σ : Type}

theorem zip_at {as as' : List Arrival} (hz : as'.map (fun a => (a.ep, a.msg)) = as.map (fun a => (a.ep, a.msg))) {k : Nat} {a : Arrival}
    (ha : as[k]? = some a) : ∃ a', as'[k]? = some a' ∧ a'.ep = a.ep ∧ a'.msg = a.msg := by
  have := congrArg (fun l => l[k]?) hz
  simp only [List.getElem?_map, ha, Option.map_some] at this
  cases h : as'[k]? with
  | none => rw [h] at this; cases this
  | some a' =>
    rw [h] at this
    simp only [Option.map_some, Option.some.injEq, Prod.mk.injEq] at this
    exact ⟨a', rfl, this⟩

theorem seen_dedup {eps : List Ep} {as as' : List Arrival}
    (hz : as'.map (fun a => (a.ep, a.msg)) = as.map (fun a => (a.ep, a.msg)))
    (hle : ∀ (k : Nat) a a', as[k]? = some a → as'[k]? = some a' → a'.passed = true → a.passed = true)
    (hk : RepeatsKnown eps as as') (n j s c : Nat) : SeenAt eps (as'.take n) j s c ↔ SeenAt eps (as.take n) j s c := by
  unfold SeenAt
  apply or_congr Iff.rfl
  have mem : ∀ {l : List Arrival} {a : Arrival}, a ∈ l.take n → ∃ k, k < n ∧ l[k]? = some a := by
    intro l a ha
    obtain ⟨k, hx⟩ := List.getElem?_of_mem ha
    rw [List.getElem?_take] at hx
    split at hx
    · exact ⟨k, by assumption, hx⟩
    · cases hx
  have mem' : ∀ {l : List Arrival} {a : Arrival} {k m : Nat}, k < m → l[k]? = some a → a ∈ l.take m := by
    intro l a k m hlt hx
    refine List.mem_of_getElem? (i := k) ?_
    rw [List.getElem?_take, if_pos hlt]
    exact hx
  constructor
  · rintro ⟨a', ha', hp, h1, h2, h3⟩
    obtain ⟨k, hlt, hx⟩ := mem ha'
    obtain ⟨a, ha, e1, e2⟩ := zip_at hz.symm hx
    exact ⟨a, mem' hlt ha, hle k a a' ha hx hp, by rw [e2]; exact h1, by rw [e2]; exact h2, by rw [e1]; exact h3⟩
  · rintro ⟨a, ha, hp, h1, h2, h3⟩
    obtain ⟨k, hlt, hx⟩ := mem ha
    obtain ⟨a', ha', e1, e2⟩ := zip_at hz hx
    cases hp' : a'.passed with
    | true => exact ⟨a', mem' hlt ha', hp', by rw [e2]; exact h1, by rw [e2]; exact h2, by rw [e1]; exact h3⟩
    | false =>
      obtain ⟨b, hb, g1, g2, g3, g4⟩ := hk k a a' hx ha' hp hp'
      obtain ⟨i, hi⟩ := List.getElem?_of_mem hb
      rw [List.getElem?_take] at hi
      split at hi
      · rename_i hik
        exact ⟨b, mem' (Nat.lt_trans hik hlt) hi, g1, by rw [g2]; exact h1, by rw [g3]; exact h2, peer_trans g4 h3⟩
      · cases hi

theorem expected_dedup {eps : List Ep} (sn j : Nat) {as as' : List Arrival}
    (hz : as'.map (fun a => (a.ep, a.msg)) = as.map (fun a => (a.ep, a.msg)))
    (hle : ∀ (k : Nat) a a', as[k]? = some a → as'[k]? = some a' → a'.passed = true → a.passed = true)
    (hk : RepeatsKnown eps as as') : ∀ (xs xs' past past' : List Arrival), as = past ++ xs → as' = past' ++ xs' →
    past.length = past'.length →
    ∃ ps : List (Arrival × Arrival), ps.Sublist (xs.zip xs') ∧ expected sn eps j past xs = ps.map Prod.fst ∧
      expected sn eps j past' xs' = (ps.filter (fun p => p.2.passed)).map Prod.snd
  | [], xs', past, past', h, h', hl => by
    have : xs' = [] := by
      have := congrArg List.length hz
      simp only [List.length_map, h, h', List.length_append, List.length_nil] at this
      exact List.length_eq_zero_iff.mp (by omega)
    subst this
    exact ⟨[], List.Sublist.refl _, rfl, rfl⟩
  | x :: xs, xs', past, past', h, h', hl => by
    have hx : as[past.length]? = some x := by rw [h]; simp
    obtain ⟨x', hx', e1, e2⟩ := zip_at hz hx
    cases xs' with
    | nil => rw [h', hl] at hx'; simp at hx'
    | cons y xs' =>
      have : y = x' := by rw [h', hl] at hx'; simpa using hx'
      subst this
      obtain ⟨ps, p1, p2, p3⟩ := expected_dedup sn j hz hle hk xs xs' (past ++ [x]) (past' ++ [y]) (by rw [h]; simp) (by rw [h']; simp)
        (by simp [hl])
      have t1 : as.take (past.length + 1) = past ++ [x] := by
        rw [h, show past ++ x :: xs = (past ++ [x]) ++ xs by simp, List.take_left' (by simp)]
      have t2 : as'.take (past.length + 1) = past' ++ [y] := by
        rw [h', hl, show past' ++ y :: xs' = (past' ++ [y]) ++ xs' by simp, List.take_left' (by simp)]
      have hs := fun s c => seen_dedup hz hle hk (past.length + 1) j s c
      rw [t1, t2] at hs
      have hw : Wanted sn eps j (past' ++ [y]) y.msg ↔ Wanted sn eps j (past ++ [x]) x.msg := by
        simp only [Wanted, hs, e2]
      simp only [expected, p2, p3, List.zip_cons_cons]
      by_cases hc : x.passed = true ∧ Wanted sn eps j (past ++ [x]) x.msg
      · refine ⟨(x, y) :: ps, p1.cons_cons _, by rw [if_pos hc]; rfl, ?_⟩
        cases hy : y.passed with
        | true =>
          rw [if_pos ⟨rfl, hw.mpr hc.2⟩, List.filter_cons_of_pos (by simpa using hy)]
          rfl
        | false => rw [if_neg (by simp), List.filter_cons_of_neg (by simp [hy])]; rfl
      · refine ⟨ps, p1.cons _, by rw [if_neg hc]; rfl, ?_⟩
        rw [if_neg (fun z => hc ⟨hle _ _ _ hx hx' z.1, hw.mp z.2⟩)]
        rfl

/-- **C140** (partial): two routers with the same configuration, one (`env`) without and one (`env'`) with de-duplication, in which the same
things happen, receive the same messages. If whoever sent a dropped repeat had been let in before on the same link or a link of its
group, every configured link is handed with de-duplication, of what it is handed without, exactly the messages that are not dropped, in
the same order and byte for byte. Missing: senders that are heard on a link through repeats only (`C140_violated`). -/
theorem C140_only_repeats_partial (env env' : Env σ) (ht : TableOk env.tbl) (htb : env'.tbl = env.tbl) (hsn : env'.sniffer = env.sniffer)
    (hp : env.dedupPeriod = 0) (eps : List Ep) (hc : ConfigOk eps) (logs logs' : Nat → σ) (evs : List RouterEv)
    (w w' : World σ) (as as' : List Arrival)
    (h : runRouter env (start eps logs) evs = some (w, as)) (h' : runRouter env' (start eps logs') evs = some (w', as')) :
    as'.map (fun a => (a.ep, a.msg)) = as.map (fun a => (a.ep, a.msg)) ∧
    (RepeatsKnown eps as as' → ∀ j, LinkAt eps j → (∀ gone, RouterEv.hangups gone ∈ evs → j ∉ gone) →
      ∃ ps : List (Arrival × Arrival), ps.Sublist (as.zip as') ∧
        (writesTo j (start eps logs) w).map Sent.bytes = ps.map (fun p => p.1.msg.data) ∧
        (writesTo j (start eps logs') w').map Sent.bytes = (ps.filter (fun p => p.2.passed)).map (fun p => p.1.msg.data)) := by
  have ht' : TableOk env'.tbl := by rw [htb]; exact ht
  obtain ⟨_, hz⟩ := runRouter_doors env env' htb evs (start_inv eps hc logs) (start_inv eps hc logs') rfl h h'
  refine ⟨hz, fun hk j hl hgone => ?_⟩
  have hle : ∀ (k : Nat) a a', as[k]? = some a → as'[k]? = some a' → a'.passed = true → a.passed = true := by
    intro k a a' ha ha' hpas
    obtain ⟨x, hx, e1, e2⟩ := zip_at hz ha
    rw [ha'] at hx; cases hx
    have := passed_in env' ht' eps hc logs' evs w' as' h' a' (List.mem_of_getElem? ha') hpas
    rw [e1, e2] at this
    exact (passed_filters env ht hp eps hc logs evs w as h a (List.mem_of_getElem? ha)).mpr this
  have e1 := C88_links env ht eps hc logs [] evs _ w [] as rfl h j hl (List.mem_range.mpr hl.1) hgone
  have e2 := C88_links env' ht' eps hc logs' [] evs _ w' [] as' rfl h' j hl (List.mem_range.mpr hl.1) hgone
  obtain ⟨ps, p1, p2, p3⟩ := expected_dedup env.sniffer.toNat j hz hle hk as as' [] [] rfl rfl rfl
  rw [hsn] at e2
  rw [p2] at e1
  rw [p3] at e2
  refine ⟨ps, p1, by rw [e1, List.map_map]; rfl, ?_⟩
  rw [e2, List.map_map]
  apply List.map_congr_left
  intro p hmem
  have hmem' : p ∈ as.zip as' := p1.subset (List.mem_filter.mp hmem).1
  obtain ⟨k, hk'⟩ := List.getElem?_of_mem hmem'
  rw [List.getElem?_zip_eq_some] at hk'
  obtain ⟨x, hx, _, e⟩ := zip_at hz hk'.1
  rw [hk'.2] at hx; cases hx
  simp only [Function.comp_apply, e]

/-- **C140** (partial) with a sane clock, if all ways into the router that carry the same packets are grouped and no two packets have the same
hash: every configured link is handed with de-duplication, of what it is handed without, exactly the messages that are not dropped; and what
is dropped repeats a packet passed on at most `P` ms before. Missing: copies over links that are not grouped (`C140_violated`), colliding
packets. -/
theorem C140_grouped_partial (env env' : Env σ) (ht : TableOk env.tbl) (htb : env'.tbl = env.tbl) (hsn : env'.sniffer = env.sniffer)
    (hp : env.dedupPeriod = 0) (hp' : env'.dedupPeriod ≠ 0) (time : Nat → Nat) (hclk : ∀ k, env'.clock k = time k)
    (hmono : ∀ a b, a ≤ b → time a ≤ time b) (eps : List Ep) (hc : ConfigOk eps) (logs logs' : Nat → σ) (evs : List RouterEv)
    (w w' : World σ) (as as' : List Arrival)
    (h : runRouter env (start eps logs) evs = some (w, as)) (h' : runRouter env' (start eps logs') evs = some (w', as'))
    (hrange : ∀ k < as'.length, time k + env'.dedupPeriod.toNat < 4294967296) (hg : CopiesGrouped env'.hashFn eps as) :
    (∀ j, LinkAt eps j → (∀ gone, RouterEv.hangups gone ∈ evs → j ∉ gone) →
      ∃ ps : List (Arrival × Arrival), ps.Sublist (as.zip as') ∧
        (writesTo j (start eps logs) w).map Sent.bytes = ps.map (fun p => p.1.msg.data) ∧
        (writesTo j (start eps logs') w').map Sent.bytes = (ps.filter (fun p => p.2.passed)).map (fun p => p.1.msg.data)) ∧
    ∀ (k : Nat) a a', as[k]? = some a → as'[k]? = some a' → a.passed = true → a'.passed = false →
      ∃ (i : Nat) (b : Arrival), i < k ∧ as'[i]? = some b ∧ b.passed = true ∧ env'.hashFn b.msg.data = env'.hashFn a.msg.data ∧
        time k ≤ time i + env'.dedupPeriod.toNat := by
  have ht' : TableOk env'.tbl := by rw [htb]; exact ht
  obtain ⟨hz, hmain⟩ := C140_only_repeats_partial env env' ht htb hsn hp eps hc logs logs' evs w w' as as' h h'
  have key : ∀ (k : Nat) a a', as[k]? = some a → as'[k]? = some a' → a.passed = true → a'.passed = false →
      ∃ (i : Nat) (b : Arrival), i < k ∧ as'[i]? = some b ∧ b.passed = true ∧ env'.hashFn b.msg.data = env'.hashFn a.msg.data ∧
        time k ≤ time i + env'.dedupPeriod.toNat := by
    intro k a a' ha ha' hpas hnot
    obtain ⟨x, hx, e1, e2⟩ := zip_at hz ha
    rw [ha'] at hx; cases hx
    have hin := (passed_filters env ht hp eps hc logs evs w as h a (List.mem_of_getElem? ha)).mp hpas
    obtain ⟨_, bs, _, hv⟩ := runRouter_dedup env' evs _ (start_inv eps hc logs') h'
    obtain ⟨e, _, he, _, _⟩ := hv.get k a' ha'
    have hf := filters_start env' eps hc logs' evs w' as' h' _ e he
    obtain ⟨i, b, e', h1, h2, h3, h4, h5, h6⟩ := C83_copy_passed_partial env' ht' hp' time hclk hmono eps hc logs' evs w' as' h' hrange
      k a' ha' e he (by rw [hf, e1, e2]; exact hin) hnot
    obtain ⟨y, hy, f1, f2⟩ := zip_at hz.symm h2
    rw [e2] at h4
    have hy4 : env'.hashFn y.msg.data = env'.hashFn a.msg.data := by rw [f2]; exact h4
    have hb := (hg a (List.mem_of_getElem? ha) y (List.mem_of_getElem? hy) hy4).2.2.2 hin
    rw [f1, f2] at hb
    refine ⟨i, b, h1, h2, h6.mpr ?_, h4, h5⟩
    rw [filters_start env' eps hc logs' evs w' as' h' _ e' h3]
    exact hb
  refine ⟨hmain ?_, key⟩
  intro k a a' ha ha' hpas hnot
  obtain ⟨i, b, h1, h2, h3, h4, _⟩ := key k a a' ha ha' hpas hnot
  obtain ⟨y, hy, f1, f2⟩ := zip_at hz.symm h2
  have hy4 : env'.hashFn y.msg.data = env'.hashFn a.msg.data := by rw [f2]; exact h4
  obtain ⟨g1, g2, g3, _⟩ := hg a (List.mem_of_getElem? ha) y (List.mem_of_getElem? hy) hy4
  refine ⟨b, List.mem_of_getElem? (i := i) ?_, h3, by rw [← f2]; exact g1, by rw [← f2]; exact g2, by rw [← f1]; exact g3⟩
  rw [List.getElem?_take, if_pos h1]
  exact h2

namespace Sample

/-- Two links to one vehicle, not grouped, and a ground station; and the same with the two links grouped. -/
def epsTwo : List Ep := [{ kind := .uart }, { kind := .udp }, { kind := .udp }]
def epsTwoGrouped : List Ep := [{ kind := .uart, group := "v" }, { kind := .udp, group := "v" }, { kind := .udp }]

/-- Another message of 1/1. -/
def unk11 : Frame := { unk with sys := 1, comp := 1 }

/-- A heartbeat of 1/1 on both links, a command of the ground station to 1/1, another message of 1/1 on both links. -/
def twoEvs : List RouterEv := [.read 0 (.got hb2.encode), .read 1 (.got hb2.encode), .read 2 (.got cmdTo1.encode),
  .read 0 (.got unk11.encode), .read 1 (.got unk11.encode)]

/-- Who is handed what. -/
def handed (env : Env Nat) (eps : List Ep) (evs : List RouterEv) : Option (List Bool × List (Nat × List UInt8)) :=
  (runRouter env (start eps (fun _ => 0)) evs).map (fun r => (r.2.map Arrival.passed, r.1.out.map (fun o => (o.ep, o.bytes))))

end Sample

theorem Sample.epsTwoGrouped_ok : ConfigOk Sample.epsTwoGrouped := by
  intro e he
  simp only [Sample.epsTwoGrouped, List.mem_cons, List.not_mem_nil, or_false] at he
  rcases he with rfl | rfl | rfl <;> simp

/-- C140 is false: a vehicle is connected over two links that are not grouped. With de-duplication (period 100 ms) the second link never learns the
vehicle, all it brings being repeats: so the command of the ground station is no longer sent on the second link, and what the vehicle sends on the
first link is sent back to it on the second, which does not happen without de-duplication. -/
theorem C140_violated :
    Sample.handed Sample.envQuiet Sample.epsTwo Sample.twoEvs = some ([true, true, true, true, true],
      [(1, Sample.hb2.encode), (2, Sample.hb2.encode), (2, Sample.hb2.encode), (0, Sample.cmdTo1.encode), (1, Sample.cmdTo1.encode),
       (2, Sample.unk11.encode), (2, Sample.unk11.encode)]) ∧
    Sample.handed Sample.envDedup Sample.epsTwo Sample.twoEvs = some ([true, false, true, true, false],
      [(1, Sample.hb2.encode), (2, Sample.hb2.encode), (0, Sample.cmdTo1.encode),
       (1, Sample.unk11.encode), (2, Sample.unk11.encode)]) := by
  constructor <;> decide +kernel

/-- With the links grouped only repeats are taken away. -/
example : TableOk Sample.envQuiet.tbl ∧ Sample.envQuiet.dedupPeriod = 0 ∧ Sample.envDedup.dedupPeriod ≠ 0 ∧
    Sample.envDedup.tbl = Sample.envQuiet.tbl ∧ Sample.envDedup.sniffer = Sample.envQuiet.sniffer ∧
    (∀ k, Sample.envDedup.clock k = ((60 * k : Nat) : Int)) ∧ ConfigOk Sample.epsTwoGrouped ∧
    Sample.handed Sample.envQuiet Sample.epsTwoGrouped Sample.twoEvs = some ([true, true, true, true, true],
      [(2, Sample.hb2.encode), (2, Sample.hb2.encode), (0, Sample.cmdTo1.encode), (1, Sample.cmdTo1.encode),
       (2, Sample.unk11.encode), (2, Sample.unk11.encode)]) ∧
    Sample.handed Sample.envDedup Sample.epsTwoGrouped Sample.twoEvs = some ([true, false, true, true, false],
      [(2, Sample.hb2.encode), (0, Sample.cmdTo1.encode), (1, Sample.cmdTo1.encode), (2, Sample.unk11.encode)]) :=
  ⟨Sample.tbl_ok, rfl, by decide, rfl, rfl, fun _ => rfl, Sample.epsTwoGrouped_ok, by decide +kernel, by decide +kernel⟩

/-- The hypotheses on the arrivals hold there: the copies come over links of one group, from one sender. -/
example : (runRouter Sample.envQuiet (start Sample.epsTwoGrouped (fun _ => 0)) Sample.twoEvs).map
      (fun r => r.2.map (fun a => (a.ep, a.msg.srcSys, a.msg.srcComp, Sample.envDedup.hashFn a.msg.data))) =
      some [(0, 1, 1, Sample.envDedup.hashFn Sample.hb2.encode), (1, 1, 1, Sample.envDedup.hashFn Sample.hb2.encode),
       (2, 42, 200, Sample.envDedup.hashFn Sample.cmdTo1.encode), (0, 1, 1, Sample.envDedup.hashFn Sample.unk11.encode),
       (1, 1, 1, Sample.envDedup.hashFn Sample.unk11.encode)] ∧
    [Sample.envDedup.hashFn Sample.hb2.encode, Sample.envDedup.hashFn Sample.cmdTo1.encode,
      Sample.envDedup.hashFn Sample.unk11.encode].Nodup ∧ Peer Sample.epsTwoGrouped 0 1 := by
  refine ⟨by decide +kernel, by decide +kernel, ?_⟩
  exact .inr ⟨{ kind := .uart, group := "v" }, { kind := .udp, group := "v" }, rfl, rfl, by decide, rfl⟩

end Verif
