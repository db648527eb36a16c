/-
C22 and C83: what de-duplication means for the messages the router passes on.
-/
import Verif.Props.Dedup
import Verif.Props.Routing

namespace Verif

open Verif.Spec

variable {σ : Type}

/-- The packets of a list of arrivals with the readings of the de-duplication clock from number `n` on. -/
def Spec.timed (clock : Nat → Int) : Nat → List Arrival → List (Int × List UInt8)
  | _, [] => []
  | n, a :: as => (clock n, a.msg.data) :: Spec.timed clock (n + 1) as

/-- The verdicts of de-duplication and the messages passed on: a message is passed on iff its packet is new and
the incoming filters of the endpoint admit it. -/
inductive Verdicts (eps : List Ep) : List Arrival → List Bool → Prop
  | nil : Verdicts eps [] []
  | cons {a as b bs e} : eps[a.ep]? = some e → (a.passed = true ↔ b = true ∧ allowedIn e.filters a.msg = true) →
      Verdicts eps as bs → Verdicts eps (a :: as) (b :: bs)

theorem Verdicts.ext {eps eps' : List Ep} (x : Ext eps eps') : ∀ {as bs}, Verdicts eps as bs → Verdicts eps' as bs := by
  intro as bs h
  induction h with
  | nil => exact .nil
  | cons he hp _ ih =>
    obtain ⟨e', h1, _, _, h4, _⟩ := x.each _ _ he
    exact .cons h1 (by rw [h4]; exact hp) ih

theorem Verdicts.append {eps : List Ep} : ∀ {as bs as' bs'}, Verdicts eps as bs → Verdicts eps as' bs' →
    Verdicts eps (as ++ as') (bs ++ bs') := by
  intro as bs as' bs' h h'
  induction h with
  | nil => exact h'
  | cons he hp _ ih => exact .cons he hp ih

theorem timed_append (clock : Nat → Int) : ∀ (as bs : List Arrival) (n : Nat),
    timed clock n (as ++ bs) = timed clock n as ++ timed clock (n + as.length) bs := by
  intro as
  induction as with
  | nil => intro bs n; rfl
  | cons a as ih =>
    intro bs n
    simp only [List.cons_append, timed, ih, List.length_cons]
    rw [show n + 1 + as.length = n + (as.length + 1) by omega]

theorem Dedup.run_append (hashFn : List UInt8 → UInt64) (period : UInt32) : ∀ (xs ys : List (Int × List UInt8))
    (d d' d'' : Dedup) (bs cs : List Bool), d.run hashFn period xs = some (d', bs) →
    d'.run hashFn period ys = some (d'', cs) → d.run hashFn period (xs ++ ys) = some (d'', bs ++ cs) := by
  intro xs
  induction xs with
  | nil => intro ys d d' d'' bs cs h h'; cases h; exact h'
  | cons x xs ih =>
    intro ys d d' d'' bs cs h h'
    obtain ⟨t, pkt⟩ := x
    simp only [List.cons_append, Dedup.run] at h ⊢
    cases hc : d.check hashFn period t pkt with
    | none => rw [hc] at h; cases h
    | some r =>
      obtain ⟨d1, b⟩ := r
      simp only [hc] at h ⊢
      cases hr : d1.run hashFn period xs with
      | none => rw [hr] at h; cases h
      | some r2 =>
        obtain ⟨d2, bs2⟩ := r2
        simp only [hr] at h
        cases h
        rw [ih ys d1 _ _ _ _ hr h']
        rfl

/-- What a part of the history does to the memory of de-duplication. -/
def DedupStep (env : Env σ) (w w' : World σ) (as : List Arrival) : Prop :=
  w'.checks = w.checks + as.length ∧
  ∃ bs, w.dedup.run env.hashFn env.dedupPeriod (timed env.clock w.checks as) = some (w'.dedup, bs) ∧
    Verdicts w'.eps as bs

theorem DedupStep.trans {env : Env σ} {w w' w'' : World σ} {as bs} (h : DedupStep env w w' as)
    (x : Ext w'.eps w''.eps) (h' : DedupStep env w' w'' bs) : DedupStep env w w'' (as ++ bs) := by
  obtain ⟨a1, a2, a3, a4⟩ := h
  obtain ⟨b1, b2, b3, b4⟩ := h'
  refine ⟨by rw [b1, a1, List.length_append]; omega, a2 ++ b2, ?_, (a4.ext x).append b4⟩
  rw [timed_append, ← a1]
  exact Dedup.run_append _ _ _ _ _ _ _ _ _ a3 b3

theorem runMsgs_dedup (env : Env σ) (i : Nat) : ∀ (ms : List Msg) (w : World σ), RouterInv w → i < w.eps.length →
    ∀ {w' as}, runMsgs env i w ms = some (w', as) → DedupStep env w w' as := by
  intro ms
  induction ms with
  | nil => intro w _ _ w' as h; cases h; exact ⟨rfl, [], rfl, .nil⟩
  | cons m ms ih =>
    intro w hw hi w' as h
    unfold runMsgs at h
    obtain ⟨w1, b, h1, hinv, hh, _, _, _, hiff⟩ := handleMsg_spec env w hw i m
    simp only [h1] at h
    cases h2 : runMsgs env i w1 ms with
    | none => rw [h2] at h; cases h
    | some r2 =>
      obtain ⟨w2, bs⟩ := r2
      simp only [h2] at h
      cases h
      have k := ih w1 hinv (Nat.lt_of_lt_of_le hi hh.1.len) h2
      obtain ⟨w2', as2, g1, _, g3, _⟩ := runMsgs_spec env i ms w1 hinv
      rw [h2] at g1
      cases g1
      have he : w.eps[i]? = some w.eps[i] := List.getElem?_eq_getElem hi
      obtain ⟨d, isNew, hd, _⟩ := Dedup.check_inv env.hashFn w.dedup hw.dedup env.dedupPeriod (env.clock w.checks) m.data
      have hst : w1.checks = w.checks + 1 ∧ w1.dedup = d := by
        unfold handleMsg at h1
        rw [he] at h1
        simp only [hd] at h1
        split at h1
        · cases h1; exact ⟨rfl, rfl⟩
        · split at h1
          · cases h1; exact ⟨rfl, rfl⟩
          · split at h1
            · cases h1
            · rename_i eps _
              cases h1
              obtain ⟨new, hk, _⟩ := routeMsg_spec env 1 { w with eps := eps, dedup := d, checks := w.checks + 1 } m
              exact ⟨hk.checks, hk.dedup⟩
      obtain ⟨e1, f1, _, _, f4, _⟩ := hh.1.each i _ he
      have one : DedupStep env w w1 [{ ep := i, msg := m, passed := b }] := by
        refine ⟨hst.1, [isNew], ?_, .cons f1 ?_ .nil⟩
        · simp only [timed, Dedup.run, hd, hst.2]
        · rw [hiff, f4]
          constructor
          · rintro ⟨e, d', q1, q2, q3⟩
            rw [he] at q1
            rw [hd] at q2
            cases q1
            cases q2
            exact ⟨rfl, q3⟩
          · rintro ⟨q1, q2⟩
            subst q1
            exact ⟨_, d, he, hd, q2⟩
      exact one.trans g3.1 k

theorem DedupStep.quiet {env : Env σ} {w w' : World σ} (h1 : w'.checks = w.checks) (h2 : w'.dedup = w.dedup) :
    DedupStep env w w' [] := ⟨h1, [], by rw [h2]; rfl, .nil⟩

theorem routerStep_dedup (env : Env σ) (w w' : World σ) (hw : RouterInv w) (ev : RouterEv) (as : List Arrival)
    (h : routerStep env w ev = some (w', as)) : DedupStep env w w' as := by
  cases ev with
  | read i io =>
    simp only [routerStep, handleRead] at h
    cases he : w.eps[i]? with
    | none => rw [he] at h; cases h; exact .quiet rfl rfl
    | some e =>
      simp only [he] at h
      obtain ⟨hi, _⟩ := set_inv hw
        (e' := { e with rx := (drain env.tbl e.fdOpen (rxBufMax + 1) e.rx io).1 }) he rfl rfl rfl rfl rfl
      exact runMsgs_dedup env i _ _ hi (by simpa using (List.getElem?_eq_some_iff.mp he).1) h
  | accept => cases h; exact .quiet rfl rfl
  | hangups gone => cases h; exact .quiet rfl rfl
  | fd i o =>
    simp only [routerStep] at h
    cases he : w.eps[i]? with
    | none => rw [he] at h; cases h; exact .quiet rfl rfl
    | some e => rw [he] at h; cases h; exact .quiet rfl rfl
  | logCall i c =>
    cases h
    obtain ⟨new, hk, _⟩ := logCall_kept env w i c
    exact .quiet hk.checks hk.dedup
  | aggregate =>
    cases h
    unfold aggregate
    split <;> exact .quiet rfl rfl

theorem runRouter_dedup (env : Env σ) : ∀ (evs : List RouterEv) (w : World σ), RouterInv w → ∀ {w' as},
    runRouter env w evs = some (w', as) → DedupStep env w w' as := by
  intro evs
  induction evs with
  | nil => intro w _ w' as h; cases h; exact .quiet rfl rfl
  | cons ev evs ih =>
    intro w hw w' as h
    unfold runRouter at h
    cases h1 : routerStep env w ev with
    | none => rw [h1] at h; cases h
    | some r =>
      obtain ⟨w1, as1⟩ := r
      simp only [h1] at h
      cases h2 : runRouter env w1 evs with
      | none => rw [h2] at h; cases h
      | some r2 =>
        obtain ⟨w2, bs⟩ := r2
        simp only [h2] at h
        cases h
        obtain ⟨w1', as1', s1, s2, _⟩ := routerStep_spec env w hw ev
        rw [h1] at s1
        cases s1
        obtain ⟨w2', bs', t1, _, t3⟩ := runRouter_spec env evs w1 s2
        rw [h2] at t1
        cases t1
        exact (routerStep_dedup env w w1 hw ev as1 h1).trans t3.1 (ih w1 s2 h2)

theorem Verdicts.get {eps : List Ep} : ∀ {as bs}, Verdicts eps as bs → ∀ (k : Nat) (a : Arrival), as[k]? = some a →
    ∃ e b, eps[a.ep]? = some e ∧ bs[k]? = some b ∧
      (a.passed = true ↔ b = true ∧ allowedIn e.filters a.msg = true) := by
  intro as bs h
  induction h with
  | nil => intro k a hk; simp at hk
  | @cons a as b bs e he hp _ ih =>
    intro k x hk
    cases k with
    | zero => cases hk; exact ⟨e, b, he, rfl, hp⟩
    | succ k => exact ih k x hk

theorem allowedIn_iff (f : Filters) (m : Msg) (hm : MsgOk m) : allowedIn f m = true ↔ inOk f m := by
  have hid : (m.msgId != uint32Max) = true := by have := hm.id; simp [uint32Max]; omega
  unfold allowedIn inOk
  rw [hid]
  simp only [Bool.true_and, Bool.not_eq_true', Bool.or_eq_false_iff, filterDrops_iff, and_assoc]

theorem runRouter_msgOk (env : Env σ) (ht : TableOk env.tbl) : ∀ (evs : List RouterEv) (w : World σ),
    Reached env w → ∀ {w' as}, runRouter env w evs = some (w', as) → ∀ a ∈ as, MsgOk a.msg := by
  intro evs
  induction evs with
  | nil => intro w _ w' as h; cases h; simp
  | cons ev evs ih =>
    intro w hw w' as h
    unfold runRouter at h
    cases h1 : routerStep env w ev with
    | none => rw [h1] at h; cases h
    | some r =>
      obtain ⟨w1, as1⟩ := r
      simp only [h1] at h
      cases h2 : runRouter env w1 evs with
      | none => rw [h2] at h; cases h
      | some r2 =>
        obtain ⟨w2, bs⟩ := r2
        simp only [h2] at h
        cases h
        intro a ha
        rcases List.mem_append.mp ha with ha | ha
        · exact arrivals_msgOk env ht w w1 hw ev as1 h1 a ha
        · exact ih w1 (.event hw h1) h2 a ha

/-- The packets of the arrivals with their times, counted from the first one. -/
def Spec.arrivalTimes (time : Nat → Nat) : Nat → List Arrival → List (Nat × List UInt8)
  | _, [] => []
  | n, a :: as => (time n, a.msg.data) :: Spec.arrivalTimes time (n + 1) as

theorem timed_eq (clock : Nat → Int) (time : Nat → Nat) (hc : ∀ k, clock k = time k) : ∀ (as : List Arrival) (n : Nat),
    timed clock n as = (arrivalTimes time n as).map (fun e => ((e.1 : Int), e.2)) := by
  intro as
  induction as with
  | nil => intro n; rfl
  | cons a as ih => intro n; simp only [timed, arrivalTimes, List.map_cons, ih, hc]

theorem arrivalTimes_mem {time : Nat → Nat} : ∀ {as : List Arrival} {n : Nat} {x}, x ∈ arrivalTimes time n as →
    ∃ k, n ≤ k ∧ k < n + as.length ∧ x.1 = time k := by
  intro as
  induction as with
  | nil => intro n x h; cases h
  | cons a as ih =>
    intro n x h
    rcases List.mem_cons.mp h with rfl | h
    · exact ⟨n, Nat.le_refl _, by simp, rfl⟩
    · obtain ⟨k, h1, h2, h3⟩ := ih h
      exact ⟨k, by omega, by simp only [List.length_cons]; omega, h3⟩

theorem arrivalTimes_mono {time : Nat → Nat} (hm : ∀ a b, a ≤ b → time a ≤ time b) : ∀ (as : List Arrival) (n : Nat),
    (arrivalTimes time n as).Pairwise (fun a b => a.1 ≤ b.1) := by
  intro as
  induction as with
  | nil => intro n; exact .nil
  | cons a as ih =>
    intro n
    refine .cons ?_ (ih _)
    intro x hx
    obtain ⟨k, h1, _, h3⟩ := arrivalTimes_mem hx
    rw [h3]
    exact hm _ _ (by omega)

/-- **C22** (in the router): for every history from the start, with a clock that does not go backwards nor exceed
the 32-bit range, the `k`-th received message is passed on iff the rule of de-duplication lets its packet pass
and the incoming filters of the endpoint it arrived on admit it. The packets of all endpoints go into
one memory. -/
theorem C22_router (env : Env σ) (ht : TableOk env.tbl) (hp : env.dedupPeriod ≠ 0) (time : Nat → Nat)
    (hc : ∀ k, env.clock k = time k) (hmono : ∀ a b, a ≤ b → time a ≤ time b)
    (eps : List Ep) (hcfg : ConfigOk eps) (logs : Nat → σ) (evs : List RouterEv) (w : World σ) (as : List Arrival)
    (h : runRouter env (start eps logs) evs = some (w, as))
    (hrange : ∀ k < as.length, time k + env.dedupPeriod.toNat < 4294967296)
    (k : Nat) (a : Arrival) (ha : as[k]? = some a) :
    ∃ e, w.eps[a.ep]? = some e ∧
      (a.passed = true ↔
        (dedupPass env.hashFn env.dedupPeriod.toNat [] (arrivalTimes time 0 as))[k]? = some true ∧
        inOk e.filters a.msg) := by
  obtain ⟨_, bs, hrun, hv⟩ := runRouter_dedup env evs _ (start_inv eps hcfg logs) h
  have hok := runRouter_msgOk env ht evs _ (.start hcfg) h a (List.mem_of_getElem? ha)
  obtain ⟨e, b, he, hb, hiff⟩ := hv.get k a ha
  obtain ⟨d, hd⟩ := C22_exact env.hashFn env.dedupPeriod hp (arrivalTimes time 0 as) (arrivalTimes_mono hmono as 0)
    (by
      intro x hx
      obtain ⟨j, _, h2, h3⟩ := arrivalTimes_mem hx
      rw [h3]
      exact hrange j (by omega))
  rw [← timed_eq env.clock time hc] at hd
  have hd' : Dedup.run env.hashFn env.dedupPeriod (start eps logs).dedup
      (timed env.clock (start eps logs).checks as) = _ := hd
  rw [hrun] at hd'
  cases hd'
  refine ⟨e, he, ?_⟩
  rw [hiff, hb, allowedIn_iff _ _ hok]
  simp

/-- **C22** (in the router, disabled): with period 0 only the incoming filters decide, whatever the clock does. -/
theorem C22_router_disabled (env : Env σ) (ht : TableOk env.tbl) (hp : env.dedupPeriod = 0)
    (eps : List Ep) (hcfg : ConfigOk eps) (logs : Nat → σ) (evs : List RouterEv) (w : World σ) (as : List Arrival)
    (h : runRouter env (start eps logs) evs = some (w, as)) (k : Nat) (a : Arrival) (ha : as[k]? = some a) :
    ∃ e, w.eps[a.ep]? = some e ∧ (a.passed = true ↔ inOk e.filters a.msg) := by
  obtain ⟨_, bs, hrun, hv⟩ := runRouter_dedup env evs _ (start_inv eps hcfg logs) h
  have hok := runRouter_msgOk env ht evs _ (.start hcfg) h a (List.mem_of_getElem? ha)
  obtain ⟨e, b, he, hb, hiff⟩ := hv.get k a ha
  rw [hp, C22_disabled] at hrun
  have hbs := (Prod.mk.inj (Option.some.inj hrun)).2
  subst hbs
  rw [List.getElem?_map] at hb
  have hb' : b = true := by
    cases hx : (timed env.clock (start eps logs).checks as)[k]? with
    | none => rw [hx] at hb; cases hb
    | some x => rw [hx] at hb; cases hb; rfl
  refine ⟨e, he, ?_⟩
  rw [hiff, hb', allowedIn_iff _ _ hok]
  simp

/-- A UDP link that blocks heartbeats and a TCP link that admits all; period 100 ms. -/
def Sample.epsBlock : List Ep :=
  [{ kind := .udp, filters := { blockInMsg := [0] } }, { kind := .tcp }, { kind := .udp }]

def Sample.envDedup : Env Nat := { Sample.envQuiet with dedupPeriod := 100, clock := fun n => (60 * n : Nat) }

/-- The second copy, 60 ms after the first, is dropped; the third, 120 ms after it, is passed on. -/
example : ConfigOk Sample.epsBlock ∧ TableOk Sample.envDedup.tbl ∧ Sample.envDedup.dedupPeriod ≠ 0 ∧
    (∀ k, Sample.envDedup.clock k = ((60 * k : Nat) : Int)) ∧
    (runRouter Sample.envDedup (start Sample.epsBlock (fun _ => 0))
      [.read 1 (.got Sample.hb2.encode), .read 2 (.got Sample.hb2.encode), .read 2 (.got Sample.hb2.encode)]).map
      (fun r => r.2.map (fun a => (a.ep, a.passed))) = some [(1, true), (2, false), (2, true)] := by
  refine ⟨by unfold ConfigOk; decide, ?_, by decide, fun _ => rfl, by decide +kernel⟩
  intro id e h
  have h : Sample.tbl id = some e := h
  unfold Sample.tbl at h
  split at h
  · rename_i hid; cases h; exact hid.symm
  · split at h
    · rename_i hid; cases h; exact hid.symm
    · cases h

/-! ### C83 -/

theorem dedupPass_dropped (hashFn : List UInt8 → UInt64) (P : Nat) : ∀ (es : List (Nat × List UInt8))
    (acc : List (Nat × UInt64)) (k t : Nat) (pkt : List UInt8), es[k]? = some (t, pkt) →
    (dedupPass hashFn P acc es)[k]? = some false →
    (∃ a ∈ acc, a.2 = hashFn pkt ∧ t ≤ a.1 + P) ∨
    ∃ j t' pkt', j < k ∧ es[j]? = some (t', pkt') ∧ (dedupPass hashFn P acc es)[j]? = some true ∧
      hashFn pkt' = hashFn pkt ∧ t ≤ t' + P := by
  intro es
  induction es with
  | nil => intro acc k t pkt h; simp at h
  | cons e es ih =>
    intro acc k t pkt he h
    obtain ⟨t0, p0⟩ := e
    unfold dedupPass at h ⊢
    split at h
    · rename_i hc
      cases k with
      | zero => cases he; exact .inl hc
      | succ k =>
        rw [if_pos hc]
        rcases ih acc k t pkt he h with h1 | ⟨j, t', p', h1, h2, h3, h4⟩
        · exact .inl h1
        · exact .inr ⟨j + 1, t', p', by omega, h2, h3, h4⟩
    · rename_i hc
      cases k with
      | zero => simp at h
      | succ k =>
        rw [if_neg hc]
        rcases ih _ k t pkt he h with ⟨a, ha, h1, h2⟩ | ⟨j, t', p', h1, h2, h3, h4⟩
        · rcases List.mem_cons.mp ha with rfl | ha
          · exact .inr ⟨0, t0, p0, by omega, rfl, rfl, h1, h2⟩
          · exact .inl ⟨a, ha, h1, h2⟩
        · exact .inr ⟨j + 1, t', p', by omega, h2, h3, h4⟩

theorem dedupPass_length (hashFn : List UInt8 → UInt64) (P : Nat) : ∀ (es : List (Nat × List UInt8))
    (acc : List (Nat × UInt64)), (dedupPass hashFn P acc es).length = es.length := by
  intro es
  induction es with
  | nil => intro acc; rfl
  | cons e es ih =>
    intro acc
    unfold dedupPass
    split <;> simp [ih]

theorem arrivalTimes_get (time : Nat → Nat) : ∀ (as : List Arrival) (n k : Nat),
    (arrivalTimes time n as)[k]? = (as[k]?).map (fun a => (time (n + k), a.msg.data)) := by
  intro as
  induction as with
  | nil => intro n k; rfl
  | cons a as ih =>
    intro n k
    cases k with
    | zero => rfl
    | succ k =>
      simp only [arrivalTimes, List.getElem?_cons_succ]
      rw [ih, show n + 1 + k = n + (k + 1) by omega]

/-- **C83** (partial): a message that the filters of its endpoint admit and that is not passed on is a repeat
of an earlier message at most `P` ms old (same hash) that was new, and that one was passed on unless the incoming
filters of the endpoint it arrived on stopped it. Missing: that last case (`C83_violated`). -/
theorem C83_copy_passed_partial (env : Env σ) (ht : TableOk env.tbl) (hp : env.dedupPeriod ≠ 0) (time : Nat → Nat)
    (hc : ∀ k, env.clock k = time k) (hmono : ∀ a b, a ≤ b → time a ≤ time b)
    (eps : List Ep) (hcfg : ConfigOk eps) (logs : Nat → σ) (evs : List RouterEv) (w : World σ) (as : List Arrival)
    (h : runRouter env (start eps logs) evs = some (w, as))
    (hrange : ∀ k < as.length, time k + env.dedupPeriod.toNat < 4294967296)
    (k : Nat) (a : Arrival) (ha : as[k]? = some a) (e : Ep) (he : w.eps[a.ep]? = some e) (hin : inOk e.filters a.msg)
    (hnot : a.passed = false) :
    ∃ j b e', j < k ∧ as[j]? = some b ∧ w.eps[b.ep]? = some e' ∧ env.hashFn b.msg.data = env.hashFn a.msg.data ∧
      time k ≤ time j + env.dedupPeriod.toNat ∧ (b.passed = true ↔ inOk e'.filters b.msg) := by
  obtain ⟨e0, he0, hiff⟩ := C22_router env ht hp time hc hmono eps hcfg logs evs w as h hrange k a ha
  rw [he] at he0
  cases he0
  have hlt : k < (dedupPass env.hashFn env.dedupPeriod.toNat [] (arrivalTimes time 0 as)).length := by
    rw [dedupPass_length]
    have := arrivalTimes_get time as 0 k
    rw [ha] at this
    exact (List.getElem?_eq_some_iff.mp this).1
  have hf : (dedupPass env.hashFn env.dedupPeriod.toNat [] (arrivalTimes time 0 as))[k]? = some false := by
    rw [List.getElem?_eq_getElem hlt] at hiff ⊢
    cases hb : (dedupPass env.hashFn env.dedupPeriod.toNat [] (arrivalTimes time 0 as))[k] with
    | false => rfl
    | true =>
      rw [hb] at hiff
      rw [hiff.mpr ⟨rfl, hin⟩] at hnot
      cases hnot
  have hk := arrivalTimes_get time as 0 k
  rw [ha, Option.map_some, Nat.zero_add] at hk
  rcases dedupPass_dropped _ _ _ _ _ _ _ hk hf with ⟨x, hx, _⟩ | ⟨j, t', p', h1, h2, h3, h4, h5⟩
  · cases hx
  · have hj := arrivalTimes_get time as 0 j
    rw [h2, Nat.zero_add] at hj
    cases hb : as[j]? with
    | none => rw [hb] at hj; cases hj
    | some b =>
      rw [hb, Option.map_some] at hj
      cases hj
      obtain ⟨e', g1, g2⟩ := C22_router env ht hp time hc hmono eps hcfg logs evs w as h hrange j b hb
      refine ⟨j, b, e', h1, hb, g1, h4, h5, ?_⟩
      rw [g2]
      simp [h3]

/-- **C83** is false of the code: the check comes before the incoming filters (src/endpoint.cpp:231-241), so the copy
that one link blocks makes the router drop the copy that the other link admits: the message is not routed at all. -/
theorem C83_violated :
    inOk (Sample.epsBlock[1]).filters Sample.mHb ∧
    (runRouter Sample.envDedup (start Sample.epsBlock (fun _ => 0))
      [.read 0 (.got Sample.hb2.encode), .read 1 (.got Sample.hb2.encode)]).map
      (fun r => (r.2.map (fun a => (a.ep, a.msg = Sample.mHb, a.passed)), r.1.out)) =
        some ([(0, True, false), (1, True, false)], []) := by
  refine ⟨by simp [inOk, passes, Sample.epsBlock], ?_⟩
  have h : (runRouter Sample.envDedup (start Sample.epsBlock (fun _ => 0))
      [.read 0 (.got Sample.hb2.encode), .read 1 (.got Sample.hb2.encode)]).map (fun r => (r.2, r.1.out)) =
      some ([⟨0, Sample.mHb, false⟩, ⟨1, Sample.mHb, false⟩], []) := by decide +kernel
  cases hr : runRouter Sample.envDedup (start Sample.epsBlock (fun _ => 0))
      [.read 0 (.got Sample.hb2.encode), .read 1 (.got Sample.hb2.encode)] with
  | none => rw [hr] at h; cases h
  | some r =>
    rw [hr] at h
    simp only [Option.map_some, Option.some.injEq, Prod.mk.injEq] at h ⊢
    rw [h.1, h.2]
    simp

/-- Without the first copy the second one is passed on, to endpoints 0 and 2. -/
example : (runRouter Sample.envDedup (start Sample.epsBlock (fun _ => 0)) [.read 1 (.got Sample.hb2.encode)]).map
    (fun r => (r.2.map Arrival.passed, r.1.out.map Sent.ep)) = some ([true], [0, 2]) := by decide +kernel

end Verif
