/-
C81: what an endpoint sends is a part of what was received, in the order of receipt.
-/
import Verif.Props.LogCall

namespace Verif

open Verif.Spec

variable {σ : Type}

/-- The writes of received messages to endpoint `j`, in order, since `w`. -/
def Spec.writesTo (j : Nat) (w w' : World σ) : List Sent := (directSince w w').filter (fun s => s.ep == j)

/-- `ys` accounts for the writes `ws`: one received message per write, with the same bytes if `P`. -/
def Spec.Accounts (P : Msg → Prop) (ws : List Sent) (ys : List Arrival) : Prop :=
  ws.length = ys.length ∧ ∀ (k : Nat) (s : Sent) (a : Arrival), ws[k]? = some s → ys[k]? = some a →
    P a.msg → s.bytes = a.msg.data

theorem accounts_append {P : Msg → Prop} {w1 w2 : List Sent} {y1 y2 : List Arrival} (h1 : Accounts P w1 y1)
    (h2 : Accounts P w2 y2) : Accounts P (w1 ++ w2) (y1 ++ y2) := by
  refine ⟨by rw [List.length_append, List.length_append, h1.1, h2.1], ?_⟩
  intro k s a hs ha
  by_cases hk : k < w1.length
  · rw [List.getElem?_append_left hk] at hs
    rw [List.getElem?_append_left (by rw [← h1.1]; exact hk)] at ha
    exact h1.2 k s a hs ha
  · rw [List.getElem?_append_right (by omega)] at hs
    rw [List.getElem?_append_right (by rw [← h1.1]; omega)] at ha
    rw [← h1.1] at ha
    exact h2.2 _ s a hs ha

/-- The trace only grows. -/
def Grows (w w' : World σ) : Prop := ∃ new, w'.out = w.out ++ new

theorem writesTo_trans {j : Nat} {w w' w'' : World σ} (h1 : Grows w w') (h2 : Grows w' w'') :
    Grows w w'' ∧ writesTo j w w'' = writesTo j w w' ++ writesTo j w' w'' := by
  obtain ⟨a, ha⟩ := h1
  obtain ⟨b, hb⟩ := h2
  refine ⟨⟨a ++ b, by rw [hb, ha, List.append_assoc]⟩, ?_⟩
  unfold writesTo directSince
  rw [hb, List.drop_left, ha, List.drop_left, List.append_assoc, List.drop_left, List.filter_append,
    List.filter_append]

theorem handleMsg_writes (env : Env σ) (P : Msg → Prop) (hP : ∀ i s m, P m → (env.log i s m).2.2 = m.data)
    (w : World σ) (hw : RouterInv w) (i : Nat) (m : Msg) (j : Nat) {w' : World σ} {b : Bool}
    (h : handleMsg env w i m = some (w', b)) :
    RouterInv w' ∧ Grows w w' ∧
      ∃ ys, ys.Sublist ([{ ep := i, msg := m, passed := b }].filter Arrival.passed) ∧
        Accounts P (writesTo j w w') ys := by
  obtain ⟨w1, b1, h1, hinv, _, _, hf, ht, _⟩ := handleMsg_spec env w hw i m
  rw [h] at h1; cases h1
  refine ⟨hinv, ?_⟩
  cases b with
  | false =>
    obtain ⟨d, c, rfl⟩ := hf rfl
    refine ⟨⟨[], by simp⟩, [], List.nil_sublist _, ?_⟩
    simp [writesTo, directSince, Accounts]
  | true =>
    obtain ⟨h', d, l, hi, rfl⟩ := ht rfl
    obtain ⟨new, hk, hnew⟩ := routeMsg_spec env 1 { w with eps := h', dedup := d, checks := w.checks + 1 } m
    refine ⟨⟨new, hk.out⟩, ?_⟩
    have hds : directSince w (routeMsg env 2 false { w with eps := h', dedup := d, checks := w.checks + 1 } m) =
        new.filter (fun s => !s.gen) := hk.direct
    have hnd : ((new.filter (fun s => !s.gen)).map Sent.ep).Nodup := by
      rw [hnew]; exact hw.actNodup.filter _
    have hlen : (writesTo j w (routeMsg env 2 false { w with eps := h', dedup := d, checks := w.checks + 1 } m)).length
        ≤ 1 := by
      unfold writesTo
      rw [hds]
      generalize new.filter (fun s => !s.gen) = ds at hnd
      have hc := List.nodup_iff_count.mp hnd j
      have : (ds.filter (fun s => s.ep == j)).length = (ds.map Sent.ep).count j := by
        rw [← List.countP_eq_length_filter, List.count, List.countP_map]
        rfl
      omega
    have hbytes : P m → ∀ s ∈ writesTo j w
        (routeMsg env 2 false { w with eps := h', dedup := d, checks := w.checks + 1 } m), s.bytes = m.data := by
      intro hp s hs
      exact C20_same_bytes_partial env { w with eps := h', dedup := d, checks := w.checks + 1 } m 1
        (fun i _ _ _ _ s => hP i s m hp) s (List.mem_filter.mp hs).1
    generalize hws : writesTo j w (routeMsg env 2 false { w with eps := h', dedup := d, checks := w.checks + 1 } m) = ws
      at hlen hbytes
    match ws, hlen with
    | [], _ => exact ⟨[], List.nil_sublist _, by simp [Accounts]⟩
    | [s], _ =>
      refine ⟨_, List.Sublist.refl _, rfl, ?_⟩
      intro k x a hx ha hp
      cases k with
      | zero =>
        cases hx
        have : a = { ep := i, msg := m, passed := true } := by simpa using ha.symm
        subst this
        exact hbytes hp _ (List.mem_singleton.mpr rfl)
      | succ k => simp at hx

theorem runMsgs_writes (env : Env σ) (P : Msg → Prop) (hP : ∀ i s m, P m → (env.log i s m).2.2 = m.data)
    (i j : Nat) : ∀ (ms : List Msg) (w : World σ), RouterInv w → ∀ {w' as}, runMsgs env i w ms = some (w', as) →
    RouterInv w' ∧ Grows w w' ∧ ∃ ys, ys.Sublist (as.filter Arrival.passed) ∧ Accounts P (writesTo j w w') ys := by
  intro ms
  induction ms with
  | nil =>
    intro w hw w' as h
    cases h
    exact ⟨hw, ⟨[], by simp⟩, [], List.nil_sublist _, by simp [writesTo, directSince, Accounts]⟩
  | cons m ms ih =>
    intro w hw w' as h
    unfold runMsgs at h
    cases h1 : handleMsg env w i m with
    | none => rw [h1] at h; cases h
    | some r =>
      obtain ⟨w1, b⟩ := r
      simp only [h1] at h
      cases h2 : runMsgs env i w1 ms with
      | none => rw [h2] at h; cases h
      | some r2 =>
        obtain ⟨w2, bs⟩ := r2
        simp only [h2] at h
        cases h
        obtain ⟨k1, k2, ys, k3, k4⟩ := handleMsg_writes env P hP w hw i m j h1
        obtain ⟨l1, l2, zs, l3, l4⟩ := ih w1 k1 h2
        obtain ⟨t1, t2⟩ := writesTo_trans (j := j) k2 l2
        refine ⟨l1, t1, ys ++ zs, ?_, ?_⟩
        · rw [← List.singleton_append, List.filter_append]
          exact k3.append l3
        · rw [t2]
          exact accounts_append k4 l4

theorem routerStep_writes (env : Env σ) (P : Msg → Prop) (hP : ∀ i s m, P m → (env.log i s m).2.2 = m.data)
    (j : Nat) (w : World σ) (hw : RouterInv w) (ev : RouterEv) {w' as} (h : routerStep env w ev = some (w', as)) :
    RouterInv w' ∧ Grows w w' ∧ ∃ ys, ys.Sublist (as.filter Arrival.passed) ∧ Accounts P (writesTo j w w') ys := by
  have hinv : RouterInv w' := by
    obtain ⟨w1, as1, h1, h2, _⟩ := routerStep_spec env w hw ev
    rw [h] at h1; cases h1; exact h2
  have same : w'.out = w.out → Grows w w' ∧
      ∃ ys, ys.Sublist (as.filter Arrival.passed) ∧ Accounts P (writesTo j w w') ys := by
    intro ho
    exact ⟨⟨[], by rw [ho]; simp⟩, [], List.nil_sublist _, by simp [writesTo, directSince, Accounts, ho]⟩
  refine ⟨hinv, ?_⟩
  cases ev with
  | read i io =>
    simp only [routerStep, handleRead] at h
    cases he : w.eps[i]? with
    | none => rw [he] at h; cases h; exact same rfl
    | some e =>
      simp only [he] at h
      obtain ⟨h1, _⟩ := set_inv hw (e' := { e with rx := (drain env.tbl e.fdOpen (rxBufMax + 1) e.rx io).1 })
        he rfl rfl rfl rfl rfl
      exact (runMsgs_writes env P hP i j _ _ h1 h).2
  | accept => cases h; exact same rfl
  | hangups gone => cases h; exact same rfl
  | fd i o =>
    simp only [routerStep] at h
    cases he : w.eps[i]? with
    | none => rw [he] at h; cases h; exact same rfl
    | some e => rw [he] at h; cases h; exact same rfl
  | logCall i c =>
    cases h
    obtain ⟨new, hk, hg⟩ := logCall_kept env w i c
    refine ⟨⟨new, hk.out⟩, [], List.nil_sublist _, ?_⟩
    have : new.filter (fun s => !s.gen) = [] := by
      rw [List.filter_eq_nil_iff]; intro s hs; simp [hg s hs]
    simp [writesTo, hk.direct, this, Accounts]
  | aggregate =>
    cases h
    exact same (by unfold aggregate; split <;> rfl)

/-- C81: over any history of the router, the writes of received messages to any endpoint correspond,
one to one and in order, to messages that arrived, from all endpoints, in the order of arrival: no
message is written twice, out of order, or without having arrived and passed the incoming filters and
de-duplication; and the bytes are those received if the message is one that log endpoints leave alone. -/
theorem C81_order (env : Env σ) (P : Msg → Prop) (hP : ∀ i s m, P m → (env.log i s m).2.2 = m.data) (j : Nat) :
    ∀ (evs : List RouterEv) (w : World σ), Reached env w → ∀ {w' as}, runRouter env w evs = some (w', as) →
    ∃ ys, ys.Sublist (as.filter Arrival.passed) ∧ Accounts P (writesTo j w w') ys := by
  suffices h : ∀ (evs : List RouterEv) (w : World σ), RouterInv w → ∀ {w' as}, runRouter env w evs = some (w', as) →
      Grows w w' ∧ ∃ ys, ys.Sublist (as.filter Arrival.passed) ∧ Accounts P (writesTo j w w') ys from
    fun evs w hw _ _ hr => (h evs w (reached_inv hw) hr).2
  intro evs
  induction evs with
  | nil =>
    intro w _ w' as h
    cases h
    exact ⟨⟨[], by simp⟩, [], List.nil_sublist _, by simp [writesTo, directSince, Accounts]⟩
  | cons ev evs ih =>
    intro w hw w' as h
    unfold runRouter at h
    cases h1 : routerStep env w ev with
    | none => rw [h1] at h; cases h
    | some r =>
      obtain ⟨w1, as1⟩ := r
      simp only [h1] at h
      cases h2 : runRouter env w1 evs with
      | none => rw [h2] at h; cases h
      | some r2 =>
        obtain ⟨w2, bs⟩ := r2
        simp only [h2] at h
        cases h
        obtain ⟨k1, k2, ys, k3, k4⟩ := routerStep_writes env P hP j w hw ev h1
        obtain ⟨l2, zs, l3, l4⟩ := ih w1 k1 h2
        obtain ⟨t1, t2⟩ := writesTo_trans (j := j) k2 l2
        refine ⟨t1, ys ++ zs, ?_, ?_⟩
        · rw [List.filter_append]
          exact k3.append l3
        · rw [t2]
          exact accounts_append k4 l4

/-- C81 with the actual log endpoints: bytes are kept except for LOGGING_DATA and LOGGING_DATA_ACKED. -/
theorem C81_order_logs (env : Env LogSt) (le : Nat → LogEnv) (now : Nat → UInt64) (j : Nat) (evs : List RouterEv)
    (w : World LogSt) (hw : Reached (env.withLogs le now) w) {w' : World LogSt} {as : List Arrival}
    (h : runRouter (env.withLogs le now) w evs = some (w', as)) :
    ∃ ys, ys.Sublist (as.filter Arrival.passed) ∧
      Accounts (fun m => m.msgId ≠ 266 ∧ m.msgId ≠ 267) (writesTo j w w') ys :=
  C81_order (env.withLogs le now) _ (fun i s m hm => logWrite_data le now i s m hm.1 hm.2) j evs w hw h

/-- Two heartbeats of different endpoints leave a third one in the order of their arrival. -/
example : (runRouter Sample.env Sample.w0 [.read 1 (.got Sample.hb2.encode), .read 0 (.got Sample.hb1.encode)]).map
    (fun r => ((writesTo 3 Sample.w0 r.1).map (fun s => s.bytes), r.2.map Arrival.passed)) =
    some ([Sample.hb2.encode, Sample.hb1.encode], [true, true]) := by decide +kernel

end Verif
