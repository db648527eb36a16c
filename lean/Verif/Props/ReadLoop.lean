import Verif.Model.ReadLoop
import Verif.Props.Segments
import Verif.Props.LogRouter
import Verif.Props.Datagram

/- Property C121: what has arrived is handled. -/

namespace Verif
open Spec

variable {σ : Type}

/-! ### Reading messages one at a time -/

theorem readMsg_means (tbl : MsgTable) (rx : Rx) (io : SysRead) :
    (∀ m k rx', readMsg tbl true rx io = (rx', .msg m k) → rx'.lastLen ≠ 0 ∧
      ∀ ms t, Means tbl rx'.pending ms t → Means tbl (rx.pending ++ consumedBy rx io) ((m, k) :: ms) t) ∧
    (∀ r rx', readMsg tbl true rx io = (rx', .stop r) →
      ∀ ms t, Means tbl rx'.pending ms t → Means tbl (rx.pending ++ consumedBy rx io) ms t) := by
  have key : ∀ p st, (∀ m k rx', parseBuf tbl p st = (rx', .msg m k) → rx'.lastLen ≠ 0 ∧
      ∀ ms t, Means tbl rx'.pending ms t → Means tbl p ((m, k) :: ms) t) ∧
    (∀ r rx', parseBuf tbl p st = (rx', .stop r) → ∀ ms t, Means tbl rx'.pending ms t → Means tbl p ms t) := by
    intro p st
    cases hf : firstFrame p with
    | none =>
      obtain ⟨h1, _⟩ := parseBuf_none tbl hf st
      rw [h1]
      refine ⟨(fun m k rx' h => by cases h), fun r rx' h ms t hm => ?_⟩
      cases h
      simp only [Rx.pending, List.drop_zero] at hm
      have := Means.append (tbl := tbl) (p := p) (.done hf) (c := []) (ms2 := ms) (t2 := t)
        (by simpa [stripNoise_eq] using hm)
      simpa using this
    | some x =>
      obtain ⟨fr, rest⟩ := x
      have hrl := firstFrame_rest_length hf
      obtain ⟨hd, _, g2, g3, _, _, _, g7, _, g9, _, _⟩ := firstFrame_some hf
      have hfr : fr.length ≠ 0 := by omega
      rcases parseBuf_some tbl hf st with ⟨m, k, seq, hdel, _, h⟩ | ⟨hc, h⟩
      · rw [h]
        refine ⟨fun m' k' rx' h' => ?_, fun r rx' h' => by cases h'⟩
        cases h'
        refine ⟨hfr, fun ms t hm => .deliver hf hdel ?_⟩
        simpa [Rx.pending] using hm
      · rw [h]
        refine ⟨fun m' k' rx' h' => by (cases h'), fun r rx' h' ms t hm => ?_⟩
        cases h'
        simp only [Rx.pending, List.drop_left] at hm
        exact .drop hf hc hm
  unfold readMsg
  simp only [Bool.not_true, Bool.false_eq_true, if_false]
  by_cases hll : rx.lastLen = 0
  · have hp : rx.pending = rx.buf := by simp [Rx.pending, hll]
    rw [if_neg (by simpa using hll), hp]
    unfold consumedBy
    rw [if_neg (by simpa using hll)]
    cases io with
    | fail r =>
      refine ⟨fun m k rx' h => (by cases h), fun r' rx' h ms t hm => ?_⟩
      cases h
      simpa [hp] using hm
    | got bs =>
      simp only []
      cases hb : bs.take (rxBufMax - rx.buf.length) with
      | nil =>
        refine ⟨fun m k rx' h => (by cases h), fun r' rx' h ms t hm => ?_⟩
        cases h
        simpa [hp] using hm
      | cons c cs => exact key _ _
  · rw [if_pos hll]
    have : consumedBy rx io = [] := by unfold consumedBy; rw [if_pos hll]
    rw [this, List.append_nil]
    exact key _ _

theorem drain_means (tbl : MsgTable) (io : SysRead) : ∀ (n : Nat) (rx : Rx) (ms2 : List (Msg × Bool)) (t : List UInt8),
    Means tbl (drain tbl true n rx io).1.pending ms2 t → (n = 0 → consumedBy rx io = []) →
    Means tbl (rx.pending ++ consumedBy rx io) ((drain tbl true n rx io).2.1 ++ ms2) t
  | 0, rx, ms2, t, h, h0 => by rw [h0 rfl, List.append_nil]; exact h
  | n + 1, rx, ms2, t, h, _ => by
    obtain ⟨k1, k2⟩ := readMsg_means tbl rx io
    unfold drain at h ⊢
    cases hr : readMsg tbl true rx io with
    | mk rx' out =>
      rw [hr] at h
      cases out with
      | stop r => exact k2 r rx' hr ms2 t h
      | msg m k =>
        obtain ⟨hl, hm⟩ := k1 m k rx' hr
        have hc : consumedBy rx' io = [] := by unfold consumedBy; rw [if_pos hl]
        have := drain_means tbl io n rx' ms2 t h (fun _ => hc)
        rw [hc, List.append_nil] at this
        exact hm _ _ this

/-! ### Handling a message leaves the receive buffer alone -/

/-- The receive state of one endpoint replaced. -/
def setRx (w : World σ) (i : Nat) (rx : Rx) : World σ := { w with eps := w.eps.modify i (fun e => { e with rx := rx }) }

theorem setRx_some (w : World σ) (i : Nat) (rx : Rx) {e : Ep} (he : w.eps[i]? = some e) :
    { w with eps := w.eps.set i { e with rx := rx } } = setRx w i rx := by
  unfold setRx
  congr 1
  refine List.ext_getElem? (fun k => ?_)
  rw [List.getElem?_set, List.getElem?_modify]
  obtain ⟨hl, hx⟩ := List.getElem?_eq_some_iff.mp he
  by_cases hk : i = k
  · subst hk; rw [he]; simp [hl]
  · simp [hk]

theorem world_ext {w w' : World σ} (h1 : seen w = seen w') (h2 : receivers w = receivers w') : w = w' := by
  obtain ⟨eps, a, l, u, hg, p, d, c, o, r⟩ := w
  obtain ⟨eps', a', l', u', hg', p', d', c', o', r'⟩ := w'
  simp only [seen, World.mk.injEq] at h1
  obtain ⟨he, rfl, rfl, rfl, rfl, rfl, rfl, rfl, rfl, rfl⟩ := h1
  simp only [receivers] at h2
  have : eps = eps' := by
    refine List.ext_getElem? (fun k => ?_)
    have e1 := congrArg (·[k]?) he
    have e2 := congrArg (·[k]?) h2
    simp only [List.getElem?_map] at e1 e2
    cases h3 : eps[k]? with
    | none => rw [h3] at e1; cases h4 : eps'[k]? with
      | none => rfl
      | some y => rw [h4] at e1; cases e1
    | some x =>
      rw [h3] at e1 e2
      cases h4 : eps'[k]? with
      | none => rw [h4] at e1; cases e1
      | some y =>
        rw [h4] at e1 e2
        simp only [Option.map_some, Option.some.injEq, Prod.mk.injEq, noRx] at e1 e2
        obtain ⟨kx, gx, fx, lx, mx, rx, ox⟩ := x
        obtain ⟨ky, gy, fy, ly, my, ry, oy⟩ := y
        simp only [Ep.mk.injEq] at e1
        obtain ⟨rfl, rfl, rfl, rfl, rfl, _, rfl⟩ := e1
        obtain ⟨e2, _⟩ := e2
        simp only at e2
        rw [e2]
  rw [this]

theorem seen_setRx (w : World σ) (i : Nat) (rx : Rx) : seen (setRx w i rx) = seen w := by
  unfold seen setRx
  congr 1
  refine List.ext_getElem? (fun k => ?_)
  simp only [List.getElem?_map, List.getElem?_modify]
  cases w.eps[k]? with
  | none => rfl
  | some e => by_cases h : i = k <;> simp [h, noRx]

theorem receivers_setRx (w : World σ) (i : Nat) (rx : Rx) :
    receivers (setRx w i rx) = (receivers w).modify i (fun r => (rx, r.2)) := by
  unfold receivers setRx
  refine List.ext_getElem? (fun k => ?_)
  simp only [List.getElem?_map, List.getElem?_modify]
  cases w.eps[k]? with
  | none => rfl
  | some e => by_cases h : i = k <;> simp [h]

theorem handleMsg_setRx (env : Env σ) (w : World σ) (i j : Nat) (m : Msg) (rx : Rx) :
    handleMsg env (setRx w j rx) i m = (handleMsg env w i m).map (fun r => (setRx r.1 j rx, r.2)) := by
  have h1 := handleMsg_seen env (setRx w j rx) i m
  have h2 := handleMsg_seen env w i m
  rw [seen_setRx] at h1
  rw [h1] at h2
  cases ha : handleMsg env (setRx w j rx) i m with
  | none =>
    cases hb : handleMsg env w i m with
    | none => rfl
    | some y => rw [ha, hb] at h2; cases h2
  | some x =>
    cases hb : handleMsg env w i m with
    | none => rw [ha, hb] at h2; cases h2
    | some y =>
      rw [ha, hb] at h2
      simp only [Option.map_some, Option.some.injEq, Prod.mk.injEq] at h2 ⊢
      obtain ⟨x1, x2⟩ := x
      obtain ⟨y1, y2⟩ := y
      obtain ⟨h3, rfl⟩ := h2
      simp only at h3
      refine Prod.ext (world_ext (by rw [seen_setRx]; exact h3) ?_) rfl
      simp only
      rw [receivers_setRx, receivers_handleMsg env ha, receivers_handleMsg env hb, receivers_setRx]

theorem setRx_setRx (w : World σ) (i : Nat) (rx rx' : Rx) : setRx (setRx w i rx) i rx' = setRx w i rx' := by
  unfold setRx
  congr 1
  refine List.ext_getElem? (fun k => ?_)
  simp only [List.getElem?_modify]
  cases w.eps[k]? with
  | none => rfl
  | some e => by_cases h : i = k <;> simp [h]

theorem setRx_self {w : World σ} {i : Nat} {e : Ep} (he : w.eps[i]? = some e) : setRx w i e.rx = w := by
  refine world_ext (seen_setRx w i e.rx) ?_
  rw [receivers_setRx]
  unfold receivers
  refine List.ext_getElem? (fun k => ?_)
  simp only [List.getElem?_map, List.getElem?_modify]
  by_cases h : i = k
  · subst h; simp [he]
  · simp [h]

theorem handleMsg_ep (env : Env σ) {w w' : World σ} {i j : Nat} {m : Msg} {b : Bool} {e : Ep} (h : handleMsg env w j m = some (w', b))
    (he : w.eps[i]? = some e) : ∃ e', w'.eps[i]? = some e' ∧ e'.rx = e.rx ∧ e'.fdOpen = e.fdOpen := by
  have := congrArg (·[i]?) (receivers_handleMsg env h)
  simp only [receivers, List.getElem?_map, he, Option.map_some] at this
  cases h' : w'.eps[i]? with
  | none => rw [h'] at this; cases this
  | some e' =>
    rw [h'] at this
    simp only [Option.map_some, Option.some.injEq, Prod.mk.injEq] at this
    exact ⟨e', rfl, this.1, this.2⟩

theorem handleReadLoop_closed (env : Env σ) (retry : Bool) {i : Nat} (io : SysRead) (n : Nat) {w : World σ} {e : Ep} (he : w.eps[i]? = some e) :
    handleReadLoop env retry i io n (closeLink w i) = some (closeLink w i, []) := by
  cases n with
  | zero => rfl
  | succ n =>
    have hc : (closeLink w i).eps[i]? = some { e with fdOpen := false } := by
      unfold closeLink
      rw [he]
      simp only []
      rw [List.getElem?_set_self (List.getElem?_eq_some_iff.mp he).1]
    unfold handleReadLoop
    rw [hc]
    simp only [readMsg, Bool.not_false, if_true]
    have h1 := setRx_some (closeLink w i) i e.rx hc
    have h2 : setRx (closeLink w i) i e.rx = closeLink w i := setRx_self (e := { e with fdOpen := false }) hc
    rw [h2] at h1
    exact congrArg (fun x : World σ => some (x, ([] : List Arrival))) (h1)

/-- The loop in the order of the code does what `handleRead` does, or it stops after `k` messages because handling them broke
the connection. -/
theorem handleReadLoop_spec (env : Env σ) (retry : Bool) (i : Nat) (io : SysRead) : ∀ (n : Nat) (w w' : World σ) (e : Ep) (as : List Arrival),
    w.eps[i]? = some e → handleReadLoop env retry i io n w = some (w', as) →
    (runMsgs env i (setRx w i (drain env.tbl e.fdOpen n e.rx io).1) ((drain env.tbl e.fdOpen n e.rx io).2.1.map Prod.fst) = some (w', as)) ∨
    (retry = true ∧ ∃ k w1, k ≤ n ∧ (drain env.tbl e.fdOpen k e.rx io).2.1.length = k ∧ 0 < k ∧
      runMsgs env i (setRx w i (drain env.tbl e.fdOpen k e.rx io).1) ((drain env.tbl e.fdOpen k e.rx io).2.1.map Prod.fst) = some (w1, as) ∧
      brokePipe env i w w1 = true ∧ w' = closeLink w1 i)
  | 0, w, w', e, as, he, h => by
    cases h
    left
    simp only [drain, setRx_self he]
    rfl
  | n + 1, w, w', e, as, he, h => by
    unfold handleReadLoop at h
    rw [he] at h
    simp only [] at h
    cases hr : readMsg env.tbl e.fdOpen e.rx io with
    | mk rx out =>
      rw [hr] at h
      cases out with
      | stop r =>
        simp only [Option.some.injEq] at h
        rw [setRx_some w i rx he] at h
        left
        unfold drain
        rw [hr]
        simp only [List.map_nil, runMsgs]
        exact congrArg some h
      | msg m kn =>
        simp only [] at h
        rw [setRx_some w i rx he] at h
        have he0 : (setRx w i rx).eps[i]? = some { e with rx := rx } := by
          simp [setRx, he]
        cases hm : handleMsg env (setRx w i rx) i m with
        | none => rw [hm] at h; cases h
        | some x =>
          obtain ⟨w1, b⟩ := x
          rw [hm] at h
          simp only [] at h
          obtain ⟨e1, he1, hrx, hfd⟩ := handleMsg_ep env hm he0
          simp only at hrx hfd
          have hopen : e.fdOpen = true := by
            cases ho : e.fdOpen with
            | true => rfl
            | false => rw [ho] at hr; simp [readMsg] at hr
          -- what `drain` does with one message more
          have hdr : ∀ k, drain env.tbl e.fdOpen (k + 1) e.rx io =
              ((drain env.tbl e1.fdOpen k e1.rx io).1, (m, kn) :: (drain env.tbl e1.fdOpen k e1.rx io).2.1,
                (drain env.tbl e1.fdOpen k e1.rx io).2.2) := by
            intro k
            rw [hrx, hfd]
            rw [drain.eq_2, hr]
          have hrun : ∀ rx' ms w2 as2, runMsgs env i (setRx w1 i rx') ms = some (w2, as2) →
              runMsgs env i (setRx w i rx') (m :: ms) = some (w2, { ep := i, msg := m, passed := b } :: as2) := by
            intro rx' ms w2 as2 h2
            unfold runMsgs
            rw [← setRx_setRx w i rx rx', handleMsg_setRx, hm]
            simp only [Option.map_some]
            rw [h2]
          have hout : (setRx w i rx).out = w.out := rfl
          by_cases hb : (retry && brokePipe env i (setRx w i rx) w1) = true
          · rw [if_pos hb] at h
            rw [Bool.and_eq_true] at hb
            right
            refine ⟨hb.1, 1, w1, by omega, ?_, by omega, ?_, ?_⟩
            · rw [hdr 0]; simp [drain]
            · rw [hdr 0]
              have := hrun e1.rx [] w1 [] (by rw [setRx_self he1]; rfl)
              -- the loop stops
              have hstop := handleReadLoop_closed env retry io n he1
              rw [hstop] at h
              simp only [Option.map_some, Option.some.injEq, Prod.mk.injEq] at h
              rw [← h.2]
              simpa [drain] using this
            · have hstop := handleReadLoop_closed env retry io n he1
              rw [hstop] at h
              simp only [Option.map_some, Option.some.injEq, Prod.mk.injEq] at h
              exact ⟨hb.2, h.1.symm⟩
          · rw [if_neg hb] at h
            cases hl : handleReadLoop env retry i io n w1 with
            | none => rw [hl] at h; cases h
            | some y =>
              obtain ⟨w2, as2⟩ := y
              rw [hl] at h
              simp only [Option.map_some, Option.some.injEq, Prod.mk.injEq] at h
              obtain ⟨rfl, rfl⟩ := h
              rcases handleReadLoop_spec env retry i io n w1 w2 e1 as2 he1 hl with ha | ⟨hre, k, w3, hk, hlen, hpos, ha, hbp, hcl⟩
              · left
                rw [hdr n]
                exact hrun _ _ _ _ ha
              · right
                refine ⟨hre, k + 1, w3, by omega, ?_, by omega, ?_, ?_, hcl⟩
                · rw [hdr k]; simp [hlen]
                · rw [hdr k]; exact hrun _ _ _ _ ha
                · unfold brokePipe at hbp ⊢
                  rw [List.any_eq_true] at hbp ⊢
                  obtain ⟨j, hj, hj2⟩ := hbp
                  refine ⟨j, hj, ?_⟩
                  simp only [Bool.and_eq_true, decide_eq_true_eq] at hj2 ⊢
                  have := (handleMsg_out env hm).length_le
                  rw [hout] at this
                  exact ⟨⟨by omega, hj2.1.2⟩, hj2.2⟩

theorem handleReadLoop_total (env : Env σ) (retry : Bool) (i : Nat) (io : SysRead) : ∀ (n : Nat) (w : World σ), RouterInv w →
    ∃ w' as, handleReadLoop env retry i io n w = some (w', as)
  | 0, w, _ => ⟨w, [], rfl⟩
  | n + 1, w, hw => by
    unfold handleReadLoop
    cases he : w.eps[i]? with
    | none => exact ⟨_, _, rfl⟩
    | some e =>
      simp only []
      cases hr : readMsg env.tbl e.fdOpen e.rx io with
      | mk rx out =>
        cases out with
        | stop r => exact ⟨_, _, rfl⟩
        | msg m k =>
          simp only []
          obtain ⟨h0, _⟩ := set_inv hw (e' := { e with rx := rx }) he rfl rfl rfl rfl rfl
          obtain ⟨w1, b, h1, h2, _⟩ := handleMsg_spec env _ h0 i m
          rw [h1]
          simp only []
          have h3 : RouterInv (closeLink w1 i) := by
            unfold closeLink
            cases h4 : w1.eps[i]? with
            | none => exact h2
            | some e1 => exact (set_inv h2 (e' := { e1 with fdOpen := false }) h4 rfl rfl rfl rfl rfl).1
          split
          · obtain ⟨w2, as, h5⟩ := handleReadLoop_total env retry i io n _ h3
            rw [h5]; exact ⟨_, _, rfl⟩
          · obtain ⟨w2, as, h5⟩ := handleReadLoop_total env retry i io n _ h2
            rw [h5]; exact ⟨_, _, rfl⟩

theorem closeLink_out (w : World σ) (i : Nat) : (closeLink w i).out = w.out := by
  unfold closeLink
  split <;> rfl

/-! ### C121 -/

/-- Between the states `w` and `w'` a write to endpoint `i` reported that the connection is broken (`EPIPE` is 32). -/
def Spec.Broke (env : Env σ) (i : Nat) (w w' : World σ) : Prop :=
  ∃ k s, w.out.length ≤ k ∧ w'.out[k]? = some s ∧ s.ep = i ∧ env.wres k = -32

theorem brokePipe_iff (env : Env σ) (i : Nat) (w w' : World σ) : brokePipe env i w w' = true ↔ Spec.Broke env i w w' := by
  unfold brokePipe Spec.Broke
  rw [List.any_eq_true]
  constructor
  · rintro ⟨k, hk, h⟩
    simp only [Bool.and_eq_true, decide_eq_true_eq, Option.map_eq_some_iff] at h
    obtain ⟨⟨h1, s, h2, h3⟩, h4⟩ := h
    exact ⟨k, s, h1, h2, h3, h4⟩
  · rintro ⟨k, s, h1, h2, h3, h4⟩
    refine ⟨k, List.mem_range.mpr (List.getElem?_eq_some_iff.mp h2).1, ?_⟩
    simp only [Bool.and_eq_true, decide_eq_true_eq, Option.map_eq_some_iff]
    exact ⟨⟨h1, s, h2, h3⟩, h4⟩

theorem handleReadLoop_broke (env : Env σ) (i : Nat) (io : SysRead) : ∀ (n : Nat) (w w' : World σ) (e : Ep) (as : List Arrival),
    w.eps[i]? = some e → handleReadLoop env true i io n w = some (w', as) →
    (∃ l, w'.out = w.out ++ l) ∧ ∃ e', w'.eps[i]? = some e' ∧ (e'.fdOpen = false ↔ e.fdOpen = false ∨ Spec.Broke env i w w')
  | 0, w, w', e, as, he, h => by
    cases h
    refine ⟨⟨[], by simp⟩, e, he, ⟨Or.inl, fun h => h.elim id ?_⟩⟩
    rintro ⟨k, s, h1, h2, _⟩
    have := (List.getElem?_eq_some_iff.mp h2).1
    omega
  | n + 1, w, w', e, as, he, h => by
    unfold handleReadLoop at h
    rw [he] at h
    simp only [] at h
    cases hr : readMsg env.tbl e.fdOpen e.rx io with
    | mk rx out =>
      rw [hr] at h
      cases out with
      | stop r =>
        simp only [Option.some.injEq, Prod.mk.injEq] at h
        obtain ⟨rfl, rfl⟩ := h
        refine ⟨⟨[], by simp⟩, { e with rx := rx }, ?_, ⟨Or.inl, fun h => h.elim id ?_⟩⟩
        · exact List.getElem?_set_self (List.getElem?_eq_some_iff.mp he).1
        · rintro ⟨k, s, h1, h2, _⟩
          have := (List.getElem?_eq_some_iff.mp h2).1
          simp only [] at this
          omega
      | msg m kn =>
        simp only [] at h
        rw [setRx_some w i rx he] at h
        have he0 : (setRx w i rx).eps[i]? = some { e with rx := rx } := by
          simp [setRx, he]
        cases hm : handleMsg env (setRx w i rx) i m with
        | none => rw [hm] at h; cases h
        | some x =>
          obtain ⟨w1, b⟩ := x
          rw [hm] at h
          simp only [] at h
          obtain ⟨e1, he1, hrx, hfd⟩ := handleMsg_ep env hm he0
          simp only at hrx hfd
          have hopen : e.fdOpen = true := by
            cases ho : e.fdOpen with
            | true => rfl
            | false => rw [ho] at hr; simp [readMsg] at hr
          obtain ⟨l1, hl1⟩ := handleMsg_out env hm
          have hout : (setRx w i rx).out = w.out := rfl
          rw [hout] at hl1
          by_cases hb : brokePipe env i (setRx w i rx) w1 = true
          · rw [hb, Bool.true_and, if_pos rfl, handleReadLoop_closed env true io n he1] at h
            simp only [Option.map_some, Option.some.injEq, Prod.mk.injEq] at h
            obtain ⟨rfl, rfl⟩ := h
            refine ⟨⟨l1, by rw [closeLink_out]; exact hl1.symm⟩, { e1 with fdOpen := false }, ?_, ?_⟩
            · unfold closeLink
              rw [he1]
              exact List.getElem?_set_self (List.getElem?_eq_some_iff.mp he1).1
            · refine ⟨fun _ => Or.inr ?_, fun _ => rfl⟩
              obtain ⟨k, s, h1, h2, h3, h4⟩ := (brokePipe_iff env i _ _).mp hb
              exact ⟨k, s, h1, by rw [closeLink_out]; exact h2, h3, h4⟩
          · rw [Bool.true_and, if_neg hb] at h
            cases hl : handleReadLoop env true i io n w1 with
            | none => rw [hl] at h; cases h
            | some y =>
              obtain ⟨w2, as2⟩ := y
              rw [hl] at h
              simp only [Option.map_some, Option.some.injEq, Prod.mk.injEq] at h
              obtain ⟨rfl, rfl⟩ := h
              obtain ⟨⟨l2, hl2⟩, e', he', hiff⟩ := handleReadLoop_broke env i io n w1 w2 e1 as2 he1 hl
              refine ⟨⟨l1 ++ l2, by rw [hl2, ← hl1, List.append_assoc]⟩, e', he', hiff.trans ?_⟩
              rw [hfd, hopen]
              simp only [Bool.true_eq_false, false_or]
              constructor
              · rintro ⟨k, s, h1, h2, h3, h4⟩
                refine ⟨k, s, ?_, h2, h3, h4⟩
                rw [← hl1, List.length_append] at h1
                omega
              · rintro ⟨k, s, h1, h2, h3, h4⟩
                refine ⟨k, s, ?_, h2, h3, h4⟩
                by_cases hk : w1.out.length ≤ k
                · exact hk
                · exfalso
                  apply hb
                  rw [brokePipe_iff]
                  refine ⟨k, s, h1, ?_, h3, h4⟩
                  rw [hl2, List.getElem?_append_left (by omega)] at h2
                  exact h2

/-- **C121** (part): reading a reconnecting TCP client stops before its time exactly when a write to it in this event, also the
very first one, reported a broken connection: then, and only then, it waits for a new connection. -/
theorem C121_stops_partial (env : Env σ) (w w' : World σ) (i : Nat) (e : Ep) (he : w.eps[i]? = some e) (ho : e.fdOpen = true)
    (io : SysRead) (as : List Arrival) (h : handleReadLoop env true i io (rxBufMax + 1) w = some (w', as)) :
    ∃ e', w'.eps[i]? = some e' ∧ (e'.fdOpen = false ↔ Spec.Broke env i w w') := by
  obtain ⟨_, e', h1, h2⟩ := handleReadLoop_broke env i io _ w w' e as he h
  exact ⟨e', h1, by rw [h2, ho]; simp⟩

/-- **C121** (part): a link is readable and the bytes read are whole valid messages. Handling them one after the other, as the
code does, handles all of them in this event - the same as taking them all out of the buffer first. Missing: the link is a
reconnecting TCP client and a write to it in this event reports a broken connection (`C121_violated`). -/
theorem C121_handled_partial (env : Env σ) (retry : Bool) (w : World σ) (hw : Reached env w) (i : Nat) (e : Ep)
    (he : w.eps[i]? = some e) (ho : e.fdOpen = true) (hll : e.rx.lastLen = 0) (hb : e.rx.buf = []) (fs : List Frame)
    (hv : ∀ f ∈ fs, f.WF ∧ f.CrcOk env.tbl) (hlen : (fs.flatMap Frame.encode).length ≤ 1120)
    (hp : retry = false ∨ ∀ w' as, handleReadLoop env retry i (.got (fs.flatMap Frame.encode)) (rxBufMax + 1) w = some (w', as) →
      ¬ Spec.Broke env i w w') :
    ∃ w' as, handleReadLoop env retry i (.got (fs.flatMap Frame.encode)) (rxBufMax + 1) w = some (w', as) ∧
      handleRead env w i (.got (fs.flatMap Frame.encode)) = some (w', as) ∧
      as.map Arrival.msg = fs.map (fun f => (f.toMsg env.tbl).1) ∧ ∀ a ∈ as, a.ep = i := by
  obtain ⟨w', as, h⟩ := handleReadLoop_total env retry i (.got (fs.flatMap Frame.encode)) (rxBufMax + 1) w (reached_inv hw)
  refine ⟨w', as, h, ?_⟩
  have hrun : runMsgs env i (setRx w i (drain env.tbl e.fdOpen (rxBufMax + 1) e.rx (.got (fs.flatMap Frame.encode))).1)
      ((drain env.tbl e.fdOpen (rxBufMax + 1) e.rx (.got (fs.flatMap Frame.encode))).2.1.map Prod.fst) = some (w', as) := by
    rcases handleReadLoop_spec env retry i _ _ w w' e as he h with h1 | ⟨hre, k, w1, _, _, _, _, hbp, hcl⟩
    · exact h1
    · rcases hp with hp | hp
      · rw [hp] at hre; cases hre
      · have := hp w' as h
        obtain ⟨k, s, h1, h2, h3⟩ := (brokePipe_iff env i _ _).mp hbp
        exact absurd ⟨k, s, h1, by rw [hcl, closeLink_out]; exact h2, h3⟩ this
  refine ⟨?_, ?_⟩
  · unfold handleRead
    rw [he]
    simp only []
    rw [setRx_some w i _ he]
    exact hrun
  · rw [ho] at hrun
    obtain ⟨hinv, _⟩ := set_inv (reached_inv hw) (i := i) (e := e)
      (e' := { e with rx := (drain env.tbl true (rxBufMax + 1) e.rx (.got (fs.flatMap Frame.encode))).1 })
      he rfl rfl rfl rfl rfl
    rw [setRx_some w i _ he] at hinv
    obtain ⟨w2, as2, h1, _, _, _, h5, h6⟩ := runMsgs_spec env i _ _ hinv
    rw [hrun] at h1
    cases h1
    obtain ⟨_, _, d3⟩ := datagram_one env.tbl e.rx hll hb fs (fun f hf => (hv f hf).1) (fun f hf => (hv f hf).2) hlen
    unfold handleReadRx at d3
    refine ⟨?_, h6⟩
    rw [h5, d3, List.map_map]
    rfl

/-- **C121** (part): whatever the results of the writes, the messages of one read are handled from the first one on; those not
handled in this event are still complete in the receive buffer, and the link waits for a new connection. -/
theorem C121_waiting_partial (env : Env σ) (retry : Bool) (w : World σ) (hw : Reached env w) (i : Nat) (e : Ep)
    (he : w.eps[i]? = some e) (ho : e.fdOpen = true) (hll : e.rx.lastLen = 0) (hb : e.rx.buf = []) (fs : List Frame)
    (hv : ∀ f ∈ fs, f.WF ∧ f.CrcOk env.tbl) (hlen : (fs.flatMap Frame.encode).length ≤ 1120) :
    ∃ w' as k, handleReadLoop env retry i (.got (fs.flatMap Frame.encode)) (rxBufMax + 1) w = some (w', as) ∧ k ≤ fs.length ∧
      as.map Arrival.msg = (fs.take k).map (fun f => (f.toMsg env.tbl).1) ∧
      (k < fs.length → ∃ e', w'.eps[i]? = some e' ∧ e'.fdOpen = false ∧
        Means env.tbl e'.rx.pending ((fs.drop k).map (Frame.toMsg env.tbl)) []) := by
  obtain ⟨w', as, h⟩ := handleReadLoop_total env retry i (.got (fs.flatMap Frame.encode)) (rxBufMax + 1) w (reached_inv hw)
  rcases handleReadLoop_spec env retry i _ _ w w' e as he h with h1 | ⟨hre, k, w1, hk, hl, hpos, hrun, hbp, hcl⟩
  · refine ⟨w', as, fs.length, h, Nat.le_refl _, ?_, fun h => absurd h (Nat.lt_irrefl _)⟩
    rw [ho] at h1
    obtain ⟨hinv, _⟩ := set_inv (reached_inv hw) (i := i) (e := e)
      (e' := { e with rx := (drain env.tbl true (rxBufMax + 1) e.rx (.got (fs.flatMap Frame.encode))).1 })
      he rfl rfl rfl rfl rfl
    rw [setRx_some w i _ he] at hinv
    obtain ⟨w2, as2, h2, _, _, _, h5, h6⟩ := runMsgs_spec env i _ _ hinv
    rw [h1] at h2
    cases h2
    obtain ⟨_, _, d3⟩ := datagram_one env.tbl e.rx hll hb fs (fun f hf => (hv f hf).1) (fun f hf => (hv f hf).2) hlen
    unfold handleReadRx at d3
    rw [h5, d3, List.map_map, List.take_length]
    rfl
  · rw [ho] at hl hrun
    obtain ⟨hinv, _⟩ := set_inv (reached_inv hw) (i := i) (e := e)
      (e' := { e with rx := (drain env.tbl true k e.rx (.got (fs.flatMap Frame.encode))).1 })
      he rfl rfl rfl rfl rfl
    rw [setRx_some w i _ he] at hinv
    obtain ⟨w2, as2, h2, _, _, _, h5, h6⟩ := runMsgs_spec env i _ _ hinv
    rw [hrun] at h2
    cases h2
    obtain ⟨ms2, t, hm2⟩ := Means.exists env.tbl (drain env.tbl true k e.rx (.got (fs.flatMap Frame.encode))).1.pending
    have hm := drain_means env.tbl (.got (fs.flatMap Frame.encode)) k e.rx ms2 t hm2 (fun h0 => by omega)
    have hpend : e.rx.pending ++ consumedBy e.rx (.got (fs.flatMap Frame.encode)) = fs.flatMap Frame.encode := by
      simp only [Rx.pending, consumedBy, hll, hb, ne_eq, not_true_eq_false, if_false, List.drop_nil, List.nil_append, rxBufMax,
        List.length_nil, Nat.sub_zero]
      exact List.take_of_length_le hlen
    rw [hpend] at hm
    obtain ⟨g1, _⟩ := encode_fits (fun f hf => (hv f hf).1) env.tbl (fun f hf => (hv f hf).2)
    obtain ⟨e1, e2⟩ := Means.unique hm g1
    have hlen2 : k ≤ fs.length := by
      have := congrArg List.length e1
      simp only [List.length_append, List.length_map] at this
      omega
    have htake : (drain env.tbl true k e.rx (.got (fs.flatMap Frame.encode))).2.1 = (fs.take k).map (Frame.toMsg env.tbl) := by
      have := congrArg (List.take k) e1
      rwa [List.take_left' hl, ← List.map_take] at this
    have hdrop : ms2 = (fs.drop k).map (Frame.toMsg env.tbl) := by
      have := congrArg (List.drop k) e1
      rwa [List.drop_left' hl, ← List.map_drop] at this
    refine ⟨w', as, k, h, hlen2, ?_, fun _ => ?_⟩
    · rw [h5, htake, List.map_map]
      rfl
    · have hr := congrArg (·[i]?) (receivers_runMsgs env i _ hrun)
      rw [receivers_setRx] at hr
      simp only [receivers, List.getElem?_map, List.getElem?_modify, he, Option.map_some] at hr
      cases h7 : w1.eps[i]? with
      | none => rw [h7] at hr; cases hr
      | some e' =>
        rw [h7] at hr
        simp only [Option.map_some, if_true, Option.map_eq_map, Option.some.injEq, Prod.mk.injEq] at hr
        refine ⟨{ e' with fdOpen := false }, ?_, rfl, ?_⟩
        · rw [hcl]
          unfold closeLink
          rw [h7]
          simp only []
          rw [List.getElem?_set_self (List.getElem?_eq_some_iff.mp h7).1]
        · show Means env.tbl e'.rx.pending _ _
          rw [hr.1, ← hdrop, ← e2]
          exact hm2

/-! ### Samples and witness -/

namespace Sample

/-- REMOTE_LOG_DATA_BLOCK number 3 from 1/1 to 2/0. -/
def block3 : Frame :=
  { v2 := true, seq := 8, sys := 1, comp := 1, msgid := 184, payload := [3, 0, 0, 0, 2, 0, 7], crcLo := 251, crcHi := 7 }

/-- A heartbeat of an ArduPilot vehicle, a log block, a heartbeat, in one segment. -/
def burst : List Frame := [hb2, block3, { hb2 with seq := 9, crcLo := 51, crcHi := 192 }]

/-- A TCP client and an ArduPilot log. -/
def rlEps : List Ep := [{ kind := .tcp }, { kind := .log, learned := [sysComp 2 0] }]

/-- Writes succeed, except number 2. -/
def rlEnv (bad : Bool) : Env LogSt :=
  Env.withLogs
    { tbl := binTbl, hashFn := fun _ => 0, clock := fun n => n, wres := fun n => if bad && n == 2 then -32 else 1,
      log := fun _ s m => (s, [], m.data) }
    (fun _ => binEnv) (fun n => UInt64.ofNat (1000 * n))

def rl0 : World LogSt := start rlEps (fun _ => ⟨some (.bin (BinLog.init none .always)), 0⟩)

theorem rl0_reached (bad : Bool) : Reached (rlEnv bad) rl0 := .start (by unfold ConfigOk; decide)

theorem burst_ok : ∀ f ∈ burst, f.WF ∧ f.CrcOk binTbl := by
  intro f hf
  simp only [burst, List.mem_cons, List.not_mem_nil, or_false] at hf
  rcases hf with rfl | rfl | rfl
  · exact ⟨hb2_wf, by intro e h; have h : some heartbeatEntry = some e := h; cases h; decide⟩
  · exact ⟨by simp [Frame.WF, block3], by
      intro e h
      have h : some (_ : MsgEntry) = some e := h
      cases h; decide⟩
  · exact ⟨by simp [Frame.WF, hb2], by intro e h; have h : some heartbeatEntry = some e := h; cases h; decide⟩

end Sample

/-- **C121** is false of the code: a TCP client that reconnects gets three messages in one segment. The log endpoint answers
the second one; the connection turns out to be broken, the descriptor is closed, and the third message, which has arrived
completely, is not handled. Without the broken connection it is. -/
theorem C121_violated :
    ∃ (w : World LogSt) (fs : List Frame), Reached (Sample.rlEnv true) w ∧ (∀ f ∈ fs, f.WF ∧ f.CrcOk Sample.binTbl) ∧ fs.length = 3 ∧
      (handleReadLoop (Sample.rlEnv true) true 0 (.got (fs.flatMap Frame.encode)) (rxBufMax + 1) w).map
        (fun r => (r.2.map Arrival.passed, (r.1.eps[0]?).map Ep.fdOpen)) = some ([true, true], some false) ∧
      (handleReadLoop (Sample.rlEnv false) true 0 (.got (fs.flatMap Frame.encode)) (rxBufMax + 1) w).map
        (fun r => (r.2.map Arrival.passed, (r.1.eps[0]?).map Ep.fdOpen)) = some ([true, true, true], some true) :=
  ⟨Sample.rl0, Sample.burst, Sample.rl0_reached true, Sample.burst_ok, rfl, by decide +kernel, by decide +kernel⟩

example : (Sample.rl0.eps[0]?).map (fun e => (e.fdOpen, e.rx.lastLen, e.rx.buf)) = some (true, 0, []) ∧
    (Sample.burst.flatMap Frame.encode).length ≤ 1120 ∧
    (handleReadLoop (Sample.rlEnv false) true 0 (.got (Sample.burst.flatMap Frame.encode)) (rxBufMax + 1) Sample.rl0).map
      (fun r => brokePipe (Sample.rlEnv false) 0 Sample.rl0 r.1) = some false :=
  ⟨by decide +kernel, by decide +kernel, by decide +kernel⟩

/-- `C121_handled_partial` and `C121_stops_partial` apply to the burst, without and with a broken connection. -/
example : ∃ w as, handleReadLoop (Sample.rlEnv false) true 0 (.got (Sample.burst.flatMap Frame.encode)) (rxBufMax + 1) Sample.rl0 =
    some (w, as) ∧ ¬ Spec.Broke (Sample.rlEnv false) 0 Sample.rl0 w := by
  obtain ⟨w, as, h⟩ := handleReadLoop_total (Sample.rlEnv false) true 0 (.got (Sample.burst.flatMap Frame.encode)) (rxBufMax + 1)
    Sample.rl0 (reached_inv (Sample.rl0_reached false))
  refine ⟨w, as, h, fun hb => ?_⟩
  have h1 : (handleReadLoop (Sample.rlEnv false) true 0 (.got (Sample.burst.flatMap Frame.encode)) (rxBufMax + 1) Sample.rl0).map
      (fun r => brokePipe (Sample.rlEnv false) 0 Sample.rl0 r.1) = some false := by decide +kernel
  rw [h] at h1
  simp only [Option.map_some, Option.some.injEq] at h1
  rw [(brokePipe_iff _ _ _ _).mpr hb] at h1
  cases h1

example : ∃ w as, handleReadLoop (Sample.rlEnv true) true 0 (.got (Sample.burst.flatMap Frame.encode)) (rxBufMax + 1) Sample.rl0 =
    some (w, as) ∧ Spec.Broke (Sample.rlEnv true) 0 Sample.rl0 w := by
  obtain ⟨w, as, h⟩ := handleReadLoop_total (Sample.rlEnv true) true 0 (.got (Sample.burst.flatMap Frame.encode)) (rxBufMax + 1)
    Sample.rl0 (reached_inv (Sample.rl0_reached true))
  refine ⟨w, as, h, ?_⟩
  have h1 : (handleReadLoop (Sample.rlEnv true) true 0 (.got (Sample.burst.flatMap Frame.encode)) (rxBufMax + 1) Sample.rl0).map
      (fun r => brokePipe (Sample.rlEnv true) 0 Sample.rl0 r.1) = some true := by decide +kernel
  rw [h] at h1
  simp only [Option.map_some, Option.some.injEq] at h1
  exact (brokePipe_iff _ _ _ _).mp h1

end Verif
