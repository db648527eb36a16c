import Verif.Spec.Segments
import Verif.Props.Routing

/- Property C108: how the received bytes are cut into reads has no influence. -/

namespace Verif
open Spec

variable {σ : Type}

theorem map_getElem? (h : List Ep) (i : Nat) : (h.map noRx)[i]? = (h[i]?).map noRx := by simp

theorem addSysComp_noRx (id : UInt16) : ∀ (fuel : Nat) (h : List Ep) (i : Nat),
    addSysComp fuel (h.map noRx) i id = (addSysComp fuel h i id).map (List.map noRx)
  | 0, _, _ => rfl
  | fuel + 1, h, i => by
    unfold addSysComp
    rw [map_getElem?]
    cases he : h[i]? with
    | none => rfl
    | some e =>
      simp only [Option.map_some]
      have : (noRx e).hasSysComp id = e.hasSysComp id := rfl
      rw [this]
      split
      · rfl
      · have hset : (h.map noRx).set i { noRx e with learned := (noRx e).learned ++ [id] } =
            (h.set i { e with learned := e.learned ++ [id] }).map noRx := by
          rw [List.map_set]; rfl
        rw [hset]
        show List.foldlM _ _ e.members = _
        generalize h.set i { e with learned := e.learned ++ [id] } = g
        generalize e.members = ms
        induction ms generalizing g with
        | nil => rfl
        | cons j ms ih =>
          simp only [List.foldlM_cons]
          rw [addSysComp_noRx id fuel g j]
          cases addSysComp fuel g j id with
          | none => rfl
          | some g' => exact ih g'

theorem foldl_seen {α : Type} {f g : World σ → α → World σ} (h : ∀ w a, f (seen w) a = seen (g w a)) :
    ∀ (as : List α) (w : World σ), as.foldl f (seen w) = seen (as.foldl g w)
  | [], _ => rfl
  | a :: as, w => by simp only [List.foldl_cons, h]; exact foldl_seen h as _

theorem kind_seen (w : World σ) (i : Nat) : ((seen w).eps[i]?).map Ep.kind = (w.eps[i]?).map Ep.kind := by
  show ((w.eps.map noRx)[i]?).map Ep.kind = _
  rw [map_getElem?]
  cases w.eps[i]? <;> rfl

theorem open_seen (w : World σ) (i : Nat) : ((seen w).eps[i]?).map Ep.fdOpen = (w.eps[i]?).map Ep.fdOpen := by
  show ((w.eps.map noRx)[i]?).map Ep.fdOpen = _
  rw [map_getElem?]
  cases w.eps[i]? <;> rfl

theorem writeMsg_seen (env : Env σ) {route : World σ → Msg → World σ} (hr : ∀ w m, route (seen w) m = seen (route w m)) (gen : Bool)
    (w : World σ) (i : Nat) (m : Msg) :
    writeMsg env route gen (seen w) i m = (seen (writeMsg env route gen w i m).1, (writeMsg env route gen w i m).2) := by
  unfold writeMsg
  rw [kind_seen, open_seen]
  split
  · refine Prod.ext ?_ rfl
    exact foldl_seen hr _ { w with
      out := w.out ++ [{ ep := i, bytes := m.data, gen := gen }]
      logs := fun j => if j = i then (env.log i (w.logs i) m).1 else w.logs j }
  · rfl

theorem routeLoop_seen (env : Env σ) {route : World σ → Msg → World σ} (hr : ∀ w m, route (seen w) m = seen (route w m)) (gen : Bool) :
    ∀ (is : List Nat) (w : World σ) (m : Msg) (u : Bool),
      routeLoop env route gen is (seen w) m u = (seen (routeLoop env route gen is w m u).1, (routeLoop env route gen is w m u).2)
  | [], _, _, _ => rfl
  | i :: is, w, m, u => by
    unfold routeLoop
    rw [show (seen w).eps[i]? = (w.eps[i]?).map noRx from map_getElem? _ _]
    cases w.eps[i]? with
    | none => exact routeLoop_seen env hr gen is w m u
    | some e =>
      simp only [Option.map_some]
      rw [show acceptMsg env.sniffer (noRx e) m = acceptMsg env.sniffer e m from rfl]
      split
      · rw [writeMsg_seen env hr]
        exact routeLoop_seen env hr gen is _ _ _
      · exact routeLoop_seen env hr gen is w m _
      · exact routeLoop_seen env hr gen is w m _

theorem routeMsg_seen (env : Env σ) : ∀ (depth : Nat) (gen : Bool) (w : World σ) (m : Msg),
    routeMsg env depth gen (seen w) m = seen (routeMsg env depth gen w m)
  | 0, _, _, _ => rfl
  | depth + 1, gen, w, m => by
    unfold routeMsg
    rw [show (seen w).active = w.active from rfl, routeLoop_seen env (routeMsg_seen env depth true)]
    simp only
    split <;> rfl

theorem handleMsg_seen (env : Env σ) (w : World σ) (i : Nat) (m : Msg) :
    handleMsg env (seen w) i m = (handleMsg env w i m).map (fun x => (seen x.1, x.2)) := by
  unfold handleMsg
  rw [show (seen w).eps[i]? = (w.eps[i]?).map noRx from map_getElem? _ _]
  cases w.eps[i]? with
  | none => rfl
  | some e =>
    simp only [Option.map_some]
    rw [show (seen w).dedup = w.dedup from rfl, show (seen w).checks = w.checks from rfl]
    cases w.dedup.check env.hashFn env.dedupPeriod (env.clock w.checks) m.data with
    | none => rfl
    | some x =>
      obtain ⟨d, isNew⟩ := x
      simp only []
      cases isNew with
      | false => rfl
      | true =>
        simp only [Bool.not_true, Bool.false_eq_true, if_false]
        rw [show allowedIn (noRx e).filters m = allowedIn e.filters m from rfl]
        split
        · rfl
        · rw [show (seen w).eps = w.eps.map noRx from rfl, List.length_map, addSysComp_noRx]
          cases addSysComp (w.eps.length + 1) w.eps i (sysComp m.srcSys m.srcComp) with
          | none => rfl
          | some eps =>
            simp only [Option.map_some, Option.some.injEq, Prod.mk.injEq, and_true]
            exact routeMsg_seen env 2 false { w with dedup := d, checks := w.checks + 1, eps := eps } m

/-- Messages and other events in order. -/
def runInputs (env : Env σ) : World σ → List Input → Option (World σ × List Arrival)
  | w, [] => some (w, [])
  | w, .msg i m :: is =>
    match handleMsg env w i m with
    | none => none
    | some (w', b) =>
      match runInputs env w' is with
      | none => none
      | some (w'', as) => some (w'', { ep := i, msg := m, passed := b } :: as)
  | w, .other ev :: is =>
    match routerStep env w ev with
    | none => none
    | some (w', as) =>
      match runInputs env w' is with
      | none => none
      | some (w'', bs) => some (w'', as ++ bs)

theorem runInputs_msgs (env : Env σ) (i : Nat) : ∀ (ms : List Msg) (w : World σ) (is : List Input) {w' : World σ} {as : List Arrival},
    runMsgs env i w ms = some (w', as) →
    runInputs env (seen w) (ms.map (.msg i) ++ is) =
      (runInputs env (seen w') is).map (fun x => (x.1, as ++ x.2))
  | [], w, is, w', as, h => by
    simp only [runMsgs, Option.some.injEq, Prod.mk.injEq] at h
    obtain ⟨rfl, rfl⟩ := h
    simp
  | m :: ms, w, is, w', as, h => by
    unfold runMsgs at h
    cases hm : handleMsg env w i m with
    | none => rw [hm] at h; cases h
    | some x =>
      obtain ⟨w1, b⟩ := x
      rw [hm] at h
      simp only [] at h
      cases hr : runMsgs env i w1 ms with
      | none => rw [hr] at h; cases h
      | some y =>
        obtain ⟨w2, bs⟩ := y
        rw [hr] at h
        cases h
        simp only [List.map_cons, List.cons_append]
        rw [runInputs.eq_2, handleMsg_seen, hm]
        simp only [Option.map_some]
        rw [runInputs_msgs env i ms w1 is hr]
        cases runInputs env (seen w') is <;> rfl

/-! ### Receiving depends on nothing else -/

theorem receivers_addSysComp (id : UInt16) : ∀ (fuel : Nat) (h h' : List Ep) (i : Nat), addSysComp fuel h i id = some h' →
    h'.map (fun e => (e.rx, e.fdOpen)) = h.map (fun e => (e.rx, e.fdOpen))
  | 0, _, _, _, hh => by cases hh
  | fuel + 1, h, h', i, hh => by
    unfold addSysComp at hh
    cases he : h[i]? with
    | none => rw [he] at hh; cases hh; rfl
    | some e =>
      rw [he] at hh
      simp only [] at hh
      split at hh
      · cases hh; rfl
      · have hset : (h.set i { e with learned := e.learned ++ [id] }).map (fun e => (e.rx, e.fdOpen)) = h.map (fun e => (e.rx, e.fdOpen)) := by
          rw [List.map_set]
          refine List.ext_getElem? (fun k => ?_)
          rw [List.getElem?_set]
          split
          · rename_i hk; subst hk; obtain ⟨hl, hx⟩ := List.getElem?_eq_some_iff.mp he; simp [hl, hx]
          · rfl
        rw [← hset]
        generalize h.set i { e with learned := e.learned ++ [id] } = g at hh
        generalize e.members = ms at hh
        clear hset
        induction ms generalizing g with
        | nil => simp only [List.foldlM_nil, Option.pure_def, Option.some.injEq] at hh; rw [hh]
        | cons j ms ih =>
          simp only [List.foldlM_cons, Option.bind_eq_bind, Option.bind_eq_some_iff] at hh
          obtain ⟨g', h1, h2⟩ := hh
          rw [ih g' h2, receivers_addSysComp id fuel g g' j h1]

theorem receivers_handleMsg (env : Env σ) {w w' : World σ} {i : Nat} {m : Msg} {b : Bool} (h : handleMsg env w i m = some (w', b)) :
    receivers w' = receivers w := by
  unfold handleMsg at h
  cases he : w.eps[i]? with
  | none => rw [he] at h; cases h; rfl
  | some e =>
    rw [he] at h
    simp only [] at h
    split at h
    · cases h
    · split at h
      · cases h; rfl
      · split at h
        · cases h; rfl
        · split at h
          · cases h
          · rename_i eps' ha
            cases h
            obtain ⟨new, hk, _⟩ := routeMsg_spec env 1 { w with dedup := _, checks := w.checks + 1, eps := eps' } m
            unfold receivers
            rw [hk.eps]
            exact receivers_addSysComp _ _ _ _ _ ha

theorem receivers_runMsgs (env : Env σ) (i : Nat) : ∀ (ms : List Msg) {w w' : World σ} {as : List Arrival},
    runMsgs env i w ms = some (w', as) → receivers w' = receivers w
  | [], w, w', as, h => by cases h; rfl
  | m :: ms, w, w', as, h => by
    unfold runMsgs at h
    split at h
    · cases h
    · rename_i w1 b hm
      split at h
      · cases h
      · rename_i hr
        cases h
        rw [receivers_runMsgs env i ms hr, receivers_handleMsg env hm]

/-- Receivers after a history. -/
def receiversAfter (tbl : MsgTable) : List (Rx × Bool) → List RouterEv → List (Rx × Bool)
  | rs, [] => rs
  | rs, .read i io :: evs =>
    match rs[i]? with
    | none => receiversAfter tbl rs evs
    | some r => receiversAfter tbl (rs.set i ((drain tbl r.2 (rxBufMax + 1) r.1 io).1, r.2)) evs
  | rs, .accept :: evs => receiversAfter tbl (rs ++ [({}, true)]) evs
  | rs, .fd i o :: evs => receiversAfter tbl (rs.modify i (fun r => (r.1, o))) evs
  | rs, .hangups _ :: evs => receiversAfter tbl rs evs
  | rs, .logCall _ _ :: evs => receiversAfter tbl rs evs
  | rs, .aggregate :: evs => receiversAfter tbl rs evs

theorem receiversAfter_cons (tbl : MsgTable) (rs : List (Rx × Bool)) (ev : RouterEv) (evs : List RouterEv) :
    receiversAfter tbl rs (ev :: evs) = receiversAfter tbl (receiversAfter tbl rs [ev]) evs := by
  cases ev with
  | read i io =>
    simp only [receiversAfter]
    cases rs[i]? <;> rfl
  | _ => rfl

theorem receivers_step (env : Env σ) {w w1 : World σ} {ev : RouterEv} {as : List Arrival} (hs : routerStep env w ev = some (w1, as)) :
    receivers w1 = receiversAfter env.tbl (receivers w) [ev] := by
  cases ev with
  | read i io =>
    have hg : (receivers w)[i]? = (w.eps[i]?).map (fun e => (e.rx, e.fdOpen)) := by simp [receivers]
    simp only [receiversAfter, hg]
    cases he : w.eps[i]? with
    | none =>
      simp only [routerStep, handleRead, he] at hs
      cases hs
      rfl
    | some e =>
      simp only [routerStep, handleRead, he] at hs
      simp only [Option.map_some]
      rw [receivers_runMsgs env i _ hs]
      simp [receivers, List.map_set]
  | accept => cases hs; simp [receivers, receiversAfter]
  | hangups gone => cases hs; rfl
  | fd i o =>
    refine List.ext_getElem? (fun k => ?_)
    simp only [receiversAfter]
    rw [List.getElem?_modify]
    simp only [routerStep] at hs
    cases he : w.eps[i]? with
    | none =>
      rw [he] at hs; cases hs
      by_cases e : i = k
      · subst e; simp [receivers, he]
      · simp [e, receivers]
    | some x =>
      rw [he] at hs; cases hs
      by_cases e : i = k
      · subst e; obtain ⟨hl, hx⟩ := List.getElem?_eq_some_iff.mp he; simp [receivers, hl, hx]
      · simp [receivers, List.map_set, List.getElem?_set, e]
  | logCall i c =>
    cases hs
    obtain ⟨new, hk, _⟩ := logCall_kept env w i c
    unfold receivers
    rw [hk.eps]
    rfl
  | aggregate => cases hs; unfold aggregate; split <;> rfl

theorem receivers_run (env : Env σ) : ∀ (evs : List RouterEv) (w : World σ) {w' : World σ} {as : List Arrival},
    runRouter env w evs = some (w', as) → receivers w' = receiversAfter env.tbl (receivers w) evs
  | [], w, w', as, h => by cases h; rfl
  | ev :: evs, w, w', as, h => by
    unfold runRouter at h
    split at h
    · cases h
    · rename_i w1 as1 hs
      split at h
      · cases h
      · rename_i hr
        cases h
        rw [receiversAfter_cons, ← receivers_step env hs]
        exact receivers_run env evs w1 hr

theorem runInputs_append_nil (env : Env σ) (w : World σ) (ev : RouterEv) {w1 : World σ} {as : List Arrival}
    (h : routerStep env (seen w) ev = some (seen w1, as)) (is : List Input) :
    runInputs env (seen w) (.other ev :: is) = (runInputs env (seen w1) is).map (fun x => (x.1, as ++ x.2)) := by
  rw [runInputs.eq_3, h]
  simp only
  cases runInputs env (seen w1) is <;> rfl

/-- A history of the router seen without receive buffers is the history of its inputs. -/
theorem runRouter_inputs (env : Env σ) : ∀ (evs : List RouterEv) (w : World σ) {w' : World σ} {as : List Arrival},
    runRouter env w evs = some (w', as) →
    runInputs env (seen w) (traffic env.tbl (receivers w) evs) = some (seen w', as)
  | [], w, w', as, h => by cases h; rfl
  | ev :: evs, w, w', as, h => by
    unfold runRouter at h
    cases hs : routerStep env w ev with
    | none => rw [hs] at h; cases h
    | some x =>
      obtain ⟨w1, as1⟩ := x
      rw [hs] at h
      simp only [] at h
      cases hr : runRouter env w1 evs with
      | none => rw [hr] at h; cases h
      | some y =>
        obtain ⟨w2, bs⟩ := y
        rw [hr] at h
        cases h
        have ih := runRouter_inputs env evs w1 hr
        have hrec0 := receivers_step env hs
        cases ev with
        | read i io =>
          unfold traffic
          have hg : (receivers w)[i]? = (w.eps[i]?).map (fun e => (e.rx, e.fdOpen)) := by simp [receivers]
          simp only [hg]
          cases he : w.eps[i]? with
          | none =>
            simp only [routerStep, handleRead, he] at hs
            cases hs
            simpa using ih
          | some e =>
            simp only [routerStep, handleRead, he] at hs
            simp only [Option.map_some]
            have hseen : seen { w with eps := w.eps.set i { e with rx := (drain env.tbl e.fdOpen (rxBufMax + 1) e.rx io).1 } } = seen w := by
              unfold seen
              simp only [List.map_set]
              congr 1
              refine List.ext_getElem? (fun k => ?_)
              rw [List.getElem?_set]
              split
              · rename_i hk; subst hk; obtain ⟨hl, hx⟩ := List.getElem?_eq_some_iff.mp he; simp [hl, hx, noRx]
              · rfl
            have hrec : receivers w1 = (receivers w).set i ((drain env.tbl e.fdOpen (rxBufMax + 1) e.rx io).1, e.fdOpen) := by
              rw [hrec0]
              simp only [receiversAfter, hg, he, Option.map_some]
            rw [← hrec]
            have := runInputs_msgs env i _ _ (traffic env.tbl (receivers w1) evs) hs
            rw [hseen, ih] at this
            simpa [Function.comp_def] using this
        | accept =>
          simp only [routerStep] at hs
          cases hs
          have hst : routerStep env (seen w) .accept = some (seen { w with eps := w.eps ++ [{ kind := .tcp }], active := w.active ++ [w.eps.length] }, []) := by
            simp [routerStep, seen, noRx]
          unfold traffic
          rw [runInputs_append_nil env w .accept hst]
          have : receivers { w with eps := w.eps ++ [{ kind := .tcp }], active := w.active ++ [w.eps.length] } = receivers w ++ [(({} : Rx), true)] := by
            simp [receivers]
          rw [← this, ih]
          rfl
        | hangups gone =>
          simp only [routerStep] at hs
          cases hs
          unfold traffic
          rw [runInputs_append_nil env w (.hangups gone) (w1 := { w with active := w.active.filter (fun i => i ∉ gone), hangup := false }) rfl]
          have : receivers { w with active := w.active.filter (fun i => i ∉ gone), hangup := false } = receivers w := rfl
          rw [← this, ih]
          rfl
        | fd i o =>
          have hrec : receivers w1 = (receivers w).modify i (fun r => (r.1, o)) := hrec0
          have hst : routerStep env (seen w) (.fd i o) = some (seen w1, []) := by
            simp only [routerStep] at hs ⊢
            rw [show (seen w).eps[i]? = (w.eps[i]?).map noRx from map_getElem? _ _]
            cases he : w.eps[i]? with
            | none => rw [he] at hs; cases hs; rfl
            | some x => rw [he] at hs; cases hs; simp [seen, List.map_set, noRx]
          have has : as1 = [] := by
            simp only [routerStep] at hs
            cases he : w.eps[i]? with
            | none => rw [he] at hs; cases hs; rfl
            | some x => rw [he] at hs; cases hs; rfl
          unfold traffic
          rw [runInputs_append_nil env w (.fd i o) hst, ← hrec, ih, has]
          rfl
        | logCall i c =>
          simp only [routerStep] at hs
          cases hs
          have hst : routerStep env (seen w) (.logCall i c) = some (seen (logCall env w i c), []) := by
            simp only [routerStep, logCall]
            rw [kind_seen]
            split
            · simp only [Option.some.injEq, Prod.mk.injEq, and_true]
              exact foldl_seen (routeMsg_seen env 2 true) _ { w with
                logs := fun j => if j = i then (env.logCall i c (w.logs i)).1 else w.logs j }
            · rfl
          have hrec : receivers (logCall env w i c) = receivers w := by
            obtain ⟨new, hk, _⟩ := logCall_kept env w i c
            unfold receivers
            rw [hk.eps]
          unfold traffic
          rw [runInputs_append_nil env w (.logCall i c) hst, ← hrec, ih]
          rfl
        | aggregate =>
          simp only [routerStep] at hs
          cases hs
          have hst : routerStep env (seen w) .aggregate = some (seen (aggregate w), []) := by
            simp only [routerStep, aggregate]
            rw [show (seen w).unknown = w.unknown from rfl]
            split <;> rfl
          have hrec : receivers (aggregate w) = receivers w := by
            unfold aggregate
            split <;> rfl
          unfold traffic
          rw [runInputs_append_nil env w .aggregate hst, ← hrec, ih]
          rfl

/-! ### Statistics have no influence -/

/-- A receiver without statistics. -/
def core (rx : Rx) : List UInt8 × Nat := (rx.buf, rx.lastLen)

theorem finishPacket_core (tbl : MsgTable) (b : List UInt8) (s s' : RxStat) (h : Hdr) :
    core (finishPacket tbl b s h).1 = core (finishPacket tbl b s' h).1 ∧ (finishPacket tbl b s h).2 = (finishPacket tbl b s' h).2 := by
  unfold finishPacket
  simp only
  split
  · split <;> exact ⟨rfl, rfl⟩
  · exact ⟨rfl, rfl⟩

theorem parseBuf_core (tbl : MsgTable) (b : List UInt8) (s s' : RxStat) :
    core (parseBuf tbl b s).1 = core (parseBuf tbl b s').1 ∧ (parseBuf tbl b s).2 = (parseBuf tbl b s').2 := by
  unfold parseBuf
  simp only
  split
  · exact ⟨rfl, rfl⟩
  · split
    · exact ⟨rfl, rfl⟩
    · exact finishPacket_core tbl _ s s' _

theorem readMsg_core (tbl : MsgTable) (o : Bool) (rx rx' : Rx) (h : core rx = core rx') (io : SysRead) :
    core (readMsg tbl o rx io).1 = core (readMsg tbl o rx' io).1 ∧ (readMsg tbl o rx io).2 = (readMsg tbl o rx' io).2 := by
  simp only [core, Prod.mk.injEq] at h
  obtain ⟨h1, h2⟩ := h
  unfold readMsg
  rw [h1, h2]
  split
  · exact ⟨by simp [core, h1, h2], rfl⟩
  · split
    · exact parseBuf_core tbl _ _ _
    · split
      · exact ⟨by simp [core, h1, h2], rfl⟩
      · split
        · exact ⟨by simp [core, h1, h2], rfl⟩
        · exact parseBuf_core tbl _ _ _

theorem drain_core (tbl : MsgTable) (o : Bool) (io : SysRead) : ∀ (n : Nat) (rx rx' : Rx), core rx = core rx' →
    core (drain tbl o n rx io).1 = core (drain tbl o n rx' io).1 ∧ (drain tbl o n rx io).2.1 = (drain tbl o n rx' io).2.1
  | 0, _, _, h => ⟨h, rfl⟩
  | n + 1, rx, rx', h => by
    obtain ⟨h1, h2⟩ := readMsg_core tbl o rx rx' h io
    unfold drain
    generalize readMsg tbl o rx io = a at h1 h2
    generalize readMsg tbl o rx' io = b at h1 h2
    obtain ⟨a1, a2⟩ := a
    obtain ⟨b1, b2⟩ := b
    cases h2
    cases a2 with
    | stop r => exact ⟨h1, rfl⟩
    | msg m k =>
      obtain ⟨h3, h4⟩ := drain_core tbl o io n a1 b1 h1
      exact ⟨h3, by simp only [h4]⟩

def cores (rs : List (Rx × Bool)) : List ((List UInt8 × Nat) × Bool) := rs.map (fun r => (core r.1, r.2))

theorem cores_getElem? (rs : List (Rx × Bool)) (i : Nat) : (cores rs)[i]? = (rs[i]?).map (fun r => (core r.1, r.2)) := by simp [cores]

theorem traffic_read (tbl : MsgTable) (rs : List (Rx × Bool)) (i : Nat) (io : SysRead) (evs : List RouterEv) :
    traffic tbl rs (.read i io :: evs) = match rs[i]? with
      | none => traffic tbl rs evs
      | some r => (drain tbl r.2 (rxBufMax + 1) r.1 io).2.1.map (fun m => .msg i m.1) ++
          traffic tbl (rs.set i ((drain tbl r.2 (rxBufMax + 1) r.1 io).1, r.2)) evs := by
  rw [traffic]
  rfl

theorem traffic_core (tbl : MsgTable) : ∀ (evs : List RouterEv) (rs rs' : List (Rx × Bool)), cores rs = cores rs' →
    traffic tbl rs evs = traffic tbl rs' evs ∧ cores (receiversAfter tbl rs evs) = cores (receiversAfter tbl rs' evs)
  | [], _, _, h => ⟨rfl, h⟩
  | ev :: evs, rs, rs', h => by
    have ih := traffic_core tbl evs
    cases ev with
    | read i io =>
      rw [traffic_read, traffic_read]
      unfold receiversAfter
      have hi : (cores rs)[i]? = (cores rs')[i]? := by rw [h]
      rw [cores_getElem?, cores_getElem?] at hi
      cases h1 : rs[i]? with
      | none =>
        rw [h1] at hi
        cases h2 : rs'[i]? with
        | none => exact ih rs rs' h
        | some r => rw [h2] at hi; cases hi
      | some r =>
        rw [h1] at hi
        cases h2 : rs'[i]? with
        | none => rw [h2] at hi; cases hi
        | some r' =>
          rw [h2] at hi
          simp only [Option.map_some, Option.some.injEq, Prod.mk.injEq] at hi
          obtain ⟨hc, ho⟩ := hi
          obtain ⟨h3, h4⟩ := drain_core tbl r.2 io (rxBufMax + 1) r.1 r'.1 hc
          have h5 := ih (rs.set i ((drain tbl r.2 (rxBufMax + 1) r.1 io).1, r.2)) (rs'.set i ((drain tbl r'.2 (rxBufMax + 1) r'.1 io).1, r'.2))
            (by
              simp only [cores, List.map_set] at h ⊢
              rw [h, ← ho, h3])
          simp only
          rw [← ho] at h5 ⊢
          rw [h4]
          exact ⟨by rw [h5.1], h5.2⟩
    | accept =>
      have h5 := ih (rs ++ [(({} : Rx), true)]) (rs' ++ [(({} : Rx), true)]) (by simp only [cores, List.map_append] at h ⊢; rw [h])
      rw [traffic, traffic, receiversAfter, receiversAfter]
      exact ⟨by simp only [h5.1], h5.2⟩
    | fd i o =>
      have h5 := ih (rs.modify i (fun r => (r.1, o))) (rs'.modify i (fun r => (r.1, o))) (by
        refine List.ext_getElem? (fun k => ?_)
        have hk : (cores rs)[k]? = (cores rs')[k]? := by rw [h]
        rw [cores_getElem?, cores_getElem?] at hk ⊢
        rw [List.getElem?_modify, List.getElem?_modify]
        cases h1 : rs[k]? <;> cases h2 : rs'[k]? <;> rw [h1, h2] at hk <;> simp at hk ⊢
        split <;> simp [hk])
      rw [traffic, traffic, receiversAfter, receiversAfter]
      exact ⟨by simp only [h5.1], h5.2⟩
    | hangups g => rw [traffic, traffic, receiversAfter, receiversAfter]; exact ⟨by simp only [(ih rs rs' h).1], (ih rs rs' h).2⟩
    | logCall i c => rw [traffic, traffic, receiversAfter, receiversAfter]; exact ⟨by simp only [(ih rs rs' h).1], (ih rs rs' h).2⟩
    | aggregate => rw [traffic, traffic, receiversAfter, receiversAfter]; exact ⟨by simp only [(ih rs rs' h).1], (ih rs rs' h).2⟩

theorem traffic_reads (tbl : MsgTable) (i : Nat) (post : List RouterEv) : ∀ (ios : List SysRead) (rs : List (Rx × Bool)) (rx : Rx),
    rs[i]? = some (rx, true) →
    traffic tbl rs (ios.map (.read i) ++ post) =
      (runRx tbl rx ios).2.map (fun m => .msg i m.1) ++ traffic tbl (rs.set i ((runRx tbl rx ios).1, true)) post ∧
    receiversAfter tbl rs (ios.map (.read i) ++ post) = receiversAfter tbl (rs.set i ((runRx tbl rx ios).1, true)) post
  | [], rs, rx, h => by
    have : rs.set i (rx, true) = rs := by
      obtain ⟨hl, hx⟩ := List.getElem?_eq_some_iff.mp h
      rw [← hx, List.set_getElem_self]
    simp [runRx, this]
  | io :: ios, rs, rx, h => by
    obtain ⟨hl, hx⟩ := List.getElem?_eq_some_iff.mp h
    obtain ⟨h1, h2⟩ := traffic_reads tbl i post ios (rs.set i ((handleReadRx tbl rx io).1, true)) (handleReadRx tbl rx io).1 (by simp [hl])
    rw [List.set_set] at h1 h2
    simp only [List.map_cons, List.cons_append, runRx, List.map_append, List.append_assoc]
    rw [traffic_read, receiversAfter, h]
    exact ⟨by rw [← h1]; rfl, h2⟩

theorem alike_iff {w w' : World σ} : Alike w w' ↔ seen w = seen w' ∧ cores (receivers w) = cores (receivers w') := by
  unfold Alike
  have hgen : ∀ v : World σ, cores (receivers v) = v.eps.map (fun e => ((e.rx.buf, e.rx.lastLen), e.fdOpen)) := by
    intro v; simp [cores, receivers, core, Function.comp_def]
  rw [hgen, hgen]
  constructor
  · rintro ⟨h1, h2⟩
    refine ⟨h1, ?_⟩
    have h3 : w.eps.map noRx = w'.eps.map noRx := congrArg World.eps h1
    refine List.ext_getElem? (fun k => ?_)
    have a := congrArg (fun l => l[k]?) h2
    have b := congrArg (fun l => l[k]?) h3
    simp only [List.getElem?_map] at a b ⊢
    cases he : w.eps[k]? <;> cases he' : w'.eps[k]? <;> rw [he, he'] at a b <;> simp [noRx] at a b ⊢
    exact ⟨a, b.2.2.2.2.2⟩
  · rintro ⟨h1, h2⟩
    refine ⟨h1, ?_⟩
    have := congrArg (List.map Prod.fst) h2
    simpa [Function.comp_def] using this

/-- **C108**: routing depends on what is received only through the messages: two routers that are alike get alike histories - the same
messages passed on or dropped, the same writes in the same order, the same learned addresses, the same counters and logs -
whenever the same messages complete in the same order relative to the other events, no matter in which reads. -/
theorem C108_only_messages (env : Env σ) (w1 w2 : World σ) (hw1 : Reached env w1) (hw2 : Reached env w2) (hs : seen w1 = seen w2)
    (evs1 evs2 : List RouterEv) (ht : traffic env.tbl (receivers w1) evs1 = traffic env.tbl (receivers w2) evs2) :
    ∃ w1' w2' as, runRouter env w1 evs1 = some (w1', as) ∧ runRouter env w2 evs2 = some (w2', as) ∧ seen w1' = seen w2' := by
  obtain ⟨w1', as1, h1, _⟩ := runRouter_spec env evs1 w1 (reached_inv hw1)
  obtain ⟨w2', as2, h2, _⟩ := runRouter_spec env evs2 w2 (reached_inv hw2)
  have r1 := runRouter_inputs env evs1 w1 h1
  have r2 := runRouter_inputs env evs2 w2 h2
  rw [ht, hs, r2] at r1
  simp only [Option.some.injEq, Prod.mk.injEq] at r1
  obtain ⟨e1, e2⟩ := r1
  subst e2
  exact ⟨w1', w2', _, h1, h2, e1.symm⟩

/-- **C108** (part): cutting the bytes of a link into reads in two ways - any noise and valid frames, possibly ending inside a
frame - and continuing with any history of the router in the same way leads to the same result in every respect but the
receive statistics. By repeated application this holds of any number of links and times. Missing: streams with corrupt
frames (`C108_violated`); for them see `C108_any_bytes_partial`. -/
theorem C108_segments_partial (env : Env σ) (w1 w2 : World σ) (hw1 : Reached env w1) (hw2 : Reached env w2) (hs : Alike w1 w2)
    (i : Nat) (e : Ep) (he : w1.eps[i]? = some e) (ho : e.fdOpen = true) (hbuf : e.rx.buf = []) (hlast : e.rx.lastLen = 0)
    (items : List (List UInt8 × Frame)) (tail : List UInt8)
    (hi : ∀ x ∈ items, (∀ b ∈ x.1, b ≠ 0xFD ∧ b ≠ 0xFE) ∧ x.2.WF ∧ x.2.CrcOk env.tbl) (htail : firstFrame tail = none)
    (cut1 cut2 : List (List UInt8)) (hfit1 : ∀ c ∈ cut1, c.length ≤ 841) (hfit2 : ∀ c ∈ cut2, c.length ≤ 841)
    (hs1 : cut1.flatten = items.flatMap (fun x => x.1 ++ x.2.encode) ++ tail)
    (hs2 : cut2.flatten = items.flatMap (fun x => x.1 ++ x.2.encode) ++ tail) (post : List RouterEv) :
    ∃ w1' w2' as, runRouter env w1 (cut1.map (fun c => .read i (.got c)) ++ post) = some (w1', as) ∧
      runRouter env w2 (cut2.map (fun c => .read i (.got c)) ++ post) = some (w2', as) ∧ Alike w1' w2' := by
  obtain ⟨hm, hcl⟩ := means_items env.tbl tail htail items hi
  rw [alike_iff] at hs
  obtain ⟨hseen, hcores⟩ := hs
  have hr1 : (receivers w1)[i]? = some (e.rx, true) := by simp [receivers, he, ho]
  have hr2 : ∃ rx2, (receivers w2)[i]? = some (rx2, true) ∧ core rx2 = core e.rx := by
    have := cores_getElem? (receivers w2) i
    rw [← hcores, cores_getElem?, hr1] at this
    cases h2 : (receivers w2)[i]? with
    | none => rw [h2] at this; cases this
    | some r =>
      rw [h2] at this
      simp only [Option.map_some, Option.some.injEq, Prod.mk.injEq] at this
      exact ⟨r.1, by rw [← Prod.eta r, ← this.2], this.1.symm⟩
  obtain ⟨rx2, hr2, hrx2⟩ := hr2
  have hb2 : rx2.buf = [] ∧ rx2.lastLen = 0 := by
    simp only [core, Prod.mk.injEq] at hrx2
    exact ⟨hrx2.1.trans hbuf, hrx2.2.trans hlast⟩
  have clean : ∀ (rx : Rx) (cut : List (List UInt8)), rx.buf = [] → rx.lastLen = 0 → (∀ c ∈ cut, c.length ≤ 841) →
      cut.flatten = items.flatMap (fun x => x.1 ++ x.2.encode) ++ tail →
      (runRx env.tbl rx (cut.map .got)).2 = items.map (fun x => x.2.toMsg env.tbl) ∧
      core (runRx env.tbl rx (cut.map .got)).1 = (stripNoise tail, 0) := by
    intro rx cut hb hl hf hst
    have := runRx_clean env.tbl cut rx ⟨by simp [hb], by simp [hl], by simp [hb]⟩ hl (by rw [hb]; rfl) (by rw [hb]; rfl) hf
      (by rw [hb, hst]; exact hcl)
    obtain ⟨h1, h2⟩ := this
    rw [hb, List.nil_append, hst] at h2
    obtain ⟨a, b⟩ := Means.unique h2 hm
    exact ⟨a, by simp [core, b, h1]⟩
  obtain ⟨m1, c1⟩ := clean e.rx cut1 hbuf hlast hfit1 hs1
  obtain ⟨m2, c2⟩ := clean rx2 cut2 hb2.1 hb2.2 hfit2 hs2
  have hmap : ∀ cut : List (List UInt8), cut.map (fun c => RouterEv.read i (.got c)) = (cut.map SysRead.got).map (.read i) := by
    intro cut; simp
  rw [hmap, hmap]
  obtain ⟨t1, a1⟩ := traffic_reads env.tbl i post (cut1.map .got) (receivers w1) e.rx hr1
  obtain ⟨t2, a2⟩ := traffic_reads env.tbl i post (cut2.map .got) (receivers w2) rx2 hr2
  have hset : cores ((receivers w1).set i ((runRx env.tbl e.rx (cut1.map .got)).1, true)) =
      cores ((receivers w2).set i ((runRx env.tbl rx2 (cut2.map .got)).1, true)) := by
    simp only [cores, List.map_set] at hcores ⊢
    rw [hcores, c1, c2]
  obtain ⟨t3, a3⟩ := traffic_core env.tbl post _ _ hset
  obtain ⟨w1', w2', as, r1, r2, hfin⟩ := C108_only_messages env w1 w2 hw1 hw2 hseen _ _ (by rw [t1, t2, m1, m2, t3])
  refine ⟨w1', w2', as, r1, r2, alike_iff.mpr ⟨hfin, ?_⟩⟩
  rw [receivers_run env _ _ r1, receivers_run env _ _ r2, a1, a2, a3]

theorem handleMsg_out (env : Env σ) {w w' : World σ} {i : Nat} {m : Msg} {b : Bool} (h : handleMsg env w i m = some (w', b)) :
    w.out <+: w'.out := by
  unfold handleMsg at h
  cases he : w.eps[i]? with
  | none => rw [he] at h; cases h; exact List.prefix_rfl
  | some e =>
    rw [he] at h
    simp only [] at h
    split at h
    · cases h
    · split at h
      · cases h; exact List.prefix_rfl
      · split at h
        · cases h; exact List.prefix_rfl
        · split at h
          · cases h
          · rename_i eps' ha
            cases h
            obtain ⟨new, hk, _⟩ := routeMsg_spec env 1 { w with dedup := _, checks := w.checks + 1, eps := eps' } m
            rw [hk.out]
            exact List.prefix_append _ _

theorem runInputs_out (env : Env σ) (i : Nat) : ∀ (ms : List Msg) {w w' : World σ} {as : List Arrival},
    runInputs env w (ms.map (.msg i)) = some (w', as) → w.out <+: w'.out
  | [], w, w', as, h => by cases h; exact List.prefix_rfl
  | m :: ms, w, w', as, h => by
    rw [List.map_cons, runInputs] at h
    split at h
    · cases h
    · rename_i w1 b hm
      split at h
      · cases h
      · rename_i hr
        cases h
        exact (handleMsg_out env hm).trans (runInputs_out env i ms hr)

theorem runInputs_prefix (env : Env σ) (i : Nat) (rest : List Msg) : ∀ (ms : List Msg) {w w1 w2 : World σ} {as1 as2 : List Arrival},
    runInputs env w (ms.map (.msg i)) = some (w1, as1) → runInputs env w ((ms ++ rest).map (.msg i)) = some (w2, as2) →
    as1 <+: as2 ∧ w1.out <+: w2.out
  | [], w, w1, w2, as1, as2, h1, h2 => by
    cases h1
    exact ⟨List.nil_prefix, runInputs_out env i rest h2⟩
  | m :: ms, w, w1, w2, as1, as2, h1, h2 => by
    rw [List.map_cons, runInputs] at h1
    rw [List.cons_append, List.map_cons, runInputs] at h2
    cases hm : handleMsg env w i m with
    | none => rw [hm] at h1; cases h1
    | some x =>
      obtain ⟨w0, b⟩ := x
      rw [hm] at h1 h2
      simp only [] at h1 h2
      split at h1
      · cases h1
      · rename_i hr1
        cases h1
        split at h2
        · cases h2
        · rename_i hr2
          cases h2
          obtain ⟨a, b⟩ := runInputs_prefix env i rest ms hr1 hr2
          exact ⟨List.cons_prefix_cons.mpr ⟨rfl, a⟩, b⟩

/-- **C108** (part): of any two histories of reading on a link that take the same bytes - whatever they are, with any errors - one is at most
ahead of the other: the arrivals and the writes of the one are a prefix of those of the other. -/
theorem C108_any_bytes_partial (env : Env σ) (w : World σ) (hw : Reached env w) (i : Nat) (e : Ep) (he : w.eps[i]? = some e)
    (ho : e.fdOpen = true) (hbuf : e.rx.buf = []) (hlast : e.rx.lastLen = 0) (ios1 ios2 : List SysRead)
    (hsame : consumedRun env.tbl e.rx ios1 = consumedRun env.tbl e.rx ios2) :
    ∃ w1 as1 w2 as2, runRouter env w (ios1.map (.read i)) = some (w1, as1) ∧ runRouter env w (ios2.map (.read i)) = some (w2, as2) ∧
      ((as1 <+: as2 ∧ w1.out <+: w2.out) ∨ (as2 <+: as1 ∧ w2.out <+: w1.out)) := by
  obtain ⟨w1, as1, h1, _⟩ := runRouter_spec env (ios1.map (.read i)) w (reached_inv hw)
  obtain ⟨w2, as2, h2, _⟩ := runRouter_spec env (ios2.map (.read i)) w (reached_inv hw)
  refine ⟨w1, as1, w2, as2, h1, h2, ?_⟩
  have hinv : e.rx.Inv := ⟨by simp [hbuf], by simp [hlast], by simp [hbuf]⟩
  have hr : (receivers w)[i]? = some (e.rx, true) := by simp [receivers, he, ho]
  have key : ∀ ios, traffic env.tbl (receivers w) (ios.map (.read i)) = ((runRx env.tbl e.rx ios).2.map Prod.fst).map (.msg i) := by
    intro ios
    have := (traffic_reads env.tbl i [] ios (receivers w) e.rx hr).1
    simp only [List.append_nil, traffic] at this
    rw [this]
    simp
  have r1 := runRouter_inputs env _ w h1
  have r2 := runRouter_inputs env _ w h2
  rw [key] at r1 r2
  obtain ⟨x1, t1, p1⟩ := Means.exists env.tbl (runRx env.tbl e.rx ios1).1.pending
  obtain ⟨x2, t2, p2⟩ := Means.exists env.tbl (runRx env.tbl e.rx ios2).1.pending
  have m1 := runRx_means env.tbl ios1 e.rx hinv x1 t1 p1
  have m2 := runRx_means env.tbl ios2 e.rx hinv x2 t2 p2
  rw [hsame] at m1
  obtain ⟨heq, _⟩ := Means.unique m1 m2
  rcases List.append_eq_append_iff.mp heq with ⟨a, ha, _⟩ | ⟨a, ha, _⟩
  · left
    rw [ha, List.map_append] at r2
    have := runInputs_prefix env i _ _ r1 r2
    exact this
  · right
    rw [ha, List.map_append] at r1
    have := runInputs_prefix env i _ _ r2 r1
    exact this

/-! ### Witnesses -/

/-- Two ways of cutting two heartbeats with noise before the first. -/
example : ∃ w1 w2 as,
    runRouter Sample.env Sample.w0 ([[7, 8] ++ Sample.hb2.encode ++ Sample.hb1.encode].map (fun c => .read 0 (.got c)) ++ [.aggregate]) = some (w1, as) ∧
    runRouter Sample.env Sample.w0 ([[7], 8 :: Sample.hb2.encode.take 4, Sample.hb2.encode.drop 4, Sample.hb1.encode].map (fun c => .read 0 (.got c)) ++
      [.aggregate]) = some (w2, as) ∧ Alike w1 w2 :=
  C108_segments_partial Sample.env Sample.w0 Sample.w0 Sample.w0_reached Sample.w0_reached ⟨rfl, rfl⟩ 0
    { kind := .uart, filters := { blockInMsg := [77], blockOutSys := [9] } } rfl rfl rfl rfl [([7, 8], Sample.hb2), ([], Sample.hb1)] []
    (by
      intro x hx
      simp only [List.mem_cons, List.not_mem_nil, or_false] at hx
      rcases hx with rfl | rfl
      · exact ⟨by decide, Sample.hb2_wf, Sample.hb2_crc⟩
      · exact ⟨by decide, Sample.hb1_wf, Sample.hb1_crc⟩)
    rfl _ _ (by decide) (by decide) (by decide) (by decide) _

/-- The arrivals are not trivial. -/
example : (traffic Sample.env.tbl (receivers Sample.w0) [.read 0 (.got (Sample.hb2.encode ++ Sample.hb1.encode.take 3)), .aggregate,
    .read 0 (.got (Sample.hb1.encode.drop 3))]) =
    [.msg 0 (Sample.hb2.toMsg Sample.tbl).1, .other .aggregate, .msg 0 (Sample.hb1.toMsg Sample.tbl).1] := by decide +kernel

/-- **C108** is false of the code: a heartbeat with a wrong checksum and a valid one. Read at once, the valid one is not sent on (it
waits for the next reading event); read separately - with a spurious wakeup in between - it is. The bytes taken are the same. -/
theorem C108_violated :
    consumedRun Sample.env.tbl {} [.got (Sample.hbBad.encode ++ Sample.hb2.encode)] =
      consumedRun Sample.env.tbl {} [.got Sample.hbBad.encode, .fail (-11), .got Sample.hb2.encode] ∧
    (runRouter Sample.env Sample.w0 [.read 0 (.got (Sample.hbBad.encode ++ Sample.hb2.encode))]).map (fun x => x.1.out) = some [] ∧
    (runRouter Sample.env Sample.w0 [.read 0 (.got Sample.hbBad.encode), .read 0 (.fail (-11)), .read 0 (.got Sample.hb2.encode)]).map
      (fun x => (x.1.out.filter (fun s => !s.gen)).map Sent.ep) = some [1, 2, 3] := by
  refine ⟨?_, ?_, ?_⟩ <;> decide +kernel

end Verif
