import Verif.Spec.Restart
import Verif.Props.Alike

/- Property C136: of the past, the router remembers only who was heard where. -/

namespace Verif
open Spec

variable {σ : Type}

/-! ### Receiving -/

/-- A receive state without its counters. -/
def rxBare (rx : Rx) : List UInt8 × Nat := (rx.buf, rx.lastLen)

theorem finishPacket_bare (tbl : MsgTable) (b : List UInt8) (s s' : RxStat) (h : Hdr) :
    (finishPacket tbl b s h).2 = (finishPacket tbl b s' h).2 ∧
    rxBare (finishPacket tbl b s h).1 = rxBare (finishPacket tbl b s' h).1 := by
  have key : ∀ c : Bool, ∀ x x' y y' : Rx, ∀ o o' : ReadOut, rxBare x = rxBare x' → rxBare y = rxBare y' →
      (if c then (x, o) else (y, o')).2 = (if c then (x', o) else (y', o')).2 ∧
      rxBare (if c then (x, o) else (y, o')).1 = rxBare (if c then (x', o) else (y', o')).1 := by
    intro c x x' y y' o o' hx hy
    cases c
    · exact ⟨rfl, hy⟩
    · exact ⟨rfl, hx⟩
  exact key _ _ _ _ _ _ _ rfl rfl

theorem parseBuf_bare (tbl : MsgTable) (b : List UInt8) (s s' : RxStat) :
    (parseBuf tbl b s).2 = (parseBuf tbl b s').2 ∧ rxBare (parseBuf tbl b s).1 = rxBare (parseBuf tbl b s').1 := by
  unfold parseBuf
  simp only []
  split
  · exact ⟨rfl, rfl⟩
  · split
    · exact ⟨rfl, rfl⟩
    · exact finishPacket_bare tbl _ s s' _

theorem readMsg_bare (tbl : MsgTable) (fd : Bool) {rx rx' : Rx} (h : rxBare rx = rxBare rx') (io : SysRead) :
    (readMsg tbl fd rx io).2 = (readMsg tbl fd rx' io).2 ∧ rxBare (readMsg tbl fd rx io).1 = rxBare (readMsg tbl fd rx' io).1 := by
  obtain ⟨buf, ll, s⟩ := rx
  obtain ⟨buf', ll', s'⟩ := rx'
  simp only [rxBare, Prod.mk.injEq] at h
  obtain ⟨rfl, rfl⟩ := h
  unfold readMsg
  simp only []
  split
  · exact ⟨rfl, rfl⟩
  · split
    · exact parseBuf_bare tbl _ s s'
    · cases io with
      | fail r => exact ⟨rfl, rfl⟩
      | got bs =>
        simp only []
        split
        · exact ⟨rfl, rfl⟩
        · exact parseBuf_bare tbl _ s s'

theorem drain_bare (tbl : MsgTable) (fd : Bool) (io : SysRead) : ∀ (n : Nat) {rx rx' : Rx}, rxBare rx = rxBare rx' →
    (drain tbl fd n rx io).2 = (drain tbl fd n rx' io).2 ∧ rxBare (drain tbl fd n rx io).1 = rxBare (drain tbl fd n rx' io).1
  | 0, _, _, h => ⟨rfl, h⟩
  | n + 1, rx, rx', h => by
    obtain ⟨h1, h2⟩ := readMsg_bare tbl fd h io
    unfold drain
    rcases hx : readMsg tbl fd rx io with ⟨x, o⟩
    rcases hy : readMsg tbl fd rx' io with ⟨y, o'⟩
    rw [hx, hy] at h1 h2
    simp only at h1 h2
    subst h1
    cases o with
    | stop r => exact ⟨rfl, h2⟩
    | msg m k =>
      obtain ⟨g1, g2⟩ := drain_bare tbl fd io n h2
      simp only [g1]
      exact ⟨trivial, g2⟩

/-! ### Arrivals -/

theorem doors_at {w w' : World σ} (h : DoorsAlike w w') (k : Nat) : (w'.eps[k]?).map door = (w.eps[k]?).map door := by
  have := congrArg (fun l => l[k]?) h
  simpa [List.getElem?_map] using this

theorem doors_of {w w' : World σ} (h : ∀ k : Nat, (w'.eps[k]?).map door = (w.eps[k]?).map door) : DoorsAlike w w' := by
  apply List.ext_getElem?
  intro k
  rw [List.getElem?_map, List.getElem?_map]
  exact h k

theorem handleMsg_size (env : Env σ) (w : World σ) (hw : RouterInv w) (i : Nat) (m : Msg) {w' b}
    (h : handleMsg env w i m = some (w', b)) : w'.eps.length = w.eps.length := by
  obtain ⟨w1, b1, h1, _, _, _, hf, ht, _⟩ := handleMsg_spec env w hw i m
  rw [h] at h1; cases h1
  cases b with
  | false => obtain ⟨d, c, rfl⟩ := hf rfl; rfl
  | true =>
    obtain ⟨h', d, l, hi, rfl⟩ := ht rfl
    obtain ⟨new, hk, _⟩ := routeMsg_spec env 1 { w with eps := h', dedup := d, checks := w.checks + 1 } m
    rw [hk.eps]
    exact l.grow.len

theorem runMsgs_size (env : Env σ) (i : Nat) : ∀ (ms : List Msg) (w : World σ), RouterInv w → ∀ {w' as},
    runMsgs env i w ms = some (w', as) → w'.eps.length = w.eps.length
  | [], _, _, _, _, h => by cases h; rfl
  | m :: ms, w, hw, w', as, h => by
    unfold runMsgs at h
    obtain ⟨w1, b, h1, hi, _⟩ := handleMsg_spec env w hw i m
    simp only [h1] at h
    cases h2 : runMsgs env i w1 ms with
    | none => rw [h2] at h; cases h
    | some r =>
      obtain ⟨w2, as2⟩ := r
      rw [h2] at h; cases h
      rw [runMsgs_size env i ms w1 hi h2, handleMsg_size env w hw i m h1]

theorem runMsgs_doors (env : Env σ) (i : Nat) (ms : List Msg) (w : World σ) (hw : RouterInv w) {w' as}
    (h : runMsgs env i w ms = some (w', as)) : DoorsAlike w w' ∧ as.map (fun a => (a.ep, a.msg)) = ms.map (fun m => (i, m)) := by
  obtain ⟨h1, h2⟩ := runMsgs_rx env i ms w hw h
  refine ⟨doors_of (fun k => ?_), ?_⟩
  · by_cases hk : k < w.eps.length
    · obtain ⟨e', he', hr, hf⟩ := h2 k _ (List.getElem?_eq_getElem hk)
      rw [he', List.getElem?_eq_getElem hk]
      simp only [Option.map_some, door, hr, hf]
    · have hn : w.eps[k]? = none := List.getElem?_eq_none (by omega)
      have hn' : w'.eps[k]? = none := List.getElem?_eq_none (by have := runMsgs_size env i ms w hw h; omega)
      rw [hn, hn']
  · rw [← runMsgs_msgs env i w hw ms h, List.map_map]
    apply List.map_congr_left
    intro a ha
    simp [h1 a ha]

theorem doors_set {w w' : World σ} (h : DoorsAlike w w') (i : Nat) {e e' : Ep} (he : door e' = door e) (x : World σ) (x' : World σ)
    (hx : x.eps = w.eps.set i e) (hx' : x'.eps = w'.eps.set i e') : DoorsAlike x x' := by
  unfold DoorsAlike
  rw [hx, hx', List.map_set, List.map_set, he, h]

theorem routerStep_doors (env env' : Env σ) (htb : env'.tbl = env.tbl) {w w' : World σ} (hw : RouterInv w) (hw' : RouterInv w') (h : DoorsAlike w w') (ev : RouterEv)
    {w1 w1' : World σ} {as as' : List Arrival} (h1 : routerStep env w ev = some (w1, as))
    (h1' : routerStep env' w' ev = some (w1', as')) :
    DoorsAlike w1 w1' ∧ as'.map (fun a => (a.ep, a.msg)) = as.map (fun a => (a.ep, a.msg)) := by
  cases ev with
  | accept =>
    cases h1; cases h1'
    refine ⟨?_, rfl⟩
    unfold DoorsAlike at h ⊢
    simp only [List.map_append, h, List.map_cons, List.map_nil]
  | hangups gone => cases h1; cases h1'; exact ⟨h, rfl⟩
  | logCall j c =>
    cases h1; cases h1'
    obtain ⟨_, hk, _⟩ := logCall_kept env w j c
    obtain ⟨_, hk', _⟩ := logCall_kept env' w' j c
    refine ⟨?_, rfl⟩
    unfold DoorsAlike
    rw [hk.eps, hk'.eps]
    exact h
  | aggregate =>
    cases h1; cases h1'
    refine ⟨?_, rfl⟩
    have ha : ∀ w : World σ, (aggregate w).eps = w.eps := fun w => by unfold aggregate; split <;> rfl
    unfold DoorsAlike
    rw [ha, ha]
    exact h
  | fd j o =>
    have hj := doors_at h j
    cases he : w.eps[j]? with
    | none =>
      rw [he] at hj
      cases he' : w'.eps[j]? with
      | some x => rw [he'] at hj; cases hj
      | none =>
        simp only [routerStep, he] at h1; simp only [routerStep, he'] at h1'
        cases h1; cases h1'
        exact ⟨h, rfl⟩
    | some x =>
      rw [he] at hj
      cases he' : w'.eps[j]? with
      | none => rw [he'] at hj; cases hj
      | some x' =>
        rw [he'] at hj
        simp only [Option.map_some, Option.some.injEq, door, Prod.mk.injEq] at hj
        simp only [routerStep, he] at h1; simp only [routerStep, he'] at h1'
        cases h1; cases h1'
        exact ⟨doors_set h j (by simp only [door, hj.2]) _ _ rfl rfl, rfl⟩
  | read j io =>
    have hj := doors_at h j
    cases he : w.eps[j]? with
    | none =>
      rw [he] at hj
      cases he' : w'.eps[j]? with
      | some x => rw [he'] at hj; cases hj
      | none =>
        simp only [routerStep, handleRead, he] at h1; simp only [routerStep, handleRead, he'] at h1'
        cases h1; cases h1'
        exact ⟨h, rfl⟩
    | some x =>
      rw [he] at hj
      cases he' : w'.eps[j]? with
      | none => rw [he'] at hj; cases hj
      | some x' =>
        rw [he'] at hj
        simp only [Option.map_some, Option.some.injEq, door, Prod.mk.injEq] at hj
        simp only [routerStep, handleRead, he] at h1; simp only [routerStep, handleRead, he', htb] at h1'
        have d := drain_bare env.tbl x.fdOpen io (rxBufMax + 1) (rx := x'.rx) (rx' := x.rx)
          (by simp only [rxBare, hj.2.1, hj.2.2])
        have d1 : (drain env.tbl x'.fdOpen (rxBufMax + 1) x'.rx io).2 = (drain env.tbl x.fdOpen (rxBufMax + 1) x.rx io).2 := by
          rw [hj.1]; exact d.1
        have d2 : rxBare (drain env.tbl x'.fdOpen (rxBufMax + 1) x'.rx io).1 =
            rxBare (drain env.tbl x.fdOpen (rxBufMax + 1) x.rx io).1 := by
          rw [hj.1]; exact d.2
        clear d
        obtain ⟨hinv, _⟩ := set_inv hw
          (e' := { x with rx := (drain env.tbl x.fdOpen (rxBufMax + 1) x.rx io).1 }) he rfl rfl rfl rfl rfl
        obtain ⟨hinv', _⟩ := set_inv hw'
          (e' := { x' with rx := (drain env.tbl x'.fdOpen (rxBufMax + 1) x'.rx io).1 }) he' rfl rfl rfl rfl rfl
        obtain ⟨a1, a2⟩ := runMsgs_doors env j _ _ hinv h1
        obtain ⟨b1, b2⟩ := runMsgs_doors env' j _ _ hinv' h1'
        refine ⟨?_, by rw [a2, b2, d1]⟩
        have hs : DoorsAlike { w with eps := w.eps.set j { x with rx := (drain env.tbl x.fdOpen (rxBufMax + 1) x.rx io).1 } }
            { w' with eps := w'.eps.set j { x' with rx := (drain env.tbl x'.fdOpen (rxBufMax + 1) x'.rx io).1 } } := by
          refine doors_set h j ?_ _ _ rfl rfl
          simp only [rxBare, Prod.mk.injEq] at d2
          exact Prod.ext hj.1 (Prod.ext d2.1 d2.2)
        exact b1.trans (hs.trans a1.symm)

theorem runRouter_doors (env env' : Env σ) (htb : env'.tbl = env.tbl) : ∀ (evs : List RouterEv) {w w' : World σ}, RouterInv w → RouterInv w' → DoorsAlike w w' →
    ∀ {w1 w1' : World σ} {as as' : List Arrival}, runRouter env w evs = some (w1, as) → runRouter env' w' evs = some (w1', as') →
    DoorsAlike w1 w1' ∧ as'.map (fun a => (a.ep, a.msg)) = as.map (fun a => (a.ep, a.msg))
  | [], w, w', _, _, h, w1, w1', as, as', h1, h1' => by cases h1; cases h1'; exact ⟨h, rfl⟩
  | ev :: evs, w, w', hw, hw', h, w1, w1', as, as', h1, h1' => by
    unfold runRouter at h1 h1'
    obtain ⟨v, bs, g1, g2, _⟩ := routerStep_spec env w hw ev
    obtain ⟨v', bs', g1', g2', _⟩ := routerStep_spec env' w' hw' ev
    simp only [g1] at h1
    simp only [g1'] at h1'
    cases r1 : runRouter env v evs with
    | none => rw [r1] at h1; cases h1
    | some r =>
      obtain ⟨u, cs⟩ := r
      rw [r1] at h1; cases h1
      cases r1' : runRouter env' v' evs with
      | none => rw [r1'] at h1'; cases h1'
      | some r' =>
        obtain ⟨u', cs'⟩ := r'
        rw [r1'] at h1'; cases h1'
        obtain ⟨d1, d2⟩ := routerStep_doors env env' htb hw hw' h ev g1 g1'
        obtain ⟨e1, e2⟩ := runRouter_doors env env' htb evs g2 g2' d1 r1 r1'
        exact ⟨e1, by rw [List.map_append, List.map_append, d2, e2]⟩

theorem runRouter_then {env : Env σ} : ∀ (xs : List RouterEv) {ys : List RouterEv} {w w1 w2 : World σ} {as bs : List Arrival},
    runRouter env w xs = some (w1, as) → runRouter env w1 ys = some (w2, bs) → runRouter env w (xs ++ ys) = some (w2, as ++ bs)
  | [], ys, w, w1, w2, as, bs, h1, h2 => by cases h1; exact h2
  | x :: xs, ys, w, w1, w2, as, bs, h1, h2 => by
    unfold runRouter at h1
    cases e1 : routerStep env w x with
    | none => rw [e1] at h1; cases h1
    | some r =>
      obtain ⟨v, cs⟩ := r
      rw [e1] at h1
      simp only at h1
      cases e2 : runRouter env v xs with
      | none => rw [e2] at h1; cases h1
      | some q =>
        obtain ⟨u, ds⟩ := q
        rw [e2] at h1; cases h1
        rw [List.cons_append, runRouter, e1]
        simp only [runRouter_then xs e2 h2, List.append_assoc]

theorem ev_inv (env : Env σ) {eps : List Ep} (hc : ConfigOk eps) (logs : Nat → σ) {evs : List RouterEv} {w : World σ} {as : List Arrival}
    (h : runRouter env (start eps logs) evs = some (w, as)) : RouterInv w := by
  obtain ⟨w1, as1, h1, h2, _⟩ := runRouter_spec env evs _ (start_inv eps hc logs)
  rw [h] at h1; cases h1
  exact h2

theorem noCopies_same {hashFn : List UInt8 → UInt64} {past as as' : List Arrival}
    (hz : as'.map (fun a => (a.ep, a.msg)) = as.map (fun a => (a.ep, a.msg))) (h : NoCopies hashFn past as) : NoCopies hashFn past as' := by
  have e : as'.map (fun a => hashFn a.msg.data) = as.map (fun a => hashFn a.msg.data) := by
    have := congrArg (List.map fun p : Nat × Msg => hashFn p.2.data) hz
    simpa [List.map_map, Function.comp_def] using this
  refine ⟨e ▸ h.1, fun a ha b hb => ?_⟩
  have : hashFn a.msg.data ∈ as.map (fun a => hashFn a.msg.data) := e ▸ List.mem_map.mpr ⟨a, ha, rfl⟩
  obtain ⟨c, hc, hce⟩ := List.mem_map.mp this
  rw [← hce]
  exact h.2 c hc b hb

theorem noCopies_left {hashFn : List UInt8 → UInt64} {past as bs : List Arrival} (h : NoCopies hashFn past (as ++ bs)) :
    NoCopies hashFn past as := by
  refine ⟨?_, fun a ha => h.2 a (by simp [ha])⟩
  have := h.1
  rw [List.map_append] at this
  exact (List.nodup_append.mp this).1

theorem noCopies_right {hashFn : List UInt8 → UInt64} {past as bs : List Arrival} (h : NoCopies hashFn past (as ++ bs)) :
    NoCopies hashFn (past ++ as) bs := by
  have h1 := h.1
  rw [List.map_append] at h1
  obtain ⟨_, h2, h3⟩ := List.nodup_append.mp h1
  refine ⟨h2, fun a ha b hb => ?_⟩
  rcases List.mem_append.mp hb with hb | hb
  · exact h.2 a (by simp [ha]) b hb
  · exact h3 _ (List.mem_map.mpr ⟨b, hb, rfl⟩) _ (List.mem_map.mpr ⟨a, ha, rfl⟩)

theorem noCopies_past {hashFn : List UInt8 → UInt64} {past past' as : List Arrival} (hs : ∀ a ∈ past', a ∈ past)
    (h : NoCopies hashFn past as) : NoCopies hashFn past' as := ⟨h.1, fun a ha b hb => h.2 a ha b (hs b hb)⟩

/-- The same messages arrive, and the same of them are let in. -/
theorem arrivals_same (env : Env σ) (ht : TableOk env.tbl) (eps : List Ep) (hc : ConfigOk eps)
    (logs logs' : Nat → σ) {evs1 evs1' evs2 : List RouterEv} {w1 w1' w2 w2' : World σ} {as1 as1' as2 as2' : List Arrival}
    (h1 : runRouter env (start eps logs) evs1 = some (w1, as1)) (h1' : runRouter env (start eps logs') evs1' = some (w1', as1'))
    (h2 : runRouter env w1 evs2 = some (w2, as2)) (h2' : runRouter env w1' evs2 = some (w2', as2'))
    (hd : DoorsAlike w1 w1')
    (hp : env.dedupPeriod = 0 ∨ NoCopies env.hashFn as1 as2 ∧ NoCopies env.hashFn as1' as2) : DoorsAlike w2 w2' ∧ as2' = as2 := by
  obtain ⟨d, e⟩ := runRouter_doors env env rfl evs2 (ev_inv env hc logs h1) (ev_inv env hc logs' h1') hd h2 h2'
  have hz : as2'.map (fun a => (a.ep, a.msg)) = as2.map (fun a => (a.ep, a.msg)) := e
  have q := passed_once env ht eps hc logs _ _ _ _ (runRouter_then _ h1 h2) (hp.imp_right And.left)
  have q' := passed_once env ht eps hc logs' _ _ _ _ (runRouter_then _ h1' h2')
    (hp.imp_right fun h => noCopies_same hz h.2)
  refine ⟨d, ?_⟩
  clear h2 h2' d hp hz
  induction as2 generalizing as2' with
  | nil => cases as2' with
    | nil => rfl
    | cons b bs => cases e
  | cons a as ih =>
    cases as2' with
    | nil => cases e
    | cons b bs =>
      simp only [List.map_cons, List.cons.injEq, Prod.mk.injEq] at e
      have hb : b = a := by
        have x := q a (by simp)
        have y := q' b (by simp)
        rw [e.1.1, e.1.2, ← x] at y
        cases a; cases b
        simp only at e y ⊢
        obtain ⟨⟨rfl, rfl⟩, _⟩ := e
        simp only [Arrival.mk.injEq, true_and]
        exact Bool.eq_iff_iff.mpr y
      rw [hb, ih e.2 (fun x hx => q x (by simp [hx])) (fun x hx => q' x (by simp [hx]))]

/-! ### The past -/

theorem seenAt_too {eps : List Ep} {as bs : List Arrival} (h : HeardToo as bs) (cs : List Arrival) {j s c : Nat}
    (hs : SeenAt eps (as ++ cs) j s c) : SeenAt eps (bs ++ cs) j s c := by
  rcases hs with hs | ⟨a, ha, hp, h1, h2, hpeer⟩
  · exact .inl hs
  · rcases List.mem_append.mp ha with ha | ha
    · obtain ⟨b, hb, g1, g2, g3, g4⟩ := h a ha hp
      exact .inr ⟨b, by simp [hb], g1, by rw [g3, h1], by rw [g4, h2], by rw [g2]; exact hpeer⟩
    · exact .inr ⟨a, by simp [ha], hp, h1, h2, hpeer⟩

theorem expected_too (sniffer : Nat) (eps : List Ep) (j : Nat) {as bs : List Arrival} (h : HeardToo as bs) (h' : HeardToo bs as) :
    ∀ (cs xs : List Arrival), expected sniffer eps j (as ++ cs) xs = expected sniffer eps j (bs ++ cs) xs
  | _, [] => rfl
  | cs, x :: xs => by
    have hw : Wanted sniffer eps j (as ++ cs ++ [x]) x.msg ↔ Wanted sniffer eps j (bs ++ cs ++ [x]) x.msg := by
      have hi : ∀ s c, SeenAt eps (as ++ cs ++ [x]) j s c ↔ SeenAt eps (bs ++ cs ++ [x]) j s c := by
        intro s c
        rw [List.append_assoc, List.append_assoc]
        exact ⟨seenAt_too h _, seenAt_too h' _⟩
      simp only [Wanted, hi]
    have hx := expected_too sniffer eps j h h' (cs ++ [x]) xs
    rw [← List.append_assoc, ← List.append_assoc] at hx
    simp only [expected]
    rw [hx]
    by_cases hc : x.passed = true ∧ Wanted sniffer eps j (as ++ cs ++ [x]) x.msg
    · rw [if_pos hc, if_pos ⟨hc.1, hw.mp hc.2⟩]
    · rw [if_neg hc, if_neg (fun y => hc ⟨y.1, hw.mpr y.2⟩)]

/-- **C136**: two routers with the same configuration and different pasts. Once the same systems were heard on the same links, and with
the same half received messages, the same further events give the same arrivals, and every link that is there is handed the same
messages, byte for byte, in the same order, unless log endpoints before it edit them. -/
theorem C136_past (env : Env σ) (ht : TableOk env.tbl) (eps : List Ep) (hc : ConfigOk eps)
    (logs logs' : Nat → σ) (evs1 evs1' evs2 : List RouterEv) (w1 w1' w2 w2' : World σ) (as1 as1' as2 as2' : List Arrival)
    (h1 : runRouter env (start eps logs) evs1 = some (w1, as1)) (h1' : runRouter env (start eps logs') evs1' = some (w1', as1'))
    (hd : DoorsAlike w1 w1') (hh : HeardToo as1 as1') (hh' : HeardToo as1' as1)
    (h2 : runRouter env w1 evs2 = some (w2, as2)) (h2' : runRouter env w1' evs2 = some (w2', as2'))
    (hp : env.dedupPeriod = 0 ∨ NoCopies env.hashFn as1 as2 ∧ NoCopies env.hashFn as1' as2) :
    as2' = as2 ∧ ∀ j, j ∈ w1.active → j ∈ w1'.active → (∀ gone, RouterEv.hangups gone ∈ evs2 → j ∉ gone) →
      (writesTo j w1' w2').length = (writesTo j w1 w2).length ∧
      ((∀ a ∈ as2, UneditedBefore env eps j a.msg) →
        (writesTo j w1' w2').map Sent.bytes = (writesTo j w1 w2).map Sent.bytes) := by
  obtain ⟨_, rfl⟩ := arrivals_same env ht eps hc logs logs' h1 h1' h2 h2' hd hp
  refine ⟨rfl, fun j hj hj' hg => ?_⟩
  have a := C88_complete_partial env ht eps hc logs evs1 evs2 w1 w2 as1 as2' h1 h2 j hj hg
  have b := C88_complete_partial env ht eps hc logs' evs1' evs2 w1' w2' as1' as2' h1' h2' j hj' hg
  have he := expected_too env.sniffer.toNat eps j hh hh' [] as2'
  simp only [List.append_nil] at he
  rw [← he] at b
  refine ⟨b.1.trans a.1.symm, fun hu => ?_⟩
  have hm : ∀ x ∈ expected env.sniffer.toNat eps j as1 as2', UneditedBefore env eps j x.msg := by
    intro x hx
    exact hu x (expected_sub _ _ _ _ _ x hx).1
  rw [accounts_bytes a hm, accounts_bytes b hm]

/-- **C136** for a restart: one router runs through `before`, the other is started only then, with no half received message in the
first; both run through `since`, in which everybody who was heard before is heard again. From then on they are the same for every
configured link, whatever log endpoints do. -/
theorem C136_restart (env : Env σ) (ht : TableOk env.tbl) (eps : List Ep) (hc : ConfigOk eps)
    (logs logs' : Nat → σ) (before since evs : List RouterEv) (w0 w1 w1' w2 w2' : World σ) (as0 as1 as1' as2 as2' : List Arrival)
    (h0 : runRouter env (start eps logs) before = some (w0, as0)) (hd : DoorsAlike w0 (start eps logs'))
    (h1 : runRouter env w0 since = some (w1, as1)) (h1' : runRouter env (start eps logs') since = some (w1', as1'))
    (hh : HeardToo as0 as1)
    (h2 : runRouter env w1 evs = some (w2, as2)) (h2' : runRouter env w1' evs = some (w2', as2'))
    (hp : env.dedupPeriod = 0 ∨ NoCopies env.hashFn as0 (as1 ++ as2)) :
    as1' = as1 ∧ as2' = as2 ∧ ∀ j, LinkAt eps j → j ∈ w1.active → j ∈ w1'.active → (∀ gone, RouterEv.hangups gone ∈ evs → j ∉ gone) →
      (writesTo j w1' w2').map Sent.bytes = (writesTo j w1 w2).map Sent.bytes := by
  obtain ⟨hd1, rfl⟩ := arrivals_same env ht eps hc logs logs' h0 (evs1' := []) rfl h1 h1' hd
    (hp.imp_right fun h => ⟨noCopies_left h, noCopies_past (by simp) (noCopies_left h)⟩)
  obtain ⟨h3, h4⟩ := C136_past env ht eps hc logs logs' (before ++ since) since evs w1 w1' w2 w2' (as0 ++ as1') as1' as2 as2'
    (runRouter_then _ h0 h1) h1' hd1
    (by
      intro a ha hpa
      rcases List.mem_append.mp ha with ha | ha
      · exact hh a ha hpa
      · exact ⟨a, ha, hpa, rfl, rfl, rfl⟩)
    (fun a ha hpa => ⟨a, by simp [ha], hpa, rfl, rfl, rfl⟩) h2 h2'
    (hp.imp_right fun h => ⟨noCopies_right h, noCopies_past (by simp +contextual) (noCopies_right h)⟩)
  exact ⟨rfl, h3, fun j hl hj hj' hg => (h4 j hj hj' hg).2 (fun a _ => unedited_link hl a.msg)⟩

namespace Sample

/-- A command from 42/200 to 1/1. -/
def rsCmd : Frame :=
  { v2 := true, seq := 8, sys := 42, comp := 200, msgid := 76, payload := List.replicate 30 0 ++ [1, 1], crcLo := 11, crcHi := 200 }

/-- What the old router went through: two messages of 1/1 on the serial port. -/
def rsBefore : List RouterEv := [.read 0 (.got hb2.encode), .read 0 (.got hb1.encode)]

/-- Everybody is heard again. -/
def rsSince : List RouterEv := [.read 0 (.got hb1.encode)]

/-- Then somebody on link 1 commands 1/1. -/
def rsEvs : List RouterEv := [.read 1 (.got rsCmd.encode)]

end Sample

instance : DecidableRel HeardToo := fun as bs => by unfold HeardToo; infer_instance

instance {w w' : World σ} : Decidable (DoorsAlike w w') := by unfold DoorsAlike; infer_instance

/-- The hypotheses of `C136_restart`, for a restart with two messages before it: the counters differ, nothing else does. Then the
command is handed to the serial port by both routers; a restarted router that has not heard 1/1 again hands it to nobody. -/
example : ConfigOk Sample.eps ∧ Sample.envQuiet.dedupPeriod = 0 ∧ LinkAt Sample.eps 0 ∧
    ((runRouter Sample.envQuiet Sample.w0 Sample.rsBefore).bind fun r0 =>
      (runRouter Sample.envQuiet r0.1 Sample.rsSince).bind fun r1 => (runRouter Sample.envQuiet r1.1 Sample.rsEvs).map fun r2 =>
        (decide (DoorsAlike r0.1 Sample.w0 ∧ r0.1.eps ≠ Sample.w0.eps ∧ HeardToo r0.2 r1.2 ∧ 0 ∈ r1.1.active),
          (writesTo 0 r1.1 r2.1).map Sent.bytes)) = some (true, [Sample.rsCmd.encode]) ∧
    ((runRouter Sample.envQuiet Sample.w0 Sample.rsSince).bind fun r1 => (runRouter Sample.envQuiet r1.1 Sample.rsEvs).map fun r2 =>
        (decide (0 ∈ r1.1.active), (writesTo 0 r1.1 r2.1).map Sent.bytes)) = some (true, [Sample.rsCmd.encode]) ∧
    ((runRouter Sample.envQuiet Sample.w0 Sample.rsEvs).map fun r2 => (writesTo 0 Sample.w0 r2.1).map Sent.bytes) = some [] :=
  ⟨Sample.eps_ok, rfl, ⟨by decide, fun i hi => absurd hi (by omega)⟩, by decide +kernel, by decide +kernel, by decide +kernel⟩

/-- With de-duplication on; no packet arrives twice. -/
example : Sample.envDedup.dedupPeriod = 100 ∧
    ((runRouter Sample.envDedup Sample.w0 [.read 0 (.got Sample.hb2.encode)]).bind fun r0 =>
      (runRouter Sample.envDedup r0.1 Sample.rsSince).bind fun r1 => (runRouter Sample.envDedup r1.1 Sample.rsEvs).map fun r2 =>
        (decide (DoorsAlike r0.1 Sample.w0 ∧ HeardToo r0.2 r1.2 ∧ NoCopies Sample.envDedup.hashFn r0.2 (r1.2 ++ r2.2)),
          (writesTo 0 r1.1 r2.1).map Sent.bytes)) = some (true, [Sample.rsCmd.encode]) := by
  decide +kernel

end Verif
