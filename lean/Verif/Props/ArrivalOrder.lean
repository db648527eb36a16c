import Verif.Props.Order
import Verif.Props.Segments

/-
C81, from the bytes: the messages that arrive from a link are cut out of the bytes read from it, in their order.
-/

namespace Verif

open Spec

variable {σ : Type}

theorem resync_sublist (p : List UInt8) : (resync p).Sublist p := List.dropWhile_sublist _

theorem decodeHdr_size {b : List UInt8} {h : Hdr} (hh : decodeHdr b = some h) : h.size ≠ 0 := by
  unfold decodeHdr at hh
  split at hh <;> split at hh <;> cases hh <;> simp only [] <;> omega

/-- One call of `read_msg` on pending bytes. -/
theorem parseBuf_cut (tbl : MsgTable) (p : List UInt8) (st : RxStat) :
    (∀ rx r, parseBuf tbl p st = (rx, .stop r) → rx.pending.Sublist p) ∧
    (∀ rx m k, parseBuf tbl p st = (rx, .msg m k) → rx.lastLen ≠ 0 ∧ (m.data ++ rx.pending).Sublist p) := by
  have h0 := resync_sublist p
  refine ⟨fun rx r h => ?_, fun rx m k h => ?_⟩ <;> simp only [parseBuf] at h
  · cases hd : decodeHdr (resync p) with
    | none => rw [hd] at h; cases h; simpa [Rx.pending] using h0
    | some hh =>
      rw [hd] at h
      simp only [] at h
      split at h
      · cases h; simpa [Rx.pending] using h0
      · cases ht : tbl hh.msgid with
        | none => simp [finishPacket, ht] at h
        | some en =>
          simp only [finishPacket, ht] at h
          split at h
          · cases h; exact (List.drop_sublist _ _).trans h0
          · simp at h
  · cases hd : decodeHdr (resync p) with
    | none => rw [hd] at h; simp at h
    | some hh =>
      rw [hd] at h
      simp only [] at h
      split at h
      · simp at h
      · have hcut : (List.take hh.size (resync p) ++ List.drop hh.size (resync p)).Sublist p := by rw [List.take_append_drop]; exact h0
        cases ht : tbl hh.msgid with
        | none =>
          simp only [finishPacket, ht, Bool.not_true, Bool.false_eq_true, if_false] at h
          cases h
          exact ⟨decodeHdr_size hd, hcut⟩
        | some en =>
          simp only [finishPacket, ht] at h
          split at h
          · simp at h
          · cases h
            exact ⟨decodeHdr_size hd, hcut⟩

theorem drain_cut_later (tbl : MsgTable) (fd : Bool) (io : SysRead) : ∀ (n : Nat) (rx : Rx), rx.lastLen ≠ 0 →
    ((drain tbl fd n rx io).2.1.flatMap (fun x => x.1.data) ++ (drain tbl fd n rx io).1.pending).Sublist rx.pending
  | 0, rx, _ => by simp [drain]
  | n + 1, rx, hl => by
    unfold drain
    cases fd with
    | false => simp [readMsg]
    | true =>
      have hr : readMsg tbl true rx io = parseBuf tbl rx.pending rx.stat := by simp [readMsg, hl, Rx.pending]
      rw [hr]
      obtain ⟨h1, h2⟩ := parseBuf_cut tbl rx.pending rx.stat
      cases hp : parseBuf tbl rx.pending rx.stat with
      | mk rx' o =>
        cases o with
        | stop r => simpa using h1 rx' r hp
        | msg m k =>
          obtain ⟨hl', hs⟩ := h2 rx' m k hp
          have := drain_cut_later tbl true io n rx' hl'
          simp only [List.flatMap_cons, List.append_assoc]
          exact (this.append_left m.data).trans hs

/-- The bytes the kernel has for a read. -/
def Spec.bytesOf : SysRead → List UInt8
  | .got bs => bs
  | .fail _ => []

theorem drain_cut (tbl : MsgTable) (fd : Bool) (io : SysRead) (n : Nat) (rx : Rx) :
    ((drain tbl fd n rx io).2.1.flatMap (fun x => x.1.data) ++ (drain tbl fd n rx io).1.pending).Sublist
      (rx.pending ++ bytesOf io) := by
  by_cases hl : rx.lastLen = 0
  · cases n with
    | zero => simp [drain]
    | succ n =>
      unfold drain
      cases fd with
      | false => simp [readMsg]
      | true =>
        cases io with
        | fail r => simp [readMsg, hl]
        | got bs =>
          have hpend : rx.pending = rx.buf := by simp [Rx.pending, hl]
          cases hb : bs.take (rxBufMax - rx.buf.length) with
          | nil => simp [readMsg, hl, hb]
          | cons c cs =>
            have hr : readMsg tbl true rx (.got bs) = parseBuf tbl (rx.buf ++ (c :: cs)) rx.stat := by simp [readMsg, hl, hb]
            have hsub : (rx.buf ++ (c :: cs)).Sublist (rx.pending ++ bytesOf (.got bs)) := by
              rw [hpend, ← hb]
              exact (List.take_sublist _ _).append_left _
            rw [hr]
            obtain ⟨h1, h2⟩ := parseBuf_cut tbl (rx.buf ++ (c :: cs)) rx.stat
            cases hp : parseBuf tbl (rx.buf ++ (c :: cs)) rx.stat with
            | mk rx' o =>
              cases o with
              | stop r => simpa using (h1 rx' r hp).trans hsub
              | msg m k =>
                obtain ⟨hl', hs⟩ := h2 rx' m k hp
                have := drain_cut_later tbl true (.got bs) n rx' hl'
                simp only [List.flatMap_cons, List.append_assoc]
                exact ((this.append_left m.data).trans hs).trans hsub
  · exact (drain_cut_later tbl fd io n rx hl).trans (List.sublist_append_left _ _)

/-- The bytes the kernel has for link `i` in a history, in order. -/
def Spec.bytesRead (i : Nat) : List RouterEv → List UInt8
  | [] => []
  | .read j io :: evs => (if j = i then bytesOf io else []) ++ bytesRead i evs
  | _ :: evs => bytesRead i evs

/-- What waits in the receive buffer of link `i`. -/
def waitingAt (rs : List (Rx × Bool)) (i : Nat) : List UInt8 :=
  match rs[i]? with
  | some r => r.1.pending
  | none => []

theorem runMsgs_arrivals (env : Env σ) (i : Nat) : ∀ (ms : List Msg) {w w' : World σ} {as : List Arrival},
    runMsgs env i w ms = some (w', as) → as.map Arrival.msg = ms ∧ ∀ a ∈ as, a.ep = i
  | [], w, w', as, h => by cases h; simp
  | m :: ms, w, w', as, h => by
    unfold runMsgs at h
    split at h
    · cases h
    · split at h
      · cases h
      · rename_i hr
        cases h
        obtain ⟨h1, h2⟩ := runMsgs_arrivals env i ms hr
        refine ⟨by simp [h1], ?_⟩
        intro a ha
        rcases List.mem_cons.mp ha with rfl | ha
        · rfl
        · exact h2 a ha

theorem step_cut (env : Env σ) (i : Nat) {w w1 : World σ} {ev : RouterEv} {as : List Arrival}
    (hs : routerStep env w ev = some (w1, as)) :
    ((as.filter (fun a => a.ep == i)).flatMap (fun a => a.msg.data) ++ waitingAt (receivers w1) i).Sublist
      (waitingAt (receivers w) i ++ bytesRead i [ev]) := by
  have hrec := receivers_step env hs
  cases ev with
  | read j io =>
    have hg : (receivers w)[j]? = (w.eps[j]?).map (fun e => (e.rx, e.fdOpen)) := by simp [receivers]
    cases he : w.eps[j]? with
    | none =>
      simp only [routerStep, handleRead, he] at hs
      cases hs
      simp
    | some e =>
      simp only [routerStep, handleRead, he] at hs
      obtain ⟨h1, h2⟩ := runMsgs_arrivals env j _ hs
      have hcut := drain_cut env.tbl e.fdOpen io (rxBufMax + 1) e.rx
      simp only [receiversAfter, hg, he, Option.map_some] at hrec
      have hlt : j < (receivers w).length := (List.getElem?_eq_some_iff.mp (hg.trans (by rw [he]; rfl))).1
      by_cases hij : j = i
      · subst hij
        have hf : as.filter (fun a => a.ep == j) = as := List.filter_eq_self.mpr (fun a ha => by simp [h2 a ha])
        rw [hf, hrec]
        have hd : as.flatMap (fun a => a.msg.data) = (drain env.tbl e.fdOpen (rxBufMax + 1) e.rx io).2.1.flatMap (fun x => x.1.data) := by
          have := congrArg (fun l => l.flatMap Msg.data) h1
          simpa [List.flatMap_map] using this
        rw [hd]
        simp only [waitingAt, List.getElem?_set_self hlt, hg, he, Option.map_some, bytesRead, if_true, List.append_nil]
        exact hcut
      · have hf : as.filter (fun a => a.ep == i) = [] := List.filter_eq_nil_iff.mpr (fun a ha => by simp [h2 a ha, hij])
        rw [hf, hrec]
        simp [waitingAt, hij, bytesRead]
  | accept =>
    cases hs
    rw [hrec]
    simp only [receiversAfter, List.filter_nil, List.flatMap_nil, List.nil_append, bytesRead, List.append_nil, waitingAt]
    by_cases h : i < (receivers w).length
    · rw [List.getElem?_append_left h]; exact List.Sublist.refl _
    · rw [List.getElem?_append_right (by omega)]
      cases hk : i - (receivers w).length with
      | zero => simp [Rx.pending]
      | succ k => simp
  | hangups gone => cases hs; rw [hrec]; simp [receiversAfter, bytesRead]
  | fd j o =>
    have ha : as = [] := by
      simp only [routerStep] at hs
      split at hs <;> (cases hs; rfl)
    rw [ha, hrec]
    simp only [receiversAfter, List.filter_nil, List.flatMap_nil, List.nil_append, bytesRead, List.append_nil, waitingAt,
      List.getElem?_modify]
    by_cases h : j = i
    · subst h; cases (receivers w)[j]? <;> simp
    · simp [h]
  | logCall j c => cases hs; rw [hrec]; simp [receiversAfter, bytesRead]
  | aggregate =>
    cases hs
    rw [hrec]
    simp [receiversAfter, bytesRead]

theorem bytesRead_cons (i : Nat) (ev : RouterEv) (evs : List RouterEv) : bytesRead i (ev :: evs) = bytesRead i [ev] ++ bytesRead i evs := by
  cases ev <;> simp [bytesRead]

theorem run_cut (env : Env σ) (i : Nat) : ∀ (evs : List RouterEv) (w : World σ) {w' : World σ} {as : List Arrival},
    runRouter env w evs = some (w', as) →
    ((as.filter (fun a => a.ep == i)).flatMap (fun a => a.msg.data) ++ waitingAt (receivers w') i).Sublist
      (waitingAt (receivers w) i ++ bytesRead i evs)
  | [], w, w', as, h => by cases h; simp [bytesRead]
  | ev :: evs, w, w', as, h => by
    unfold runRouter at h
    split at h
    · cases h
    · rename_i w1 as1 hs
      split at h
      · cases h
      · rename_i w2 as2 hr
        cases h
        have h1 := step_cut env i hs
        have h2 := run_cut env i evs w1 hr
        rw [bytesRead_cons, List.filter_append, List.flatMap_append, List.append_assoc, ← List.append_assoc (waitingAt (receivers w) i)]
        refine (h2.append_left _).trans ?_
        rw [← List.append_assoc]
        exact h1.append_right _

/-- **C81**, from the bytes: over any history of the router since its start, the messages that arrive from a link, one behind the
other, are obtained from the bytes read from it by leaving some out: no message is made up, repeated, or overtakes another one of
its link. -/
theorem C81_arrival_order (env : Env σ) (eps : List Ep) (heps : ∀ e ∈ eps, e.rx.buf = []) (logs : Nat → σ) (evs : List RouterEv)
    {w' : World σ} {as : List Arrival} (h : runRouter env (start eps logs) evs = some (w', as)) (i : Nat) :
    ((as.filter (fun a => a.ep == i)).flatMap (fun a => a.msg.data)).Sublist (bytesRead i evs) := by
  have h1 := run_cut env i evs _ h
  have h0 : waitingAt (receivers (start eps logs)) i = [] := by
    unfold waitingAt
    cases hx : (receivers (start eps logs))[i]? with
    | none => rfl
    | some r =>
      simp only [receivers, List.getElem?_map, Option.map_eq_some_iff] at hx
      obtain ⟨e, he, rfl⟩ := hx
      have : e.rx.buf = [] := by
        simp only [start, linkGroups, List.getElem?_mapIdx, Option.map_eq_some_iff] at he
        obtain ⟨e0, h0, rfl⟩ := he
        have := heps e0 (List.mem_of_getElem? h0)
        split <;> exact this
      simp [Rx.pending, this]
  rw [h0, List.nil_append] at h1
  exact (List.sublist_append_left _ _).trans h1

example : (∀ e ∈ Sample.w0.eps, e.rx.buf = []) ∧
    (runRouter Sample.env Sample.w0 [.read 0 (.got (1 :: 2 :: Sample.hb2.encode ++ Sample.hb2.encode))]).map (fun r => r.2.length) = some 2 :=
  ⟨by decide, by decide +kernel⟩

end Verif
