import Verif.Props.Rx
import Verif.Props.Routing
import Verif.Spec.Recover

/- Property C118: reception recovers after a disturbance of the byte stream. -/

namespace Verif

open Spec

theorem wire_nil : wire [] = [] := rfl
theorem wire_cons (f : Frame) (fs : List Frame) : wire (f :: fs) = f.encode ++ wire fs := rfl

/-- Cutting into a sequence of frames leaves the rest of one frame and then whole frames. -/
theorem wire_drop : ∀ (fs : List Frame) (d : Nat), d ≤ (wire fs).length →
    (∀ i f, fs[i]? = some f → (wire (fs.take i)).length < d → f.PlainInside) →
    ∃ k noise, k ≤ fs.length ∧ (∀ b ∈ noise, b ≠ 0xFD ∧ b ≠ 0xFE) ∧
      (wire fs).drop d = noise ++ wire (fs.drop k) ∧ (k = 0 ∨ (wire (fs.take (k - 1))).length < d) := by
  intro fs
  induction fs with
  | nil =>
    intro d hd _
    exact ⟨0, [], Nat.le_refl _, by simp, by simp [wire], .inl rfl⟩
  | cons f fs ih =>
    intro d hd hp
    by_cases h0 : d = 0
    · subst h0
      exact ⟨0, [], Nat.zero_le _, by simp, by simp, .inl rfl⟩
    by_cases h1 : d < f.encode.length
    · refine ⟨1, f.encode.drop d, by simp, ?_, ?_, .inr (by simp [wire]; omega)⟩
      · intro b hb
        refine hp 0 f rfl (by simp [wire]; omega) b ?_
        have e : f.encode.drop d = f.encode.tail.drop (d - 1) := by
          rw [← List.drop_one, List.drop_drop]
          congr 1; omega
        rw [e] at hb
        exact List.mem_of_mem_drop hb
      · rw [wire_cons, List.drop_append_of_le_length (by omega)]
        rfl
    · have hfl : 0 < f.encode.length := by simp [Frame.encode]
      rw [wire_cons, List.length_append] at hd
      obtain ⟨k, noise, i1, i2, i3, i4⟩ := ih (d - f.encode.length) (by omega) (by
        intro i g hg hl
        refine hp (i + 1) g (by simpa using hg) ?_
        rw [List.take_succ_cons, wire_cons, List.length_append]
        omega)
      refine ⟨k + 1, noise, by simp; omega, i2, ?_, .inr ?_⟩
      · rw [wire_cons, List.drop_append, List.drop_eq_nil_of_le (by omega), List.nil_append, i3]
        rfl
      · rcases i4 with rfl | h
        · simp [wire]; omega
        · cases k with
          | zero => simp [wire]; omega
          | succ k =>
            simp only [Nat.add_sub_cancel] at h ⊢
            rw [List.take_succ_cons, wire_cons, List.length_append]
            omega

/-- Marker-free bytes and then valid frames mean the frames. -/
theorem means_noise_wire (tbl : MsgTable) (noise : List UInt8) (hn : ∀ b ∈ noise, b ≠ 0xFD ∧ b ≠ 0xFE)
    (fs : List Frame) (hv : ∀ f ∈ fs, f.WF ∧ f.CrcOk tbl) :
    Means tbl (noise ++ wire fs) (fs.map (Frame.toMsg tbl)) [] := by
  cases fs with
  | nil =>
    have h1 : stripNoise noise = [] := by
      have := stripNoise_noise hn []
      rw [List.append_nil] at this
      exact this
    have h2 : firstFrame noise = none := by
      rw [firstFrame_eq, ← stripNoise_eq, h1]; rfl
    have := Means.done (tbl := tbl) h2
    rw [h1] at this
    simpa [wire] using this
  | cons f fs =>
    have h := (means_items tbl [] rfl ((noise, f) :: fs.map (fun f => ([], f))) (by
      intro x hx
      rcases List.mem_cons.mp hx with rfl | hx
      · exact ⟨hn, hv f (by simp)⟩
      · obtain ⟨g, hg, rfl⟩ := List.mem_map.mp hx
        exact ⟨by simp, hv g (by simp [hg])⟩)).1
    simpa [wire, List.flatMap_map, List.map_map, Function.comp_def, stripNoise] using h

/-- A frame that is complete in the longer stream and no longer than what there was before was complete before. -/
theorem firstFrame_short {r c fr rest : List UInt8} (hr : stripNoise r = r) (hne : r ≠ [])
    (hf : firstFrame (r ++ c) = some (fr, rest)) (hnone : firstFrame r = none) : r.length < fr.length := by
  have hre : resync r = r := hr
  obtain ⟨hd, g1, g2, g3, _, _, g6, g7, g8, g9, _, _⟩ := firstFrame_some hf
  have hrc : resync (r ++ c) = r ++ c := by rw [resync_ne_nil_append (by rw [hre]; exact hne), hre]
  apply Nat.lt_of_not_le
  intro hle
  rw [firstFrame_eq, hre] at hnone
  have hfl : ∀ n, frameLen r = some n → False := by
    intro n hn
    rw [hn] at hnone
    simp only at hnone
    have h2 := frameLen_append hn c
    rw [firstFrame_eq, hrc, h2] at hf
    simp only at hf
    split at hf
    · rename_i hle2
      cases hf
      rw [List.length_take, Nat.min_eq_left hle2] at hle
      rw [if_pos hle] at hnone
      cases hnone
    · cases hf
  have hst := atStx_resync r
  rw [hre] at hst
  rw [hrc] at g6
  rcases hst with h | ⟨t, rfl | rfl⟩
  · exact hne h
  · rcases decode_v2 t with ⟨_, _, h3⟩ | ⟨h, _, h2, _⟩
    · simp only [List.cons_append, List.getD_cons_zero] at g6
      rw [if_pos (by decide)] at g6
      omega
    · exact hfl _ h2
  · rcases decode_v1 t with ⟨_, _, h3⟩ | ⟨h, _, h2, _⟩
    · omega
    · exact hfl _ h2

/-- The meaning of any bytes followed by valid frames: what the bytes mean by themselves, at most one message made up of the
last of them and the first bytes of the frames, and then all frames from some near one on. -/
theorem means_recover (tbl : MsgTable) (g : List UInt8) (fs : List Frame) (hv : ∀ f ∈ fs, f.WF ∧ f.CrcOk tbl)
    (hp : ∀ i f, fs[i]? = some f → Near fs i → f.PlainInside) :
    ∃ k ms r e t, k ≤ fs.length ∧ (k = 0 ∨ Near fs (k - 1)) ∧ (r = [] → k = 0 ∧ e = []) ∧ Means tbl g ms r ∧ e.length ≤ 1 ∧
      Means tbl (g ++ wire fs) (ms ++ e ++ (fs.drop k).map (Frame.toMsg tbl)) t := by
  obtain ⟨ms, r, hm⟩ := Means.exists tbl g
  obtain ⟨hnone, hstrip⟩ := Means.tail_done hm
  by_cases hr : r = []
  · subst hr
    refine ⟨0, ms, [], [], [], Nat.zero_le _, .inl rfl, fun _ => ⟨rfl, rfl⟩, hm, by simp, ?_⟩
    have := Means.append hm (c := wire fs) (ms2 := fs.map (Frame.toMsg tbl)) (t2 := [])
      (by simpa using means_noise_wire tbl [] (by simp) fs hv)
    simpa using this
  · have hre : resync r = r := hstrip
    have hrc : resync (r ++ wire fs) = r ++ wire fs := by
      rw [resync_ne_nil_append (by rw [hre]; exact hr), hre]
    have hrl : 0 < r.length := List.length_pos_iff.mpr hr
    cases hf : firstFrame (r ++ wire fs) with
    | none =>
      have h280 := (parseBuf_none tbl hf {}).2
      rw [hrc, List.length_append] at h280
      refine ⟨fs.length, ms, r, [], stripNoise (r ++ wire fs), Nat.le_refl _, .inr ?_, fun h => absurd h hr, hm, by simp, ?_⟩
      · have : (wire (fs.take (fs.length - 1))).length ≤ (wire fs).length := by
          have e : wire fs = wire (fs.take (fs.length - 1)) ++ wire (fs.drop (fs.length - 1)) := by
            rw [wire, wire, wire, ← List.flatMap_append, List.take_append_drop]
          rw [e, List.length_append]; omega
        unfold Near
        omega
      · have := Means.append hm (.done hf)
        simpa using this
    | some x =>
      obtain ⟨fr, rest⟩ := x
      have hlt := firstFrame_short hstrip hr hf hnone
      obtain ⟨hd, _, g2, g3, _, _, _, _, _, _, g10, _⟩ := firstFrame_some hf
      rw [hrc] at g2
      have hrest : rest = (wire fs).drop (fr.length - r.length) := by
        have := congrArg (List.drop fr.length) g2
        rw [List.drop_append, List.drop_eq_nil_of_le (by omega), List.nil_append, List.drop_left] at this
        exact this.symm
      have hlen := congrArg List.length g2
      simp only [List.length_append] at hlen
      obtain ⟨k, noise, i1, i2, i3, i4⟩ := wire_drop fs (fr.length - r.length) (by omega)
        (fun i f hi hl => hp i f hi (by unfold Near; omega))
      have hmr : Means tbl rest ((fs.drop k).map (Frame.toMsg tbl)) [] := by
        rw [hrest, i3]
        exact means_noise_wire tbl noise i2 _ (fun f hf => hv f (List.mem_of_mem_drop hf))
      have hnear : k = 0 ∨ Near fs (k - 1) := by
        rcases i4 with h | h
        · exact .inl h
        · right; unfold Near; omega
      obtain ⟨ms2, t2, hm2⟩ := Means.exists tbl (r ++ wire fs)
      have happ := Means.append hm hm2
      cases hm2 with
      | done h1 => rw [hf] at h1; cases h1
      | @deliver _ fr2 rest2 m kn ms3 _ h1 hd1 hm1 =>
        rw [hf] at h1; cases h1
        obtain ⟨e1, e2⟩ := Means.unique hm1 hmr
        subst e1
        exact ⟨k, ms, r, [(m, kn)], t2, i1, hnear, fun h => absurd h hr, hm, by simp, by simpa using happ⟩
      | drop h1 hc1 hm1 =>
        rw [hf] at h1; cases h1
        obtain ⟨e1, e2⟩ := Means.unique hm1 hmr
        subst e1
        exact ⟨k, ms, r, [], t2, i1, hnear, fun h => absurd h hr, hm, by simp, by simpa using happ⟩

/-! ### Runs -/

theorem runRx_append (tbl : MsgTable) : ∀ (a b : List SysRead) (rx : Rx),
    runRx tbl rx (a ++ b) = ((runRx tbl (runRx tbl rx a).1 b).1, (runRx tbl rx a).2 ++ (runRx tbl (runRx tbl rx a).1 b).2) := by
  intro a
  induction a with
  | nil => intro b rx; rfl
  | cons io a ih =>
    intro b rx
    simp only [List.cons_append, runRx, ih, List.append_assoc]

/-- When the endpoint is about to ask the kernel, no complete frame is waiting in its buffer. -/
theorem handleRead_idle (tbl : MsgTable) (rx : Rx) (io : SysRead) (hinv : rx.Inv)
    (hi : rx.lastLen = 0 → firstFrame rx.buf = none) :
    (handleReadRx tbl rx io).1.lastLen = 0 → firstFrame (handleReadRx tbl rx io).1.buf = none := by
  intro h0
  by_cases hll : rx.lastLen = 0
  · cases io with
    | fail r =>
      have : handleReadRx tbl rx (.fail r) = (rx, [], r) := by simp [handleReadRx, drain, readMsg, hll]
      rw [this]; exact hi hll
    | got bs =>
      cases hb : bs.take (rxBufMax - rx.buf.length) with
      | nil =>
        have : handleReadRx tbl rx (.got bs) = (rx, [], 0) := by simp [handleReadRx, drain, readMsg, hll, hb]
        rw [this]; exact hi hll
      | cons c cs =>
        unfold handleReadRx at h0 ⊢
        rw [handleRead_drain tbl rx bs c cs hll hb, if_neg (by simp)] at h0 ⊢
        have hlen : (rx.buf ++ c :: cs).length ≤ rxBufMax := by
          have := congrArg List.length hb
          have hb := hinv.1
          simp only [List.length_take, List.length_cons] at this
          simp only [List.length_append, List.length_cons]
          omega
        exact ((drain_pending tbl (rxBufMax + 1) (rx.buf ++ c :: cs) rx.stat (.got bs) (by omega)
          { buf := 0 :: (rx.buf ++ c :: cs), lastLen := 1, stat := rx.stat } (by simp) (by simp [Rx.pending]) rfl).2.1 h0).1
  · exact ((drain_pending tbl (rxBufMax + 1) rx.pending rx.stat io
      (by have := hinv.1; simp [Rx.pending]; omega) rx hll rfl rfl).2.1 h0).1

theorem runRx_idle (tbl : MsgTable) : ∀ (ios : List SysRead) (rx : Rx), rx.Inv →
    (rx.lastLen = 0 → firstFrame rx.buf = none) →
    (runRx tbl rx ios).1.lastLen = 0 → firstFrame (runRx tbl rx ios).1.buf = none := by
  intro ios
  induction ios with
  | nil => intro rx _ hi; exact hi
  | cons io ios ih =>
    intro rx hinv hi
    exact ih _ (handleRead_inv tbl true (rxBufMax + 1) rx io hinv) (handleRead_idle tbl rx io hinv hi)

/-- Enough further readable events deliver everything that has arrived. -/
theorem runRx_flushed (tbl : MsgTable) (ios more : List SysRead) {ms t}
    (hm : Means tbl (consumedRun tbl {} ios) ms t) (hl : (runRx tbl {} ios).1.pending.length < more.length) :
    ms <+: (runRx tbl {} (ios ++ more)).2 := by
  obtain ⟨ms1, t1, h1, h2⟩ := C01_chunking_irrelevant tbl ios
  obtain ⟨rfl, _⟩ := Means.unique hm h2
  rw [runRx_append]
  simp only
  apply (List.prefix_append_right_inj _).mpr
  have hinv := runRx_inv tbl ios {} inv_fresh
  by_cases hll : (runRx tbl {} ios).1.lastLen = 0
  · have hidle := runRx_idle tbl ios {} inv_fresh (fun _ => rfl) hll
    have hp : (runRx tbl {} ios).1.pending = (runRx tbl {} ios).1.buf := by simp [Rx.pending, hll]
    rw [hp] at h1
    rw [(Means.unique h1 (.done hidle)).1]
    exact List.nil_prefix
  · exact C07_delivered_later_partial tbl more _ hinv hll h1 hl

/-- **C118** (partial): whatever has arrived before – frames cut short, altered, or no frames at all – valid frames are
received again: all of them except those that begin among the first 280 bytes, provided that those contain no byte that looks
like a start marker. What was handed on before is what the disturbed bytes mean by themselves; at most one message `e` is made up of
debris and the beginning of the frames. If no frame was cut short (`r = []`) nothing at all is lost.
Missing: frames with start markers inside (`C118_violated`). -/
theorem C118_recovers_partial (tbl : MsgTable) (g : List UInt8) (fs : List Frame)
    (hv : ∀ f ∈ fs, f.WF ∧ f.CrcOk tbl) (hp : ∀ i f, fs[i]? = some f → Near fs i → f.PlainInside)
    (ios : List SysRead) (hc : consumedRun tbl {} ios = g ++ wire fs) :
    ∃ k ms r e, (∀ i, ¬ Near fs i → k ≤ i) ∧ (r = [] → k = 0 ∧ e = []) ∧ Means tbl g ms r ∧ e.length ≤ 1 ∧
      (runRx tbl {} ios).2 <+: ms ++ e ++ (fs.drop k).map (Frame.toMsg tbl) ∧
      ∀ more, (runRx tbl {} ios).1.pending.length < more.length →
        ms ++ e ++ (fs.drop k).map (Frame.toMsg tbl) <+: (runRx tbl {} (ios ++ more)).2 := by
  obtain ⟨k, ms, r, e, t, h1, h2, h3, h4, h5, h6⟩ := means_recover tbl g fs hv hp
  refine ⟨k, ms, r, e, ?_, h3, h4, h5, ?_, ?_⟩
  · intro i hn
    by_cases hi : k ≤ i
    · exact hi
    · refine absurd ?_ hn
      rcases h2 with rfl | h2
      · omega
      · unfold Near at h2 ⊢
        have e : fs.take i = (fs.take (k - 1)).take i := by
          rw [List.take_take, Nat.min_eq_left (by omega)]
        have : (wire (fs.take (k - 1))) = wire (fs.take i) ++ wire ((fs.take (k - 1)).drop i) := by
          rw [e, wire, wire, wire, ← List.flatMap_append, List.take_append_drop]
        rw [this, List.length_append] at h2
        omega
  · obtain ⟨ms1, t1, i1, i2⟩ := C01_chunking_irrelevant tbl ios
    rw [hc] at i2
    obtain ⟨e1, _⟩ := Means.unique h6 i2
    rw [e1]
    exact List.prefix_append _ _
  · intro more hl
    exact runRx_flushed tbl ios more (by rw [hc]; exact h6) hl

/-! ### Connections that end and begin again -/

theorem drain_closed (tbl : MsgTable) (n : Nat) (rx : Rx) (io : SysRead) :
    (drain tbl false n rx io).1 = rx ∧ (drain tbl false n rx io).2.1 = [] := by
  cases n with
  | zero => exact ⟨rfl, rfl⟩
  | succ n => simp [drain, readMsg]

/-- The arrivals on an endpoint over any history, with its descriptor closed and opened any number of times. -/
theorem arrivals_open (env : Env σ) : ∀ (evs : List RouterEv) (w : World σ), Reached env w →
    ∀ (i : Nat) (e : Ep), w.eps[i]? = some e →
    ∃ w' as, runRouter env w evs = some (w', as) ∧
      (as.filter (fun a => a.ep == i)).map Arrival.msg = (runRx env.tbl e.rx (openReads i e.fdOpen evs)).2.map Prod.fst := by
  intro evs
  induction evs with
  | nil => intro w _ i e he; exact ⟨w, [], rfl, rfl⟩
  | cons ev evs ih =>
    intro w hw i e he
    obtain ⟨w1, as1, h1, hi1, _⟩ := routerStep_spec env w (reached_inv hw) ev
    have hw1 : Reached env w1 := .event hw h1
    have hstep : ∃ e1, w1.eps[i]? = some e1 ∧
        (as1.filter (fun a => a.ep == i)).map Arrival.msg ++
            (runRx env.tbl e1.rx (openReads i e1.fdOpen evs)).2.map Prod.fst =
          (runRx env.tbl e.rx (openReads i e.fdOpen (ev :: evs))).2.map Prod.fst := by
      cases ev with
      | accept =>
        cases h1
        refine ⟨e, ?_, rfl⟩
        rw [List.getElem?_append_left (List.getElem?_eq_some_iff.mp he).1]; exact he
      | hangups gone => cases h1; exact ⟨e, he, rfl⟩
      | logCall j c =>
        cases h1
        obtain ⟨new, hk, _⟩ := logCall_kept env w j c
        exact ⟨e, by rw [hk.eps]; exact he, rfl⟩
      | aggregate =>
        cases h1
        refine ⟨e, ?_, rfl⟩
        rw [show (aggregate w).eps = w.eps by unfold aggregate; split <;> rfl]
        exact he
      | fd j o =>
        cases hj : w.eps[j]? with
        | none =>
          have hij : j ≠ i := by rintro rfl; rw [hj] at he; cases he
          simp only [routerStep, hj] at h1; cases h1; exact ⟨e, he, by simp [openReads, hij]⟩
        | some x =>
          simp only [routerStep, hj] at h1; cases h1
          by_cases hij : j = i
          · subst hij
            rw [hj] at he; cases he
            exact ⟨_, List.getElem?_set_self (List.getElem?_eq_some_iff.mp hj).1, by simp [openReads]⟩
          · exact ⟨e, by rw [List.getElem?_set_ne hij]; exact he, by simp [openReads, hij]⟩
      | read j io =>
        cases hj : w.eps[j]? with
        | none =>
          have hij : j ≠ i := by rintro rfl; rw [hj] at he; cases he
          simp only [routerStep, handleRead, hj] at h1; cases h1
          exact ⟨e, he, by simp [openReads, hij]⟩
        | some x =>
          simp only [routerStep, handleRead, hj] at h1
          obtain ⟨hinv, _⟩ := set_inv (reached_inv hw)
            (e' := { x with rx := (drain env.tbl x.fdOpen (rxBufMax + 1) x.rx io).1 }) hj rfl rfl rfl rfl rfl
          obtain ⟨hep, hrx⟩ := runMsgs_rx env j _ _ hinv h1
          have hms := runMsgs_msgs env j _ hinv _ h1
          by_cases hij : j = i
          · subst hij
            rw [he] at hj; cases hj
            obtain ⟨e1, he1, hr1, hf1⟩ := hrx j { e with rx := (drain env.tbl e.fdOpen (rxBufMax + 1) e.rx io).1 } (by
              rw [List.getElem?_set_self (List.getElem?_eq_some_iff.mp he).1])
            have hfil : as1.filter (fun a => a.ep == j) = as1 := by
              rw [List.filter_eq_self]; intro a ha; rw [hep a ha]; simp
            refine ⟨e1, he1, ?_⟩
            rw [hfil, hms, hr1, hf1]
            cases ho : e.fdOpen with
            | true => simp [openReads, runRx, handleReadRx]
            | false =>
              obtain ⟨d1, d2⟩ := drain_closed env.tbl (rxBufMax + 1) e.rx io
              simp [openReads, d1, d2]
          · obtain ⟨e1, he1, hr1, hf1⟩ := hrx i e (by rw [List.getElem?_set_ne hij]; exact he)
            refine ⟨e1, he1, ?_⟩
            have hfil : as1.filter (fun a => a.ep == i) = [] := by
              rw [List.filter_eq_nil_iff]; intro a ha; rw [hep a ha]; simp [hij]
            rw [hfil, hr1, hf1]
            simp [openReads, hij]
    obtain ⟨e1, he1, heq⟩ := hstep
    obtain ⟨w2, as2, h2, hms2⟩ := ih w1 hw1 i e1 he1
    refine ⟨w2, as1 ++ as2, ?_, ?_⟩
    · unfold runRouter; simp only [h1, h2]
    · rw [List.filter_append, List.map_append, hms2, heq]

/-- **C87** (partial): whatever the old connections ended with, the frames of the new one are received, all of them except
those that begin among its first 280 bytes, provided that those contain no byte that looks like a start marker. `g` is all that was
received on the endpoint before, on any number of connections; `evs` is any history of the whole router. Missing: the frames at the
very beginning (`C87_violated`), start markers inside them (`C118_violated`). -/
theorem C87_soon_partial (env : Env σ) (w : World σ) (hw : Reached env w) (i : Nat) (e : Ep) (he : w.eps[i]? = some e)
    (hrx : e.rx = {}) (evs : List RouterEv) (ios more : List SysRead) (ho : openReads i e.fdOpen evs = ios ++ more)
    (g : List UInt8) (fs : List Frame) (hv : ∀ f ∈ fs, f.WF ∧ f.CrcOk env.tbl)
    (hp : ∀ i f, fs[i]? = some f → Near fs i → f.PlainInside)
    (hc : consumedRun env.tbl {} ios = g ++ wire fs)
    (hl : (runRx env.tbl {} ios).1.pending.length < more.length) :
    ∃ w' as k pre, runRouter env w evs = some (w', as) ∧ (∀ j, ¬ Near fs j → k ≤ j) ∧
      pre ++ (fs.drop k).map (fun f => (f.toMsg env.tbl).1) <+: (as.filter (fun a => a.ep == i)).map Arrival.msg := by
  obtain ⟨w', as, h1, h2⟩ := arrivals_open env evs w hw i e he
  obtain ⟨k, ms, r, d, h3, _, _, _, _, h7⟩ := C118_recovers_partial env.tbl g fs hv hp ios hc
  refine ⟨w', as, k, (ms ++ d).map Prod.fst, h1, h3, ?_⟩
  rw [h2, hrx, ho]
  have := (h7 more hl).map Prod.fst
  simpa [Function.comp_def] using this

/-! ### The example and the counterexample -/

namespace Sample

/-- Eleven bytes of a heartbeat whose connection was cut, then twenty whole heartbeats. -/
def cutOff : List UInt8 := hb2.encode.take 11

theorem hb2_plain : hb2.PlainInside := by unfold Frame.PlainInside; decide

end Sample

example : (∀ f ∈ List.replicate 20 Sample.hb2, f.WF ∧ f.CrcOk Sample.tbl) ∧
    (∀ i f, (List.replicate 20 Sample.hb2)[i]? = some f → Near (List.replicate 20 Sample.hb2) i → f.PlainInside) ∧
    consumedRun Sample.tbl {} [.got (Sample.cutOff ++ wire (List.replicate 20 Sample.hb2)), .fail (-11)] =
      Sample.cutOff ++ wire (List.replicate 20 Sample.hb2) ∧
    (runRx Sample.tbl {} [.got (Sample.cutOff ++ wire (List.replicate 20 Sample.hb2)), .fail (-11)]).2 =
      List.replicate 19 (Sample.hb2.toMsg Sample.tbl) := by
  refine ⟨?_, ?_, by decide +kernel, by decide +kernel⟩
  · intro f hf
    rw [(List.mem_replicate.mp hf).2]
    exact ⟨Sample.hb2_wf, Sample.hb2_crc⟩
  · intro i f hi _
    rw [(List.mem_replicate.mp (List.mem_of_getElem? hi)).2]
    exact Sample.hb2_plain

/-- The history of `C87_violated` with twenty frames instead of one: the first one is lost, the others arrive. -/
example :
    let evs : List RouterEv := [.read 2 (.got Sample.cutOff), .fd 2 false, .fd 2 true,
      .read 2 (.got (wire (List.replicate 20 Sample.hb2))), .read 2 (.fail (-11)), .read 2 (.fail (-11))]
    let ios : List SysRead := [.got Sample.cutOff, .got (wire (List.replicate 20 Sample.hb2)), .fail (-11)]
    (Sample.w0.eps[2]?.map (fun e => (e.fdOpen, e.rx.lastLen, e.rx.buf))) = some (true, 0, []) ∧
    openReads 2 true evs = ios ++ [.fail (-11)] ∧
    consumedRun Sample.tbl {} ios = Sample.cutOff ++ wire (List.replicate 20 Sample.hb2) ∧
    (runRx Sample.tbl {} ios).1.pending.length < [SysRead.fail (-11)].length :=
  ⟨by decide +kernel, by rfl, by decide +kernel, by decide +kernel⟩

namespace Sample

/-- A valid MAVLink 1 heartbeat of a vehicle whose custom mode is the number 2558, i.e. bytes FE 09 00 00. -/
def stuckBody (s : UInt8) : List UInt8 := [9, s, 1, 1, 0, 0xFE, 9, 0, 0, 2, 0, 81, 4, 3]

def stuckCrc (s : UInt8) : UInt16 := (stuckBody s ++ [50]).foldl (fun c b => crcAccumulate b c) 0xffff

def stuck (s : UInt8) : Frame :=
  { v2 := false, seq := s, sys := 1, comp := 1, msgid := 0, payload := [0xFE, 9, 0, 0, 2, 0, 81, 4, 3],
    crcLo := UInt8.ofNat (stuckCrc s).toNat, crcHi := UInt8.ofNat ((stuckCrc s).toNat / 256) }

/-- `n` heartbeats one after the other, with consecutive sequence numbers. -/
def stuckRun (s : UInt8) : Nat → List Frame
  | 0 => []
  | n + 1 => stuck s :: stuckRun (s + 1) n

theorem stuck_wf (s : UInt8) : (stuck s).WF := by simp [Frame.WF, stuck]

theorem stuck_crc (s : UInt8) : (stuck s).CrcOk tbl := by
  intro e h
  have h : some heartbeatEntry = some e := h
  cases h
  have hb : (stuck s).body = stuckBody s := rfl
  rw [hb]
  show (stuckCrc s).toNat = (UInt8.ofNat (stuckCrc s).toNat).toNat + 256 * (UInt8.ofNat ((stuckCrc s).toNat / 256)).toNat
  have := (stuckCrc s).toNat_lt
  simp only [UInt8.toNat_ofNat']
  omega

/-- What the router takes for a frame: the end of one heartbeat and the beginning of the next. -/
def phantom (s : UInt8) : List UInt8 := (stuck s).encode.drop 6 ++ (stuck (s + 1)).encode.take 6

theorem byte_all {P : UInt8 → Prop} (h : ∀ k : Fin 256, P (UInt8.ofNat k)) (s : UInt8) : P s := by
  have := h ⟨s.toNat, s.toNat_lt⟩
  simpa using this

theorem phantom_frame (s : UInt8) : firstFrame (phantom s) = some (phantom s, []) := by
  revert s
  exact byte_all (by decide +kernel)

theorem phantom_bad (s : UInt8) : checkCrc heartbeatEntry (phantom s) = false := by
  revert s
  exact byte_all (by decide +kernel)

theorem phantom_corrupt (s : UInt8) : Corrupt tbl (phantom s) := by
  refine ⟨6, 9, 0, 0, 2, 0, heartbeatEntry, rfl, rfl, ?_⟩
  intro hv
  have hv : crcValid heartbeatEntry.crcExtra 6 9 ((phantom s).take 17) := hv
  rw [← crcValid_iff heartbeatEntry (phantom s) 6 9 17 rfl rfl (by decide) (by decide) (Nat.le_refl 17), phantom_bad] at hv
  cases hv

theorem stuck_tail (s : UInt8) : firstFrame ((stuck s).encode.drop 6) = none := by
  revert s
  exact byte_all (by decide +kernel)

/-- From the middle of a heartbeat on nothing is ever understood. -/
theorem stuck_means : ∀ (n : Nat) (s : UInt8),
    ∃ t, Means tbl ((stuck s).encode.drop 6 ++ wire (stuckRun (s + 1) n)) [] t := by
  intro n
  induction n with
  | zero => intro s; exact ⟨_, by simpa [stuckRun, wire] using Means.done (tbl := tbl) (stuck_tail s)⟩
  | succ n ih =>
    intro s
    obtain ⟨t, ht⟩ := ih (s + 1)
    refine ⟨t, ?_⟩
    have e : (stuck s).encode.drop 6 ++ wire (stuckRun (s + 1) (n + 1)) =
        phantom s ++ ((stuck (s + 1)).encode.drop 6 ++ wire (stuckRun (s + 1 + 1) n)) := by
      rw [stuckRun, wire_cons, phantom]
      simp only [List.append_assoc]
      rw [← List.append_assoc (List.take 6 _), List.take_append_drop]
    rw [e]
    exact .drop (firstFrame_append (phantom_frame s) _) (phantom_corrupt s) (by simpa using ht)

end Sample

/-- **C118** is false of the code: a frame with a wrong checksum is skipped in whole (src/endpoint.cpp:402-416), although it may
have begun in the middle of another one. A vehicle sends heartbeats, all valid, with consecutive sequence numbers, one after the
other; the first byte of the first one is lost. However many follow and however they are read, not one of them is received. -/
theorem C118_violated (n : Nat) (ios : List SysRead)
    (hc : consumedRun Sample.tbl {} ios = (wire (Sample.stuckRun 0 n)).drop 1) :
    (∀ f ∈ Sample.stuckRun 0 n, f.WF ∧ f.CrcOk Sample.tbl) ∧ (runRx Sample.tbl {} ios).2 = [] := by
  constructor
  · have : ∀ (n : Nat) (s : UInt8), ∀ f ∈ Sample.stuckRun s n, f.WF ∧ f.CrcOk Sample.tbl := by
      intro n
      induction n with
      | zero => intro s f hf; cases hf
      | succ n ih =>
        intro s f hf
        rcases List.mem_cons.mp hf with rfl | hf
        · exact ⟨Sample.stuck_wf _, Sample.stuck_crc _⟩
        · exact ih _ f hf
    exact this n 0
  · obtain ⟨ms1, t1, _, h2⟩ := C01_chunking_irrelevant Sample.tbl ios
    rw [hc] at h2
    have : ∃ t, Means Sample.tbl ((wire (Sample.stuckRun 0 n)).drop 1) [] t := by
      cases n with
      | zero => exact ⟨_, .done rfl⟩
      | succ n =>
        obtain ⟨t, ht⟩ := Sample.stuck_means n 0
        have hn : ∀ b ∈ ((Sample.stuck 0).encode.drop 1).take 5, b ≠ 0xFD ∧ b ≠ 0xFE := by decide +kernel
        have e : (wire (Sample.stuckRun 0 (n + 1))).drop 1 = ((Sample.stuck 0).encode.drop 1).take 5 ++
            ((Sample.stuck 0).encode.drop 6 ++ wire (Sample.stuckRun (0 + 1) n)) := rfl
        rw [e]
        have hd : Means Sample.tbl (((Sample.stuck 0).encode.drop 1).take 5) [] [] := by
          simpa [wire] using means_noise_wire Sample.tbl _ hn [] (by simp)
        exact ⟨t, by simpa using Means.append hd (by simpa using ht)⟩
    obtain ⟨t, ht⟩ := this
    exact (List.append_eq_nil_iff.mp (Means.unique ht h2).1.symm).1

example : consumedRun Sample.tbl {} [.got ((wire (Sample.stuckRun 0 5)).drop 1)] =
      (wire (Sample.stuckRun 0 5)).drop 1 ∧ (Sample.stuckRun 0 5).length = 5 ∧
    (runRx Sample.tbl {} [.got (wire (Sample.stuckRun 0 5))]).2.length = 5 :=
  ⟨by decide +kernel, by decide, by decide +kernel⟩

end Verif
