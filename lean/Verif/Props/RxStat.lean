import Verif.Lemmas.RxCuts
import Verif.Props.Rx

/- Properties C08, C09, C10. -/

namespace Verif

open Spec

/-- **C08**: after any history of read events the counters of a fresh endpoint satisfy
total = handled + checksum errors + lost, handled is the number of messages handed on, and the handled bytes
are the sum of their lengths (all in the counters' own modular arithmetic). -/
theorem C08_statistics (tbl : MsgTable) (ios : List SysRead) :
    let r := runRx tbl {} ios
    r.1.stat.total = r.1.stat.handled + r.1.stat.crcError + r.1.stat.dropSeq ∧
    r.1.stat.handled = UInt32.ofNat r.2.length ∧
    r.1.stat.handledBytes = UInt64.ofNat ((r.2.map (fun x => x.1.data.length)).sum) := by
  obtain ⟨h1, h2, h3⟩ := runRx_stat tbl ios {}
  refine ⟨h1 (by simp [RxStat.Balanced]), ?_, ?_⟩
  · simpa using h2
  · simpa [bytesOf] using h3

example : (runRx Sample.tbl {} [.got (Sample.hb2.encode ++ Sample.unk.encode ++ Sample.hbBad.encode)]).1.stat
    = { crcErrorBytes := 21, handledBytes := 48, total := 4, crcError := 1, handled := 2, dropSeq := 1,
        expectedSeq := 10 } := by decide +kernel

/-- One valid frame arriving alone on an idle endpoint. -/
theorem handle_one (tbl : MsgTable) (f : Frame) (hw : f.WF) (hc : f.CrcOk tbl) (rx : Rx)
    (hidle : rx.lastLen = 0) (hempty : rx.buf = []) :
    handleReadRx tbl rx (.got f.encode) =
      ({ buf := [], lastLen := 0, stat := statOk rx.stat f.encode.length f.seq }, [f.toMsg tbl], 0) := by
  have hf : firstFrame f.encode = some (f.encode, []) := by
    have := firstFrame_noise_encode (noise := []) (by simp) f hw []
    simpa using this
  obtain ⟨hd, _, g2, g3, _, _, _, g7, _, g9, g10, _⟩ := firstFrame_some hf
  have hread : readMsg tbl true rx (.got f.encode) = parseBuf tbl f.encode rx.stat := by
    have htake : f.encode.take rxBufMax = f.encode :=
      List.take_of_length_le (by simp only [rxBufMax]; omega)
    simp only [readMsg, hidle, hempty, List.length_nil, Nat.sub_zero, htake]
    cases hfe : f.encode with
    | nil => rw [hfe] at g3; simp at g3; omega
    | cons c cs => simp
  rcases parseBuf_some tbl hf rx.stat with ⟨m, k, seq, hdel, ⟨i, hi1, hi2⟩, h⟩ | ⟨hcor, _⟩
  · rw [frameInfo_encode f hw] at hi1
    cases hi1
    simp only at hi2
    subst hi2
    obtain ⟨e1, e2⟩ := crcValid_unique_msg hdel (delivers_encode tbl f hw hc)
    have hne : f.encode.length ≠ 0 := by omega
    have hread2 : ∀ st, readMsg tbl true { buf := f.encode ++ [], lastLen := f.encode.length, stat := st }
        (.got f.encode) = ({ buf := [], lastLen := 0, stat := st }, .stop 0) := by
      intro st
      simp only [readMsg, ne_eq, hne, not_false_eq_true, ite_true]
      simp [parseBuf, resync, decodeHdr]
    unfold handleReadRx
    have : rxBufMax + 1 = 1119 + 1 + 1 := rfl
    rw [this, drain, hread, h]
    simp only []
    rw [drain, hread2]
    simp only [e1, e2]
  · exact absurd hcor (delivers_not_corrupt (delivers_encode tbl f hw hc))

theorem dropSeq_exact (st : RxStat) (n : Nat) (a b : UInt8) (ha : st.expectedSeq = a + 1)
    (hcount : st.total + 1 > 1) :
    (statOk st n b).dropSeq =
      st.dropSeq + UInt32.ofNat (lostBetween a b) - (if (a + 1).toNat ≤ b.toNat then 0 else 1) := by
  have hadd : (a + 1).toNat = (a.toNat + 1) % 256 := by simp [UInt8.toNat_add]
  have halt := a.toNat_lt
  have hblt := b.toNat_lt
  simp only [statOk, seqUpdate, ha]
  by_cases hab : a + 1 = b
  · subst hab
    have : lostBetween a (a + 1) = 0 := by simp only [lostBetween, hadd]; omega
    simp [this]
  · have hne : (a + 1).toNat ≠ b.toNat := fun h => hab (UInt8.toNat_inj.mp h)
    simp only [ne_eq, hab, not_false_eq_true, ite_true, hcount]
    by_cases hlt : b > a + 1
    · have hlt' : (a + 1).toNat < b.toNat := UInt8.lt_iff_toNat_lt.mp hlt
      rw [if_pos hlt, if_pos (by omega)]
      have : (b - (a + 1)).toUInt32 = UInt32.ofNat (lostBetween a b) := by
        apply UInt32.toNat_inj.mp
        rw [UInt8.toNat_toUInt32, UInt8.toNat_sub_of_le _ _ (UInt8.le_iff_toNat_le.mpr (by omega)),
          UInt32.toNat_ofNat', lostBetween]
        omega
      rw [this]
      simp
    · have hlt' : ¬ (a + 1).toNat < b.toNat := fun h => hlt (UInt8.lt_iff_toNat_lt.mpr h)
      rw [if_neg hlt, if_neg (by omega)]
      have : (255 - (a + 1) + b).toUInt32 = UInt32.ofNat (lostBetween a b) - 1 := by
        have h1 : UInt32.ofNat (lostBetween a b) - 1 = UInt32.ofNat (lostBetween a b - 1) := by
          apply UInt32.toNat_inj.mp
          rw [UInt32.toNat_sub_of_le, UInt32.toNat_ofNat', UInt32.toNat_ofNat', lostBetween]
          · simp; omega
          · rw [UInt32.le_iff_toNat_le, UInt32.toNat_ofNat', lostBetween]
            simp; omega
        rw [h1]
        apply UInt32.toNat_inj.mp
        have h255 : (255 : UInt8).toNat = 255 := rfl
        rw [UInt8.toNat_toUInt32, UInt8.toNat_add, UInt8.toNat_sub_of_le _ _
          (UInt8.le_iff_toNat_le.mpr (by omega)), h255, UInt32.toNat_ofNat', lostBetween]
        omega
      rw [this]
      simp only [UInt32.sub_eq_add_neg]; ac_rfl

/-- **C09** (partial): when frames with sequence numbers `a` then `b` arrive, the loss counter grows by exactly
the number of sequence numbers strictly between them, provided `b` did not wrap below `a + 1`. Missing: the
wrapping case, where the code counts one less (`C09_violated`, `C09_wrap_off_by_one`). `hcount` excludes only
the wrap of the 32-bit total counter. -/
theorem C09_loss_partial (tbl : MsgTable) (f1 f2 : Frame) (hw1 : f1.WF) (hc1 : f1.CrcOk tbl)
    (hw2 : f2.WF) (hc2 : f2.CrcOk tbl) (rx : Rx) (hidle : rx.lastLen = 0) (hempty : rx.buf = [])
    (hcount : (handleReadRx tbl rx (.got f1.encode)).1.stat.total + 1 > 1)
    (hnowrap : (f1.seq + 1).toNat ≤ f2.seq.toNat) :
    (runRx tbl rx [.got f1.encode, .got f2.encode]).1.stat.dropSeq =
      (runRx tbl rx [.got f1.encode]).1.stat.dropSeq + UInt32.ofNat (lostBetween f1.seq f2.seq) := by
  simp only [runRx, handle_one tbl f1 hw1 hc1 rx hidle hempty] at *
  rw [handle_one tbl f2 hw2 hc2 _ rfl rfl]
  simp only []
  rw [dropSeq_exact (statOk rx.stat f1.encode.length f1.seq) _ f1.seq f2.seq
    (seqUpdate_handled _ _).2.2.2.2 hcount, if_pos hnowrap]
  simp

example : (runRx Sample.tbl {} [.got { Sample.unk with seq := 3 }.encode,
      .got { Sample.unk with seq := 9 }.encode]).1.stat.dropSeq = 0 + 5 := by
  have hw : ∀ s, ({ Sample.unk with seq := s } : Frame).WF := fun s => by simp [Frame.WF, Sample.unk]
  have hc : ∀ s, ({ Sample.unk with seq := s } : Frame).CrcOk Sample.tbl := fun s e h => by
    have h : none = some e := h; cases h
  exact C09_loss_partial Sample.tbl _ _ (hw 3) (hc 3) (hw 9) (hc 9) {} rfl rfl
    (by decide +kernel) (by decide)

/-- **C09** in the wrapping case: the code counts one lost message too few. -/
theorem C09_wrap_off_by_one (tbl : MsgTable) (f1 f2 : Frame) (hw1 : f1.WF) (hc1 : f1.CrcOk tbl)
    (hw2 : f2.WF) (hc2 : f2.CrcOk tbl) (rx : Rx) (hidle : rx.lastLen = 0) (hempty : rx.buf = [])
    (hcount : (handleReadRx tbl rx (.got f1.encode)).1.stat.total + 1 > 1)
    (hwrap : f2.seq.toNat < (f1.seq + 1).toNat) :
    (runRx tbl rx [.got f1.encode, .got f2.encode]).1.stat.dropSeq + 1 =
      (runRx tbl rx [.got f1.encode]).1.stat.dropSeq + UInt32.ofNat (lostBetween f1.seq f2.seq) := by
  simp only [runRx, handle_one tbl f1 hw1 hc1 rx hidle hempty] at *
  rw [handle_one tbl f2 hw2 hc2 _ rfl rfl]
  simp only []
  rw [dropSeq_exact (statOk rx.stat f1.encode.length f1.seq) _ f1.seq f2.seq
    (seqUpdate_handled _ _).2.2.2.2 hcount, if_neg (by omega)]
  simp

example : (0 : UInt8).toNat < ((253 : UInt8) + 1).toNat := by decide

/-- **C09** is false of the code (src/endpoint.cpp:443-447): sequence 253 followed by 0 loses messages 254
and 255, the counter grows by 1. -/
theorem C09_violated :
    lostBetween 253 0 = 2 ∧
    (runRx Sample.tbl {} [.got { Sample.unk with seq := 253 }.encode]).1.stat.dropSeq = 0 ∧
    (runRx Sample.tbl {} [.got { Sample.unk with seq := 253 }.encode,
      .got { Sample.unk with seq := 0 }.encode]).1.stat.dropSeq = 1 := by
  refine ⟨by decide, by decide +kernel, by decide +kernel⟩

/-! ### Whole histories -/

/-- A frame that is handed on is not corrupt. -/
theorem validSeqs_ok {tbl : MsgTable} {fr frs m k i} (h : Delivers tbl fr m k) (hi : frameInfo fr = some i) :
    validSeqs tbl (fr :: frs) = i.2.2.1 :: validSeqs tbl frs := by
  simp [validSeqs, delivers_not_corrupt h, hi]

theorem validSeqs_bad {tbl : MsgTable} {fr frs} (h : Corrupt tbl fr) :
    validSeqs tbl (fr :: frs) = validSeqs tbl frs := by
  simp [validSeqs, h]

theorem statOk_total (st : RxStat) (n : Nat) (b : UInt8) :
    (statOk st n b).total = st.total + 1 + ((statOk st n b).dropSeq - st.dropSeq) := by
  simp only [statOk, seqUpdate]
  split
  · split
    · simp only []
      rw [UInt32.add_comm st.dropSeq, UInt32.add_sub_cancel]
    · simp
  · simp

theorem lostBetween_lt (a b : UInt8) : lostBetween a b < 256 := Nat.mod_lt _ (by omega)

/-- A loss across the end of the numbers is at least 1. -/
theorem lostBetween_wrap (a b : UInt8) (h : b.toNat < (a + 1).toNat) : 1 ≤ lostBetween a b := by
  have := a.toNat_lt
  have hadd : (a + 1).toNat = (a.toNat + 1) % 256 := by simp [UInt8.toNat_add]
  simp only [lostBetween]
  omega

theorem counted_from (tbl : MsgTable) {st frs ms st'} (h : Counted tbl st frs ms st') :
    ∀ a, st.expectedSeq = a + 1 → 1 ≤ st.total.toNat →
    st.total.toNat + frs.length + lossSum (a :: validSeqs tbl frs) < 4294967296 →
    st'.dropSeq + UInt32.ofNat (lossWraps (a :: validSeqs tbl frs)) =
      st.dropSeq + UInt32.ofNat (lossSum (a :: validSeqs tbl frs)) := by
  induction h with
  | nil => intro a _ _ _; simp [validSeqs, lossSum, lossWraps]
  | @ok st fr frs m k i ms st' hd hi _ ih =>
    intro a ha h1 hfit
    rw [validSeqs_ok hd hi] at hfit ⊢
    simp only [lossSum, lossWraps, List.length_cons] at hfit ⊢
    have hc : st.total + 1 > 1 := by
      rw [gt_iff_lt, UInt32.lt_iff_toNat_lt, UInt32.toNat_add]
      simp only [UInt32.reduceToNat]
      omega
    have he := dropSeq_exact st fr.length a i.2.2.1 ha hc
    have ht := statOk_total st fr.length i.2.2.1
    have hw := lostBetween_wrap a i.2.2.1
    have hl := lostBetween_lt a i.2.2.1
    have hdiff : (statOk st fr.length i.2.2.1).dropSeq - st.dropSeq =
        UInt32.ofNat (lostBetween a i.2.2.1 - (if i.2.2.1.toNat < (a + 1).toNat then 1 else 0)) := by
      rw [he]
      by_cases hlt : i.2.2.1.toNat < (a + 1).toNat
      · rw [if_neg (by omega), if_pos hlt, UInt32.ofNat_sub (hw hlt)]
        simp only [UInt32.sub_eq_add_neg]
        rw [show UInt32.ofNat 1 = 1 from rfl]
        have : st.dropSeq + UInt32.ofNat (lostBetween a i.2.2.1) + -1 + -st.dropSeq =
            UInt32.ofNat (lostBetween a i.2.2.1) + -1 + (st.dropSeq + -st.dropSeq) := by ac_rfl
        rw [this, UInt32.add_right_neg, UInt32.add_zero]
      · rw [if_pos (by omega), if_neg hlt]
        simp only [UInt32.sub_zero, Nat.sub_zero]
        rw [UInt32.add_comm, UInt32.add_sub_cancel]
    have htn : (statOk st fr.length i.2.2.1).total.toNat =
        st.total.toNat + 1 + (lostBetween a i.2.2.1 - (if i.2.2.1.toNat < (a + 1).toNat then 1 else 0)) := by
      rw [ht, hdiff, UInt32.toNat_add, UInt32.toNat_add, UInt32.toNat_ofNat']
      simp only [UInt32.reduceToNat]
      omega
    have hih := ih i.2.2.1 (seqUpdate_handled _ _).2.2.2.2 (by omega) (by omega)
    have hd' : (statOk st fr.length i.2.2.1).dropSeq + UInt32.ofNat (if i.2.2.1.toNat < (a + 1).toNat then 1 else 0) =
        st.dropSeq + UInt32.ofNat (lostBetween a i.2.2.1) := by
      rw [he]
      by_cases hlt : i.2.2.1.toNat < (a + 1).toNat
      · rw [if_neg (by omega), if_pos hlt]
        simp
      · rw [if_pos (by omega), if_neg hlt]
        simp
    rw [UInt32.ofNat_add, UInt32.ofNat_add]
    rw [← UInt32.add_assoc st.dropSeq, ← hd']
    have e1 : st'.dropSeq + (UInt32.ofNat (if i.2.2.1.toNat < (a + 1).toNat then 1 else 0) +
        UInt32.ofNat (lossWraps (i.2.2.1 :: validSeqs tbl frs))) =
        (st'.dropSeq + UInt32.ofNat (lossWraps (i.2.2.1 :: validSeqs tbl frs))) +
        UInt32.ofNat (if i.2.2.1.toNat < (a + 1).toNat then 1 else 0) := by ac_rfl
    rw [e1, hih]
    ac_rfl
  | @bad st fr frs ms st' hc _ ih =>
    intro a ha h1 hfit
    rw [validSeqs_bad hc] at hfit ⊢
    simp only [List.length_cons] at hfit
    have htn : (statBad st fr.length).total.toNat = st.total.toNat + 1 := by
      simp only [statBad, UInt32.toNat_add, UInt32.reduceToNat]
      omega
    exact ih a ha (by omega) (by omega)

/-- The number the first valid frame adds to the loss counter although nothing is known before it: its sequence number, if a
corrupt frame came before. -/
noncomputable def Spec.falseLoss (tbl : MsgTable) (frs : List (List UInt8)) : Nat :=
  open Classical in
  match frs with
  | fr :: _ => if Corrupt tbl fr then ((validSeqs tbl frs).headD 0).toNat else 0
  | [] => 0

theorem counted_lead (tbl : MsgTable) {st frs ms st'} (h : Counted tbl st frs ms st') :
    st.expectedSeq = 0 → 1 ≤ st.total.toNat →
    st.total.toNat + frs.length + lossSum (validSeqs tbl frs) + 255 < 4294967296 →
    st'.dropSeq + UInt32.ofNat (lossWraps (validSeqs tbl frs)) =
      st.dropSeq + UInt32.ofNat (lossSum (validSeqs tbl frs) + ((validSeqs tbl frs).headD 0).toNat) := by
  induction h with
  | nil => intro _ _ _; simp [validSeqs, lossSum, lossWraps]
  | @ok st fr frs m k i ms st' hd hi hrest ih =>
    intro ha h1 hfit
    rw [validSeqs_ok hd hi] at hfit ⊢
    simp only [List.length_cons, List.headD_cons] at hfit ⊢
    have hq := i.2.2.1.toNat_lt
    have hc : st.total + 1 > 1 := by
      rw [gt_iff_lt, UInt32.lt_iff_toNat_lt, UInt32.toNat_add]
      simp only [UInt32.reduceToNat]
      omega
    have he : (statOk st fr.length i.2.2.1).dropSeq = st.dropSeq + UInt32.ofNat i.2.2.1.toNat := by
      simp only [statOk, seqUpdate, ha]
      by_cases h0 : 0 = i.2.2.1
      · rw [← h0]; simp
      · have hpos : i.2.2.1 > 0 := by
          rw [gt_iff_lt, UInt8.lt_iff_toNat_lt]
          have : i.2.2.1.toNat ≠ 0 := fun h => h0 (UInt8.toNat_inj.mp (by simpa using h.symm))
          simp only [UInt8.reduceToNat]
          omega
        simp only [ne_eq, h0, not_false_eq_true, ite_true, hc, hpos, UInt8.sub_zero]
        congr 1
        apply UInt32.toNat_inj.mp
        rw [UInt8.toNat_toUInt32, UInt32.toNat_ofNat']
        omega
    have htn : (statOk st fr.length i.2.2.1).total.toNat = st.total.toNat + 1 + i.2.2.1.toNat := by
      have : st.dropSeq + UInt32.ofNat i.2.2.1.toNat - st.dropSeq = UInt32.ofNat i.2.2.1.toNat := by
        rw [UInt32.add_comm, UInt32.add_sub_cancel]
      rw [statOk_total, he, this, UInt32.toNat_add, UInt32.toNat_add, UInt32.toNat_ofNat']
      simp only [UInt32.reduceToNat]
      omega
    have := counted_from tbl hrest i.2.2.1 (seqUpdate_handled _ _).2.2.2.2 (by omega) (by omega)
    rw [this, he, UInt32.ofNat_add]
    ac_rfl
  | @bad st fr frs ms st' hc _ ih =>
    intro ha h1 hfit
    rw [validSeqs_bad hc] at hfit ⊢
    simp only [List.length_cons] at hfit
    have htn : (statBad st fr.length).total.toNat = st.total.toNat + 1 := by
      simp only [statBad, UInt32.toNat_add, UInt32.reduceToNat]
      omega
    exact ih ha (by omega) (by omega)

/-- **C09** (part): for every history of reads of a new endpoint, the loss counter is the number of messages missing in the
sequence numbers of the valid frames received, up to two errors: it is one too small for every loss across the end of the
numbers, and if the first frame was corrupt the first valid frame adds its own sequence number. `frs` are the frames taken
from the stream, `frs2` those still pending. `hfit` excludes only the wrap of the 32-bit counters. Missing: the two errors,
where the claim is false (`C09_violated`, `C09_violated_first`). -/
theorem C09_history_partial (tbl : MsgTable) (ios : List SysRead) (frs frs2 : List (List UInt8)) (t : List UInt8)
    (h2 : Cuts (runRx tbl {} ios).1.pending frs2 t) (h1 : Cuts (consumedRun tbl {} ios) (frs ++ frs2) t)
    (hfit : frs.length + lossSum (validSeqs tbl frs) + 256 < 4294967296) :
    (runRx tbl {} ios).1.stat.dropSeq + UInt32.ofNat (lossWraps (validSeqs tbl frs)) =
      UInt32.ofNat (lossSum (validSeqs tbl frs) + falseLoss tbl frs) := by
  obtain ⟨f, hl, hc⟩ := runRx_cuts tbl ios {} inv_fresh
  have := hl [] frs2 t (by simpa using h2)
  have hf : f = frs := by
    have e := (Cuts.unique h1 (by simpa [Rx.pending] using this)).1
    exact (List.append_cancel_right e).symm
  subst hf
  generalize (runRx tbl {} ios).1.stat = st' at hc ⊢
  rw [show ({} : Rx).stat = {} from rfl] at hc
  generalize (runRx tbl {} ios).2 = ms at hc
  cases hc with
  | nil => simp [validSeqs, lossSum, lossWraps, falseLoss]
  | @ok _ fr frs m k i ms _ hd hi hrest =>
    rw [validSeqs_ok hd hi] at hfit ⊢
    have h0 : (statOk {} fr.length i.2.2.1).dropSeq = 0 := by
      simp only [statOk, seqUpdate]
      split
      · rw [if_neg (by decide)]
      · rfl
    have ht : (statOk {} fr.length i.2.2.1).total.toNat = 1 := by
      rw [statOk_total, h0]; rfl
    have := counted_from tbl hrest i.2.2.1 (seqUpdate_handled _ _).2.2.2.2 (by omega)
      (by simp only [List.length_cons] at hfit; omega)
    rw [this, h0]
    simp [falseLoss, delivers_not_corrupt hd]
  | @bad _ fr frs ms _ hcor hrest =>
    have ht : (statBad {} fr.length).total.toNat = 1 := rfl
    have := counted_lead tbl hrest rfl (by omega)
      (by rw [validSeqs_bad hcor] at hfit; simp only [List.length_cons] at hfit; omega)
    have hff : falseLoss tbl (fr :: frs) = ((validSeqs tbl frs).headD 0).toNat := by
      simp only [falseLoss]
      rw [if_pos hcor, validSeqs_bad hcor]
    rw [hff, validSeqs_bad hcor, this]
    simp [statBad]

/-- The frames of any stream can be cut. -/
theorem Spec.Cuts.exists (bs : List UInt8) : ∃ frs t, Cuts bs frs t := by
  generalize hn : bs.length = n
  induction n using Nat.strongRecOn generalizing bs with
  | _ n ih =>
    cases hf : firstFrame bs with
    | none => exact ⟨[], _, .done hf⟩
    | some x =>
      have := firstFrame_rest_length hf
      obtain ⟨frs, t, h⟩ := ih x.2.length (by omega) x.2 rfl
      exact ⟨x.1 :: frs, t, .frame hf h⟩

/-- For every history there are such frames. -/
example (tbl : MsgTable) (ios : List SysRead) : ∃ frs frs2 t, Cuts (runRx tbl {} ios).1.pending frs2 t ∧
    Cuts (consumedRun tbl {} ios) (frs ++ frs2) t := by
  obtain ⟨f, hl, _⟩ := runRx_cuts tbl ios {} inv_fresh
  obtain ⟨frs2, t, h⟩ := Cuts.exists (runRx tbl {} ios).1.pending
  exact ⟨f, frs2, t, h, by simpa [Rx.pending] using hl [] frs2 t (by simpa using h)⟩

example : lossSum [3, 9, 9, 10, 4] = 5 + 255 + 0 + 249 ∧ lossWraps [3, 9, 9, 10, 4] = 2 := by decide

/-- **C09** is false of the code in a second way: before the first valid frame nothing is known about earlier messages,
but if a corrupt frame was received before, its sequence number is counted as that many lost messages. -/
theorem C09_violated_first :
    (runRx Sample.tbl {} [.got (Sample.hbBad.encode ++ { Sample.unk with seq := 200 }.encode),
      .got { Sample.unk with seq := 201 }.encode]).1.stat.dropSeq = 200 := by
  decide +kernel

/-- **C08**: the number of checksum errors is the number of corrupt frames taken from the stream. -/
theorem C08_crc_errors (tbl : MsgTable) (ios : List SysRead) (frs frs2 : List (List UInt8)) (t : List UInt8)
    (h2 : Cuts (runRx tbl {} ios).1.pending frs2 t) (h1 : Cuts (consumedRun tbl {} ios) (frs ++ frs2) t) :
    open Classical in
    (runRx tbl {} ios).1.stat.crcError = UInt32.ofNat (frs.countP fun fr => Corrupt tbl fr) ∧
    (runRx tbl {} ios).1.stat.handled = UInt32.ofNat (frs.countP fun fr => ¬ Corrupt tbl fr) := by
  obtain ⟨f, hl, hc⟩ := runRx_cuts tbl ios {} inv_fresh
  have := hl [] frs2 t (by simpa using h2)
  have hf : f = frs := by
    have e := (Cuts.unique h1 (by simpa [Rx.pending] using this)).1
    exact (List.append_cancel_right e).symm
  subst hf
  have gen : ∀ {st frs ms st'}, Counted tbl st frs ms st' → open Classical in
      st'.crcError = st.crcError + UInt32.ofNat (frs.countP fun fr => Corrupt tbl fr) ∧
      st'.handled = st.handled + UInt32.ofNat (frs.countP fun fr => ¬ Corrupt tbl fr) := by
    intro st frs ms st' h
    induction h with
    | nil => simp
    | @ok st fr frs m k i ms st' hd hi _ ih =>
      rw [ih.1, ih.2]
      have hn := delivers_not_corrupt hd
      simp only [List.countP_cons, hn, decide_false, not_false_eq_true, decide_true, statOk,
        (seqUpdate_handled _ _).1, (seqUpdate_handled _ _).2.2.1, Bool.false_eq_true, if_false, if_true, Nat.add_zero,
        true_and]
      rw [UInt32.ofNat_add, show UInt32.ofNat 1 = 1 from rfl]
      ac_rfl
    | @bad st fr frs ms st' hc _ ih =>
      rw [ih.1, ih.2]
      simp only [List.countP_cons, hc, decide_true, not_true_eq_false, decide_false, statBad, Bool.false_eq_true,
        if_false, if_true, Nat.add_zero, and_true]
      rw [UInt32.ofNat_add, show UInt32.ofNat 1 = 1 from rfl]
      ac_rfl
  have := gen hc
  simpa using this

/-- **C10**: for every message ever handed on, in any history: without table entry or target field the target
is absent (-1); otherwise it is the payload byte at the field's offset, or 0 when the payload ends before it. -/
theorem C10_target_extraction (tbl : MsgTable) (ios : List SysRead) :
    ∀ x ∈ (runRx tbl {} ios).2, ∃ h len seq sys comp mid,
      frameInfo x.1.data = some (h, len, seq, sys, comp, mid) ∧
      (tbl mid = none → x.1.targetSys = -1 ∧ x.1.targetComp = -1) ∧
      ∀ e, tbl mid = some e →
        let payload := (x.1.data.drop h).take len.toNat
        x.1.targetSys = (if e.hasTargetSys then ((payload.getD e.targetSysOfs 0).toNat : Int) else -1) ∧
        x.1.targetComp = (if e.hasTargetComp then ((payload.getD e.targetCompOfs 0).toNat : Int) else -1) := by
  have htgt : ∀ (p : Bool) (o : Nat) (pl : List UInt8),
      target p o pl = if p then ((pl.getD o 0).toNat : Int) else -1 := by
    intro p o pl
    unfold target
    split
    · congr 2
      simp only [List.getD_eq_getElem?_getD, List.getElem?_append, List.getElem?_replicate]
      split
      · rfl
      · rw [if_pos (by omega)]
        rw [List.getElem?_eq_none (by omega)]
        rfl
    · rfl
  intro x hx
  obtain ⟨_, h, len, seq, sys, comp, mid, hi, _, _, _, _, hor⟩ := (C03_handed_on_is_valid tbl ios x hx).1
  refine ⟨h, len, seq, sys, comp, mid, hi, ?_, ?_⟩
  · intro hn
    rcases hor with ⟨_, _, _, a, b⟩ | ⟨_, e, he, _⟩
    · exact ⟨a, b⟩
    · rw [hn] at he; cases he
  · intro e he
    rcases hor with ⟨_, hn, _⟩ | ⟨_, e', he', _, _, a, b⟩
    · rw [hn] at he; cases he
    · rw [he] at he'; cases he'
      exact ⟨by rw [a, htgt], by rw [b, htgt]⟩

/-- A valid COMMAND_LONG to system 5, component 0 (trailing zeros trimmed: the target component and the
byte after it are not on the wire). -/
def Sample.cmdTrimmed : Frame :=
  { v2 := true, seq := 1, sys := 255, comp := 190, msgid := 76,
    payload := List.replicate 28 1 ++ [2, 1, 5], crcLo := 179, crcHi := 16 }

example : (runRx Sample.tbl {} [.got Sample.cmdTrimmed.encode]).2.map (fun x => (x.1.targetSys, x.1.targetComp))
    = [(5, 0)] := by decide +kernel

example : (runRx Sample.tbl {} [.got Sample.hb2.encode, .got Sample.unk.encode]).2.map
    (fun x => (x.1.targetSys, x.1.targetComp)) = [(-1, -1), (-1, -1)] := by decide +kernel

end Verif
