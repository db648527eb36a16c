import Verif.Lemmas.RxBasic

/- The event-by-event receive path refines the stream specification. -/

namespace Verif

open Spec

theorem firstFrame_eq (p : List UInt8) :
    firstFrame p = match frameLen (resync p) with
      | some n => if n ≤ (resync p).length then some ((resync p).take n, (resync p).drop n) else none
      | none => none := rfl

theorem stripNoise_eq (p : List UInt8) : stripNoise p = resync p := rfl

theorem firstFrame_resync (p : List UInt8) : firstFrame (resync p) = firstFrame p := by
  rw [firstFrame_eq, firstFrame_eq, resync_resync]

theorem resync_append_resync (p c : List UInt8) : resync (resync p ++ c) = resync (p ++ c) := by
  induction p with
  | nil => rfl
  | cons x t ih =>
    by_cases hx : isStx x = true
    · have : resync (x :: t) = x :: t := by
        unfold resync; rw [List.dropWhile_cons]; simp [hx]
      rw [this]
    · have h1 : resync (x :: t) = resync t := by
        unfold resync; rw [List.dropWhile_cons]; simp [hx]
      have h2 : resync (x :: t ++ c) = resync (t ++ c) := by
        unfold resync; rw [List.cons_append, List.dropWhile_cons]; simp [hx]
      rw [h1, h2, ih]

theorem firstFrame_append_resync (p c : List UInt8) :
    firstFrame (resync p ++ c) = firstFrame (p ++ c) := by
  rw [firstFrame_eq, firstFrame_eq, resync_append_resync]

theorem frameLen_append {q : List UInt8} {n} (h : frameLen q = some n) (c : List UInt8) :
    frameLen (q ++ c) = some n := by
  unfold frameLen at h
  split at h
  · cases h; rfl
  · cases h; rfl
  · cases h

theorem resync_ne_nil_append {p : List UInt8} (h : resync p ≠ []) (c : List UInt8) :
    resync (p ++ c) = resync p ++ c := by
  rw [← resync_append_resync]
  rcases atStx_resync p with h' | ⟨t, h' | h'⟩
  · exact absurd h' h
  · rw [h']; rfl
  · rw [h']; rfl

theorem firstFrame_append {p fr rest : List UInt8} (h : firstFrame p = some (fr, rest))
    (c : List UInt8) : firstFrame (p ++ c) = some (fr, rest ++ c) := by
  rw [firstFrame_eq] at h
  split at h
  · rename_i n hn
    split at h
    · rename_i hle
      cases h
      have hne : resync p ≠ [] := by intro h0; rw [h0] at hn; simp [frameLen] at hn
      rw [firstFrame_eq, resync_ne_nil_append hne, frameLen_append hn]
      simp only [List.length_append]
      rw [if_pos (by omega), List.take_append_of_le_length hle, List.drop_append_of_le_length hle]
    · cases h
  · cases h

/-- Facts about a first frame. -/
theorem firstFrame_some {p fr rest : List UInt8} (h : firstFrame p = some (fr, rest)) :
    ∃ hd, decodeHdr (resync p) = some hd ∧ resync p = fr ++ rest ∧ fr.length = hd.size ∧
      fr = (resync p).take hd.size ∧
      frameInfo fr = some (hd.hdrLen, hd.payloadLen, hd.seq, hd.sysid, hd.compid, hd.msgid) ∧
      (if (resync p).getD 0 0 = stxV2 then 10 else 6) = hd.hdrLen ∧ 6 ≤ hd.hdrLen ∧
      hd.payloadLen = (resync p).getD 1 0 ∧ hd.hdrLen + hd.payloadLen.toNat + 2 ≤ hd.size ∧
      hd.size ≤ 280 ∧ hd.size ≤ (resync p).length := by
  rw [firstFrame_eq] at h
  rcases decode_cases (atStx_resync p) with ⟨_, h2, _⟩ | ⟨hd, h1, h2, h3, h4, h5, h6, h7, h8, h9⟩
  · rw [h2] at h; cases h
  · rw [h2] at h
    simp only at h
    split at h
    · rename_i hle
      cases h
      exact ⟨hd, h1, (List.take_append_drop _ _).symm, by simp; omega, rfl,
        frameInfo_take h3 (by simp only []; omega), h4, h5, h6, h7, h8, hle⟩
    · cases h

theorem firstFrame_rest_length {p fr rest : List UInt8} (h : firstFrame p = some (fr, rest)) :
    rest.length + 8 ≤ p.length := by
  obtain ⟨hd, _, h1, h2, _, _, _, h5, _, h7, _, h9⟩ := firstFrame_some h
  have hs : (resync p).length ≤ p.length := (List.dropWhile_sublist _).length_le
  have := congrArg List.length h1
  simp at this
  omega

/-- No complete frame: `read_msg` waits. -/
theorem parseBuf_none (tbl : MsgTable) {p : List UInt8} (h : firstFrame p = none) (st : RxStat) :
    parseBuf tbl p st = ({ buf := resync p, lastLen := 0, stat := st }, .stop 0) ∧
    (resync p).length < 280 := by
  rw [firstFrame_eq] at h
  unfold parseBuf
  rcases decode_cases (atStx_resync p) with ⟨h1, h2, h3⟩ | ⟨hd, h1, h2, h3, h4, h5, h6, h7, h8, h9⟩
  · exact ⟨by simp only [h1], by omega⟩
  · rw [h2] at h
    simp only at h
    split at h
    · cases h
    · rename_i hle
      simp only [h1]
      rw [if_pos (by omega)]
      exact ⟨rfl, by omega⟩

/-- Statistics after a packet that was handed on. -/
def statOk (st : RxStat) (n : Nat) (seq : UInt8) : RxStat :=
  seqUpdate { st with total := st.total + 1, handled := st.handled + 1,
                      handledBytes := st.handledBytes + UInt64.ofNat n } seq

/-- Statistics after a packet with a bad checksum. -/
def statBad (st : RxStat) (n : Nat) : RxStat :=
  { st with total := st.total + 1, crcError := st.crcError + 1,
            crcErrorBytes := st.crcErrorBytes + UInt64.ofNat n }

/-- A complete frame: either it is handed on or it is counted as checksum error. -/
theorem parseBuf_some (tbl : MsgTable) {p fr rest : List UInt8}
    (h : firstFrame p = some (fr, rest)) (st : RxStat) :
    (∃ m k seq, Delivers tbl fr m k ∧ (∃ i, frameInfo fr = some i ∧ i.2.2.1 = seq) ∧
      parseBuf tbl p st =
        ({ buf := fr ++ rest, lastLen := fr.length, stat := statOk st fr.length seq }, .msg m k)) ∨
    (Corrupt tbl fr ∧ parseBuf tbl p st =
        ({ buf := fr ++ rest, lastLen := fr.length, stat := statBad st fr.length }, .stop 0)) := by
  obtain ⟨hd, h1, h2, h3, h4, h5, h6, h7, h8, h9, h10, h11⟩ := firstFrame_some h
  unfold parseBuf
  simp only [h1]
  rw [if_neg (by omega)]
  unfold finishPacket
  have hcrc : ∀ e, checkCrc e (resync p) = true ↔
      crcValid e.crcExtra hd.hdrLen hd.payloadLen.toNat fr := by
    intro e
    rw [h4]
    exact crcValid_iff e _ _ _ _ h6 (by rw [h8]) (by omega) h9 h11
  cases ht : tbl hd.msgid with
  | none =>
    left
    simp only [Bool.not_true, Bool.false_eq_true, ↓reduceIte]
    refine ⟨?m, false, hd.seq, ?d, ⟨_, h5, rfl⟩, ?e⟩
    case e =>
      simp only [h3, ← h2]
      rfl
    case d =>
      exact ⟨h4.symm, _, _, _, _, _, _, h5, rfl, rfl, rfl, rfl, Or.inl ⟨rfl, ht, rfl, rfl, rfl⟩⟩
  | some e =>
    simp only []
    by_cases hc : checkCrc e (resync p) = true
    · left
      simp only [hc, Bool.not_true, Bool.false_eq_true, ↓reduceIte]
      refine ⟨?m2, true, hd.seq, ?d, ⟨_, h5, rfl⟩, ?e⟩
      case e =>
        simp only [h3, ← h2]
        rfl
      case d =>
        refine ⟨h4.symm, _, _, _, _, _, _, h5, rfl, rfl, rfl, rfl,
          Or.inr ⟨rfl, e, ht, (hcrc e).mp hc, rfl, ?_, ?_⟩⟩
        · simp only []
          rw [targetField_eq _ _ _ _ _ hd.size (by omega), ← h4]
        · simp only []
          rw [targetField_eq e.hasTargetComp _ _ _ _ hd.size (by omega), ← h4]
    · right
      simp only [hc, Bool.not_false, ↓reduceIte]
      refine ⟨⟨_, _, _, _, _, _, e, h5, ht, fun hv => hc ((hcrc e).mpr hv)⟩, ?_⟩
      simp only [h3, ← h2]
      rfl

/-! ### The specification is a total function -/

theorem crcValid_unique_msg {tbl : MsgTable} {fr : List UInt8} {m m' : Msg} {k k' : Bool}
    (h : Delivers tbl fr m k) (h' : Delivers tbl fr m' k') : m = m' ∧ k = k' := by
  obtain ⟨hb, a1, a2, a3, a4, a5, a6, hi, e1, e2, e3, e4, e5⟩ := h
  obtain ⟨hb', b1, b2, b3, b4, b5, b6, hi', f1, f2, f3, f4, f5⟩ := h'
  rw [hi] at hi'
  cases hi'
  cases m; cases m'
  simp only at *
  subst_vars
  rcases e5 with ⟨rfl, t1, t2, t3, t4⟩ | ⟨rfl, e, t1, _, t2, t3, t4⟩ <;>
    rcases f5 with ⟨rfl, s1, s2, s3, s4⟩ | ⟨rfl, e', s1, _, s2, s3, s4⟩
  · subst_vars; simp
  · rw [t1] at s1; cases s1
  · rw [t1] at s1; cases s1
  · rw [t1] at s1; cases s1; subst_vars; simp

theorem delivers_not_corrupt {tbl : MsgTable} {fr : List UInt8} {m : Msg} {k : Bool}
    (h : Delivers tbl fr m k) : ¬ Corrupt tbl fr := by
  rintro ⟨b1, b2, b3, b4, b5, b6, e, hi', ht, hc⟩
  obtain ⟨hb, a1, a2, a3, a4, a5, a6, hi, e1, e2, e3, e4, e5⟩ := h
  rw [hi] at hi'
  cases hi'
  rcases e5 with ⟨_, t1, _⟩ | ⟨_, e', t1, t2, _⟩
  · rw [t1] at ht; cases ht
  · rw [t1] at ht; cases ht; exact hc t2

theorem Spec.Means.unique {tbl : MsgTable} {bs ms t} (h : Means tbl bs ms t) :
    ∀ {ms' t'}, Means tbl bs ms' t' → ms = ms' ∧ t = t' := by
  induction h with
  | done h =>
    intro ms' t' h'
    cases h' with
    | done _ => exact ⟨rfl, rfl⟩
    | deliver h1 => rw [h] at h1; cases h1
    | drop h1 => rw [h] at h1; cases h1
  | deliver h hd _ ih =>
    intro ms' t' h'
    cases h' with
    | done h1 => rw [h] at h1; cases h1
    | deliver h1 hd1 hm =>
      rw [h] at h1; cases h1
      obtain ⟨rfl, rfl⟩ := ih hm
      obtain ⟨rfl, rfl⟩ := crcValid_unique_msg hd hd1
      exact ⟨rfl, rfl⟩
    | drop h1 hc hm =>
      rw [h] at h1; cases h1
      exact absurd hc (delivers_not_corrupt hd)
  | drop h hc _ ih =>
    intro ms' t' h'
    cases h' with
    | done h1 => rw [h] at h1; cases h1
    | deliver h1 hd1 hm =>
      rw [h] at h1; cases h1
      exact absurd hc (delivers_not_corrupt hd1)
    | drop h1 hc1 hm =>
      rw [h] at h1; cases h1
      exact ih hm

theorem Spec.Means.exists (tbl : MsgTable) (bs : List UInt8) : ∃ ms t, Means tbl bs ms t := by
  generalize hn : bs.length = n
  induction n using Nat.strongRecOn generalizing bs with
  | _ n ih =>
    cases hf : firstFrame bs with
    | none => exact ⟨_, _, .done hf⟩
    | some x =>
      obtain ⟨fr, rest⟩ := x
      have hl := firstFrame_rest_length hf
      obtain ⟨ms, t, hm⟩ := ih rest.length (by omega) rest rfl
      rcases parseBuf_some tbl hf {} with ⟨m, k, _, hd, _⟩ | ⟨hc, _⟩
      · exact ⟨_, _, .deliver hf hd hm⟩
      · exact ⟨_, _, .drop hf hc hm⟩

/-- Reading continues where it stopped: the meaning of a stream does not depend on where it is cut. -/
theorem Spec.Means.append {tbl : MsgTable} {p ms t} (h : Means tbl p ms t) :
    ∀ {c ms2 t2}, Means tbl (t ++ c) ms2 t2 → Means tbl (p ++ c) (ms ++ ms2) t2 := by
  induction h with
  | @done bs h =>
    intro c ms2 t2 h2
    rw [stripNoise_eq] at h2
    cases h2 with
    | done h3 =>
      rw [firstFrame_append_resync] at h3
      rw [stripNoise_eq, resync_append_resync, ← stripNoise_eq]
      exact .done h3
    | deliver h3 hd hm =>
      rw [firstFrame_append_resync] at h3
      exact .deliver h3 hd hm
    | drop h3 hc hm =>
      rw [firstFrame_append_resync] at h3
      exact .drop h3 hc hm
  | deliver h hd _ ih =>
    intro c ms2 t2 h2
    exact .deliver (firstFrame_append h c) hd (ih h2)
  | drop h hc _ ih =>
    intro c ms2 t2 h2
    exact .drop (firstFrame_append h c) hc (ih h2)

theorem Spec.Means.tail_done {tbl : MsgTable} {p ms t} (h : Means tbl p ms t) :
    firstFrame t = none ∧ stripNoise t = t := by
  induction h with
  | done h => exact ⟨by rw [stripNoise_eq, firstFrame_resync]; exact h, resync_resync _⟩
  | deliver _ _ _ ih => exact ih
  | drop _ _ _ ih => exact ih

/-! ### Runs -/

/-- Bytes received and not yet consumed. -/
def Rx.pending (rx : Rx) : List UInt8 := rx.buf.drop rx.lastLen

/-- Buffer invariant. -/
def Rx.Inv (rx : Rx) : Prop :=
  rx.buf.length ≤ rxBufMax ∧ rx.lastLen ≤ rx.buf.length ∧ (rx.lastLen = 0 → rx.buf.length < 280)

theorem parseBuf_inv (tbl : MsgTable) (p : List UInt8) (st : RxStat) (hp : p.length ≤ rxBufMax) :
    (parseBuf tbl p st).1.Inv := by
  have hs : (resync p).length ≤ p.length := (List.dropWhile_sublist _).length_le
  cases hf : firstFrame p with
  | none =>
    obtain ⟨h1, h2⟩ := parseBuf_none tbl hf st
    rw [h1]
    exact ⟨by simp only []; omega, by simp only []; omega, fun _ => h2⟩
  | some x =>
    obtain ⟨fr, rest⟩ := x
    obtain ⟨hd, _, g2, g3, _, _, _, g7, _, g9, _, _⟩ := firstFrame_some hf
    have hl : (fr ++ rest).length ≤ rxBufMax := by rw [← g2]; omega
    have hfr : fr.length ≠ 0 := by omega
    rcases parseBuf_some tbl hf st with ⟨m, k, _, hd, _, h⟩ | ⟨hc, h⟩ <;> rw [h] <;>
      exact ⟨hl, by simp, fun h0 => absurd h0 hfr⟩

/-- The bytes `handle_read` takes from the kernel in this event. -/
def consumedBy (rx : Rx) (io : SysRead) : List UInt8 :=
  if rx.lastLen ≠ 0 then []
  else match io with
    | .fail _ => []
    | .got bs => bs.take (rxBufMax - rx.buf.length)

theorem readMsg_inv (tbl : MsgTable) (fd : Bool) (rx : Rx) (io : SysRead) (h : rx.Inv) :
    (readMsg tbl fd rx io).1.Inv := by
  unfold readMsg
  split
  · exact h
  · split
    · exact parseBuf_inv _ _ _ (by have := h.1; simp; omega)
    · split
      · exact h
      · split
        · exact h
        · rename_i bs c cs heq
          apply parseBuf_inv
          have := congrArg List.length heq
          have hb := h.1
          simp only [List.length_take, List.length_cons] at this
          simp only [List.length_append, List.length_cons]
          omega

/-- What one `handle_read` does, once bytes `p` are pending and `read_msg` has fuel. -/
theorem drain_pending (tbl : MsgTable) : ∀ (n : Nat) (p : List UInt8) (st : RxStat) (io : SysRead),
    p.length < n →
    ∀ rx, rx.lastLen ≠ 0 → rx.pending = p → rx.stat = st →
    let r := drain tbl true n rx io
    (∀ ms2 t, Means tbl r.1.pending ms2 t → Means tbl p (r.2.1 ++ ms2) t) ∧
    (r.1.lastLen = 0 → firstFrame r.1.buf = none ∧ stripNoise r.1.buf = r.1.buf) ∧
    r.2.2 = 0 := by
  intro n
  induction n with
  | zero => intro p st io h; omega
  | succ n ih =>
    intro p st io hlt rx hll hp hst
    have hread : readMsg tbl true rx io = parseBuf tbl p st := by
      unfold readMsg
      simp only [Bool.not_true, Bool.false_eq_true, ↓reduceIte, hll, ne_eq, not_false_eq_true]
      rw [← hp, ← hst]; rfl
    simp only [drain, hread]
    cases hf : firstFrame p with
    | none =>
      obtain ⟨h1, h2⟩ := parseBuf_none tbl hf st
      rw [h1]
      refine ⟨?_, ?_, rfl⟩
      · intro ms2 t hm
        simp only [Rx.pending, List.drop_zero] at hm
        have := Means.append (tbl := tbl) (p := p) (.done hf) (c := []) (ms2 := ms2) (t2 := t)
          (by simpa [stripNoise_eq] using hm)
        simpa using this
      · intro _
        exact ⟨by rw [firstFrame_resync]; exact hf, resync_resync _⟩
    | some x =>
      obtain ⟨fr, rest⟩ := x
      obtain ⟨hd, _, g2, g3, _, _, _, g7, _, g9, _, _⟩ := firstFrame_some hf
      have hrl := firstFrame_rest_length hf
      have hfr : fr.length ≠ 0 := by omega
      rcases parseBuf_some tbl hf st with ⟨m, k, seq, hdel, _, h⟩ | ⟨hc, h⟩
      · rw [h]
        simp only []
        have := ih rest (statOk st fr.length seq) io (by omega)
          { buf := fr ++ rest, lastLen := fr.length, stat := statOk st fr.length seq } hfr
          (by simp [Rx.pending]) rfl
        obtain ⟨i1, i2, i3⟩ := this
        refine ⟨?_, i2, i3⟩
        intro ms2 t hm
        exact .deliver hf hdel (i1 _ _ hm)
      · rw [h]
        refine ⟨?_, ?_, rfl⟩
        · intro ms2 t hm
          simp only [Rx.pending, List.drop_left] at hm
          exact .drop hf hc hm
        · intro h0; exact absurd h0 hfr

/-- One `handle_read` event against the specification. -/
theorem handleRead_means (tbl : MsgTable) (rx : Rx) (io : SysRead) (hinv : rx.Inv) :
    let r := handleReadRx tbl rx io
    (∀ ms2 t, Means tbl r.1.pending ms2 t →
      Means tbl (rx.pending ++ consumedBy rx io) (r.2.1 ++ ms2) t) := by
  unfold handleReadRx
  by_cases hll : rx.lastLen = 0
  · -- may read
    have hpend : rx.pending = rx.buf := by simp [Rx.pending, hll]
    have hcons : consumedBy rx io = match io with
      | .fail _ => [] | .got bs => bs.take (rxBufMax - rx.buf.length) := by
      simp only [consumedBy, hll]; rfl
    rw [hpend, hcons]
    cases io with
    | fail r =>
      simp only [drain, readMsg, hll, List.append_nil]
      intro ms2 t hm
      simpa [Rx.pending, hll] using hm
    | got bs =>
      simp only
      cases hb : bs.take (rxBufMax - rx.buf.length) with
      | nil =>
        simp only [drain, readMsg, hll, hb, List.append_nil]
        intro ms2 t hm
        simpa [Rx.pending, hll] using hm
      | cons c cs =>
        have hlen : (rx.buf ++ c :: cs).length ≤ rxBufMax := by
          have := congrArg List.length hb
          have hb := hinv.1
          simp only [List.length_take, List.length_cons] at this
          simp only [List.length_append, List.length_cons]
          omega
        -- same as draining from a fictitious consumed packet
        have key := drain_pending tbl (rxBufMax + 1) (rx.buf ++ c :: cs) rx.stat (.got bs)
          (by omega) { buf := 0 :: (rx.buf ++ c :: cs), lastLen := 1, stat := rx.stat } (by simp)
          (by simp [Rx.pending]) rfl
        have heq : drain tbl true (rxBufMax + 1) rx (.got bs) =
            drain tbl true (rxBufMax + 1)
              { buf := 0 :: (rx.buf ++ c :: cs), lastLen := 1, stat := rx.stat } (.got bs) := by
          have h1 : readMsg tbl true rx (.got bs) =
              readMsg tbl true
                { buf := 0 :: (rx.buf ++ c :: cs), lastLen := 1, stat := rx.stat } (.got bs) := by
            simp [readMsg, hll, hb]
          simp only [drain, h1]
        rw [heq]
        exact key.1
  · have hcons : consumedBy rx io = [] := by simp [consumedBy, hll]
    rw [hcons, List.append_nil]
    have h1 := hinv.1
    have := drain_pending tbl (rxBufMax + 1) rx.pending rx.stat io
      (by simp [Rx.pending]; omega) rx hll rfl rfl
    exact this.1

end Verif
