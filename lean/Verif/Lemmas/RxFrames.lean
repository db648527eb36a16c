import Verif.Lemmas.RxRun

/- Frames given by fields, clean streams, runs of read events. -/

namespace Verif

open Spec

theorem ofNat_toNat_u8 {n : Nat} (h : n < 256) : (UInt8.ofNat n).toNat = n := by
  rw [UInt8.toNat_ofNat']
  exact Nat.mod_eq_of_lt h

theorem msgid_bytes {n : Nat} (h : n < 2 ^ 24) :
    (UInt8.ofNat n).toNat + 256 * (UInt8.ofNat (n / 256)).toNat + 65536 * (UInt8.ofNat (n / 65536)).toNat
      = n := by
  simp only [UInt8.toNat_ofNat']
  omega

theorem encode_v2 (f : Frame) (h : f.v2 = true) : f.encode =
    0xFD :: UInt8.ofNat f.payload.length :: f.incompat :: f.compat :: f.seq :: f.sys :: f.comp ::
      UInt8.ofNat f.msgid :: UInt8.ofNat (f.msgid / 256) :: UInt8.ofNat (f.msgid / 65536) ::
      (f.payload ++ f.crcLo :: f.crcHi :: f.signature) := by
  simp [Frame.encode, Frame.body, h]

theorem encode_v1 (f : Frame) (h : f.v2 = false) : f.encode =
    0xFE :: UInt8.ofNat f.payload.length :: f.seq :: f.sys :: f.comp ::
      UInt8.ofNat f.msgid :: (f.payload ++ f.crcLo :: f.crcHi :: f.signature) := by
  simp [Frame.encode, Frame.body, h]

theorem frameLen_encode (f : Frame) (hw : f.WF) (r : List UInt8) :
    frameLen (f.encode ++ r) = some f.encode.length := by
  obtain ⟨hp, hw⟩ := hw
  cases hv : f.v2 with
  | true =>
    rw [hv] at hw
    simp only [↓reduceIte] at hw
    rw [encode_v2 f hv]
    simp only [List.cons_append, frameLen, List.length_cons, List.length_append]
    rw [ofNat_toNat_u8 hp, hw.2]
    congr 1
    split <;> omega
  | false =>
    rw [hv] at hw
    simp only [Bool.false_eq_true, ↓reduceIte] at hw
    rw [encode_v1 f hv]
    simp only [List.cons_append, frameLen, List.length_cons, List.length_append]
    rw [ofNat_toNat_u8 hp, hw.2]
    congr 1
    simp; omega

theorem stripNoise_noise {noise : List UInt8} (hn : ∀ b ∈ noise, b ≠ 0xFD ∧ b ≠ 0xFE)
    (r : List UInt8) : stripNoise (noise ++ r) = stripNoise r := by
  induction noise with
  | nil => rfl
  | cons x t ih =>
    have hx := hn x (by simp)
    unfold stripNoise
    rw [List.cons_append, List.dropWhile_cons]
    rw [if_pos (by simp [hx.1, hx.2])]
    exact ih (fun b hb => hn b (by simp [hb]))

theorem stripNoise_encode (f : Frame) (r : List UInt8) :
    stripNoise (f.encode ++ r) = f.encode ++ r := by
  unfold Frame.encode
  cases f.v2 <;> rfl

theorem firstFrame_noise_encode {noise : List UInt8} (hn : ∀ b ∈ noise, b ≠ 0xFD ∧ b ≠ 0xFE)
    (f : Frame) (hw : f.WF) (r : List UInt8) :
    firstFrame (noise ++ (f.encode ++ r)) = some (f.encode, r) := by
  have h : resync (noise ++ (f.encode ++ r)) = f.encode ++ r := by
    rw [← stripNoise_eq, stripNoise_noise hn, stripNoise_encode]
  rw [firstFrame_eq, h, frameLen_encode f hw r]
  simp

theorem frameInfo_encode (f : Frame) (hw : f.WF) :
    frameInfo f.encode =
      some (if f.v2 then 10 else 6, UInt8.ofNat f.payload.length, f.seq, f.sys, f.comp, f.msgid) := by
  obtain ⟨hp, hw⟩ := hw
  cases hv : f.v2 with
  | true =>
    rw [hv] at hw
    simp only [↓reduceIte] at hw
    rw [encode_v2 f hv]
    simp only [frameInfo, msgid_bytes hw.1, ↓reduceIte]
  | false =>
    rw [hv] at hw
    simp only [Bool.false_eq_true, ↓reduceIte] at hw
    rw [encode_v1 f hv]
    simp only [frameInfo, Bool.false_eq_true, ↓reduceIte, ofNat_toNat_u8 hw.1]

theorem body_length (f : Frame) : f.body.length = (if f.v2 then 10 else 6) - 1 + f.payload.length := by
  unfold Frame.body
  split <;> simp <;> omega

theorem payload_of_encode (f : Frame) :
    (f.encode.drop (if f.v2 then 10 else 6)).take f.payload.length = f.payload := by
  cases hv : f.v2 with
  | true => rw [encode_v2 f hv]; simp
  | false => rw [encode_v1 f hv]; simp

theorem delivers_encode (tbl : MsgTable) (f : Frame) (hw : f.WF) (hc : f.CrcOk tbl) :
    Delivers tbl f.encode (f.toMsg tbl).1 (f.toMsg tbl).2 := by
  refine ⟨rfl, _, _, _, _, _, _, frameInfo_encode f hw, rfl, rfl, rfl, rfl, ?_⟩
  cases ht : tbl f.msgid with
  | none => left; simp [Frame.toMsg, ht]
  | some e =>
    right
    refine ⟨by simp [Frame.toMsg, ht], e, rfl, ?_, by simp [Frame.toMsg, ht], ?_, ?_⟩
    · refine ⟨f.body, f.crcLo, f.crcHi, f.signature, rfl, ?_, hc e ht⟩
      rw [body_length, ofNat_toNat_u8 hw.1]
    · rw [ofNat_toNat_u8 hw.1, payload_of_encode]; simp [Frame.toMsg, ht]
    · rw [ofNat_toNat_u8 hw.1, payload_of_encode]; simp [Frame.toMsg, ht]

/-- Streams without corrupt frames. -/
inductive Clean (tbl : MsgTable) : List UInt8 → Prop
  | done {bs} : firstFrame bs = none → Clean tbl bs
  | step {bs fr rest} : firstFrame bs = some (fr, rest) → ¬ Corrupt tbl fr → Clean tbl rest → Clean tbl bs

theorem Clean.cut {tbl : MsgTable} {p ms t} (hm : Means tbl p ms t) :
    ∀ {c}, Clean tbl (p ++ c) → Clean tbl p ∧ Clean tbl (t ++ c) := by
  induction hm with
  | @done bs h =>
    intro c hc
    refine ⟨.done h, ?_⟩
    rw [stripNoise_eq]
    cases hc with
    | done h3 => exact .done (by rw [firstFrame_append_resync]; exact h3)
    | step h3 hd hm => exact .step (by rw [firstFrame_append_resync]; exact h3) hd hm
  | deliver h hd _ ih =>
    intro c hc
    cases hc with
    | done h3 => rw [firstFrame_append h] at h3; cases h3
    | step h3 hd1 hm =>
      rw [firstFrame_append h] at h3; cases h3
      obtain ⟨h1, h2⟩ := ih hm
      exact ⟨.step h hd1 h1, h2⟩
  | drop h hcor _ ih =>
    intro c hc
    cases hc with
    | done h3 => rw [firstFrame_append h] at h3; cases h3
    | step h3 hd1 hm =>
      rw [firstFrame_append h] at h3; cases h3
      exact absurd hcor hd1

theorem drain_clean (tbl : MsgTable) : ∀ (n : Nat) (p : List UInt8) (io : SysRead),
    p.length < n → Clean tbl p →
    ∀ rx, rx.lastLen ≠ 0 → rx.pending = p →
    (drain tbl true n rx io).1.lastLen = 0 ∧
      Means tbl p (drain tbl true n rx io).2.1 (drain tbl true n rx io).1.buf := by
  intro n
  induction n with
  | zero => intro p io h; omega
  | succ n ih =>
    intro p io hlt hcl rx hll hp
    have hread : readMsg tbl true rx io = parseBuf tbl p rx.stat := by
      unfold readMsg
      simp only [Bool.not_true, Bool.false_eq_true, ↓reduceIte, hll, ne_eq, not_false_eq_true]
      rw [← hp]; rfl
    simp only [drain, hread]
    cases hcl with
    | done hf =>
      obtain ⟨h1, h2⟩ := parseBuf_none tbl hf rx.stat
      rw [h1]
      exact ⟨rfl, .done hf⟩
    | @step _ fr rest hf hnc hr =>
      obtain ⟨hd, _, g2, g3, _, _, _, g7, _, g9, _, _⟩ := firstFrame_some hf
      have hrl := firstFrame_rest_length hf
      have hfr : fr.length ≠ 0 := by omega
      rcases parseBuf_some tbl hf rx.stat with ⟨m, k, seq, hdel, _, h⟩ | ⟨hc, h⟩
      · rw [h]
        simp only []
        have := ih rest io (by omega) hr
          { buf := fr ++ rest, lastLen := fr.length, stat := statOk rx.stat fr.length seq } hfr
          (by simp [Rx.pending])
        exact ⟨this.1, .deliver hf hdel this.2⟩
      · exact absurd hc hnc

theorem handleRead_drain (tbl : MsgTable) (rx : Rx) (bs : List UInt8) (c : UInt8) (cs : List UInt8)
    (hll : rx.lastLen = 0) (hb : bs.take (rxBufMax - rx.buf.length) = c :: cs) (n : Nat) :
    drain tbl true n rx (.got bs) =
      if n = 0 then (rx, [], 0) else
      drain tbl true n { buf := 0 :: (rx.buf ++ c :: cs), lastLen := 1, stat := rx.stat } (.got bs) := by
  cases n with
  | zero => rfl
  | succ n =>
    have h1 : readMsg tbl true rx (.got bs) =
        readMsg tbl true
          { buf := 0 :: (rx.buf ++ c :: cs), lastLen := 1, stat := rx.stat } (.got bs) := by
      simp [readMsg, hll, hb]
    simp only [drain, h1]
    rfl

theorem handleRead_inv (tbl : MsgTable) (fd : Bool) : ∀ n (rx : Rx) (io : SysRead), rx.Inv →
    (drain tbl fd n rx io).1.Inv := by
  intro n
  induction n with
  | zero => intro rx io h; exact h
  | succ n ih =>
    intro rx io h
    have := readMsg_inv tbl fd rx io h
    unfold drain
    split
    · rename_i heq; rw [heq] at this; exact this
    · rename_i heq; rw [heq] at this; exact ih _ _ this

/-- One event on an idle endpoint (`_last_packet_len == 0`) with a clean stream that fits into the buffer. -/
theorem handleRead_clean_fit (tbl : MsgTable) (rx : Rx) (bs : List UInt8)
    (hll : rx.lastLen = 0) (hlen : rx.buf.length + bs.length ≤ rxBufMax) (hidle : firstFrame rx.buf = none)
    (hstrip : stripNoise rx.buf = rx.buf)
    (hcl : Clean tbl (rx.buf ++ bs)) :
    let r := handleReadRx tbl rx (.got bs)
    r.1.lastLen = 0 ∧ Means tbl (rx.buf ++ bs) r.2.1 r.1.buf := by
  have htake : bs.take (rxBufMax - rx.buf.length) = bs :=
    List.take_of_length_le (by omega)
  cases bs with
  | nil =>
    have : handleReadRx tbl rx (.got []) = (rx, [], 0) := by
      simp [handleReadRx, drain, readMsg, hll]
    rw [this]
    refine ⟨hll, ?_⟩
    rw [List.append_nil]
    have := Means.done (tbl := tbl) hidle
    rw [hstrip] at this
    exact this
  | cons c cs =>
    unfold handleReadRx
    rw [handleRead_drain tbl rx _ c cs hll htake]
    rw [if_neg (by simp)]
    have hlen' : (rx.buf ++ c :: cs).length < rxBufMax + 1 := by
      simp only [List.length_append]; omega
    exact drain_clean tbl (rxBufMax + 1) (rx.buf ++ c :: cs) (.got (c :: cs)) hlen' hcl _
      (by simp) (by simp [Rx.pending])

/-- The same for chunks that always fit. -/
theorem handleRead_clean (tbl : MsgTable) (rx : Rx) (bs : List UInt8) (hinv : rx.Inv)
    (hll : rx.lastLen = 0) (hlen : bs.length ≤ 841) (hidle : firstFrame rx.buf = none)
    (hstrip : stripNoise rx.buf = rx.buf)
    (hcl : Clean tbl (rx.buf ++ bs)) :
    let r := handleReadRx tbl rx (.got bs)
    r.1.lastLen = 0 ∧ Means tbl (rx.buf ++ bs) r.2.1 r.1.buf := by
  have hb280 := hinv.2.2 hll
  exact handleRead_clean_fit tbl rx bs hll (by simp only [rxBufMax]; omega) hidle hstrip hcl

theorem runRx_clean (tbl : MsgTable) : ∀ (chunks : List (List UInt8)) (rx : Rx), rx.Inv →
    rx.lastLen = 0 → firstFrame rx.buf = none → stripNoise rx.buf = rx.buf →
    (∀ c ∈ chunks, c.length ≤ 841) →
    Clean tbl (rx.buf ++ chunks.flatten) →
    let r := runRx tbl rx (chunks.map .got)
    r.1.lastLen = 0 ∧ Means tbl (rx.buf ++ chunks.flatten) r.2 r.1.buf := by
  intro chunks
  induction chunks with
  | nil =>
    intro rx _ hll hi hs _ _
    refine ⟨hll, ?_⟩
    have := Means.done (tbl := tbl) hi
    rw [hs] at this
    simpa [runRx] using this
  | cons c cs ih =>
    intro rx hinv hll hi hs hlen hcl
    simp only [List.flatten_cons, ← List.append_assoc] at hcl ⊢
    simp only [List.map_cons, runRx]
    obtain ⟨ms0, t0, hm0⟩ := Means.exists tbl (rx.buf ++ c)
    have hcl1 := (hcl.cut hm0).1
    obtain ⟨h1, h2⟩ := handleRead_clean tbl rx c hinv hll (hlen c (by simp)) hi hs hcl1
    have htd := h2.tail_done
    have := ih (handleReadRx tbl rx (.got c)).1 (handleRead_inv tbl _ _ _ _ hinv) h1 htd.1 htd.2
      (fun c' hc' => hlen c' (by simp [hc'])) (hcl.cut h2).2
    exact ⟨this.1, h2.append this.2⟩

/-- Every run of read events agrees with the specification on the bytes actually taken. -/
def consumedRun (tbl : MsgTable) : Rx → List SysRead → List UInt8
  | _, [] => []
  | rx, io :: ios => consumedBy rx io ++ consumedRun tbl (handleReadRx tbl rx io).1 ios

theorem runRx_means (tbl : MsgTable) : ∀ (ios : List SysRead) (rx : Rx), rx.Inv →
    ∀ ms2 t, Means tbl (runRx tbl rx ios).1.pending ms2 t →
      Means tbl (rx.pending ++ consumedRun tbl rx ios) ((runRx tbl rx ios).2 ++ ms2) t := by
  intro ios
  induction ios with
  | nil => intro rx _ ms2 t h; simpa [runRx, consumedRun] using h
  | cons io ios ih =>
    intro rx hinv ms2 t h
    simp only [runRx] at h ⊢
    simp only [consumedRun, ← List.append_assoc]
    have h1 := ih _ (handleRead_inv tbl true (rxBufMax + 1) rx io hinv) ms2 t h
    obtain ⟨ms1, t1, hm1⟩ := Means.exists tbl (handleReadRx tbl rx io).1.pending
    have h2 := handleRead_means tbl rx io hinv ms1 t1 hm1
    -- split the later part at the boundary
    obtain ⟨ms3, t3, hm3⟩ := Means.exists tbl
      (t1 ++ consumedRun tbl (handleReadRx tbl rx io).1 ios)
    have h3 := hm1.append hm3
    obtain ⟨e1, e2⟩ := Means.unique h1 h3
    have h4 := h2.append hm3
    subst e2
    have e1' : (runRx tbl (handleReadRx tbl rx io).1 ios).2 ++ ms2 = ms1 ++ ms3 := e1
    rw [List.append_assoc _ _ ms2, e1', ← List.append_assoc]
    exact h4

theorem runRx_inv (tbl : MsgTable) : ∀ (ios : List SysRead) (rx : Rx), rx.Inv →
    (runRx tbl rx ios).1.Inv := by
  intro ios
  induction ios with
  | nil => intro rx h; exact h
  | cons io ios ih => intro rx h; exact ih _ (handleRead_inv tbl _ _ _ _ h)

theorem inv_fresh : Rx.Inv {} := ⟨by simp [rxBufMax], by simp, fun _ => by simp⟩

end Verif
