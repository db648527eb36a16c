import Verif.Lemmas.RxFrames
import Verif.Spec.Samples

/- Properties C01, C03 (receive half), C05 – C10: the receive path. -/

namespace Verif

open Spec

/-- A proper prefix of a well-formed frame is an incomplete frame. -/
theorem properPrefix_incomplete {g : Frame} (hw : g.WF) {tail : List UInt8}
    (hp : tail <+: g.encode) (hl : tail.length < g.encode.length) :
    firstFrame tail = none ∧ stripNoise tail = tail := by
  obtain ⟨r, hr⟩ := hp
  cases tail with
  | nil => exact ⟨rfl, rfl⟩
  | cons x t =>
    have hx : x = 0xFD ∨ x = 0xFE := by
      rw [Frame.encode] at hr
      cases hv : g.v2 <;> rw [hv] at hr <;> simp at hr <;> simp [hr.1]
    have hs : stripNoise (x :: t) = x :: t := by rcases hx with rfl | rfl <;> rfl
    refine ⟨?_, hs⟩
    rw [firstFrame_eq, ← stripNoise_eq, hs]
    cases hf : frameLen (x :: t) with
    | none => rfl
    | some n =>
      have h1 := frameLen_append hf r
      rw [hr] at h1
      have h2 := frameLen_encode g hw []
      rw [List.append_nil, h1] at h2
      cases h2
      simp only
      rw [if_neg (by omega)]

theorem means_items (tbl : MsgTable) (tail : List UInt8) (ht : firstFrame tail = none)
    (items : List (List UInt8 × Frame))
    (hi : ∀ x ∈ items, (∀ b ∈ x.1, b ≠ 0xFD ∧ b ≠ 0xFE) ∧ x.2.WF ∧ x.2.CrcOk tbl) :
    Means tbl (items.flatMap (fun x => x.1 ++ x.2.encode) ++ tail)
      (items.map (fun x => x.2.toMsg tbl)) (stripNoise tail) ∧
    Clean tbl (items.flatMap (fun x => x.1 ++ x.2.encode) ++ tail) := by
  induction items with
  | nil => exact ⟨by simpa using Means.done ht, by simpa using Clean.done ht⟩
  | cons x xs ih =>
    obtain ⟨hn, hw, hc⟩ := hi x (by simp)
    obtain ⟨i1, i2⟩ := ih (fun y hy => hi y (by simp [hy]))
    have hf := firstFrame_noise_encode hn x.2 hw
      (xs.flatMap (fun x => x.1 ++ x.2.encode) ++ tail)
    have hd := delivers_encode tbl x.2 hw hc
    simp only [List.flatMap_cons, List.map_cons, List.append_assoc]
    exact ⟨.deliver hf hd i1, .step hf (delivers_not_corrupt hd) i2⟩

/-- **C06** (noise): marker-free bytes before, between and after frames never lose or alter a frame,
whatever the chunking. -/
theorem C06_noise_transparent (tbl : MsgTable) (items : List (List UInt8 × Frame)) (tail : List UInt8)
    (chunks : List (List UInt8))
    (hi : ∀ x ∈ items, (∀ b ∈ x.1, b ≠ 0xFD ∧ b ≠ 0xFE) ∧ x.2.WF ∧ x.2.CrcOk tbl)
    (htail : firstFrame tail = none)
    (hfit : ∀ c ∈ chunks, c.length ≤ 841)
    (hstream : chunks.flatten = items.flatMap (fun x => x.1 ++ x.2.encode) ++ tail) :
    (runRx tbl {} (chunks.map .got)).2 = items.map (fun x => x.2.toMsg tbl) ∧
    (runRx tbl {} (chunks.map .got)).1.buf = stripNoise tail := by
  obtain ⟨hm, hcl⟩ := means_items tbl tail htail items hi
  have := runRx_clean tbl chunks {} inv_fresh rfl rfl rfl hfit (by rw [hstream]; exact hcl)
  obtain ⟨_, h2⟩ := this
  simp only [List.nil_append] at h2
  rw [hstream] at h2
  exact Means.unique h2 hm

example : (runRx Sample.tbl {}
    ([[1, 2], 3 :: Sample.hb2.encode.take 4, Sample.hb2.encode.drop 4 ++ [9] ++ Sample.hb1.encode].map
      .got)).2 = [Sample.hb2.toMsg Sample.tbl, Sample.hb1.toMsg Sample.tbl] :=
  (C06_noise_transparent Sample.tbl [([1, 2, 3], Sample.hb2), ([9], Sample.hb1)] [] _
    (by
      intro x hx
      simp only [List.mem_cons, List.not_mem_nil, or_false] at hx
      rcases hx with rfl | rfl
      · exact ⟨by decide, Sample.hb2_wf, Sample.hb2_crc⟩
      · exact ⟨by decide, Sample.hb1_wf, Sample.hb1_crc⟩)
    rfl (by decide) (by decide)).1

/-- **C01** (reassembly): for every sequence of well-formed frames followed by an incomplete one, and every
chunking of the bytes, exactly the frames are handed on, in order, byte-identical and with the addresses the
table defines; the incomplete frame stays buffered. -/
theorem C01_reassembly (tbl : MsgTable) (fs : List Frame) (tail : List UInt8) (g : Frame)
    (chunks : List (List UInt8))
    (hfs : ∀ f ∈ fs, f.WF ∧ f.CrcOk tbl)
    (hg : g.WF) (hpre : tail <+: g.encode) (hlt : tail.length < g.encode.length)
    (hfit : ∀ c ∈ chunks, c.length ≤ 841)
    (hstream : chunks.flatten = fs.flatMap Frame.encode ++ tail) :
    (runRx tbl {} (chunks.map .got)).2 = fs.map (Frame.toMsg tbl) ∧
    (runRx tbl {} (chunks.map .got)).2.map (fun x => x.1.data) = fs.map Frame.encode ∧
    (runRx tbl {} (chunks.map .got)).1.buf = tail := by
  obtain ⟨ht1, ht2⟩ := properPrefix_incomplete hg hpre hlt
  have := C06_noise_transparent tbl (fs.map (fun f => ([], f))) tail chunks
    (by
      intro x hx
      rw [List.mem_map] at hx
      obtain ⟨f, hf, rfl⟩ := hx
      exact ⟨by simp, hfs f hf⟩)
    ht1 hfit (by rw [hstream]; simp [List.flatMap_map])
  obtain ⟨h1, h2⟩ := this
  rw [ht2] at h2
  simp only [List.map_map] at h1
  have h1' : (runRx tbl {} (chunks.map .got)).2 = fs.map (Frame.toMsg tbl) := h1
  refine ⟨h1', ?_, h2⟩
  rw [h1', List.map_map]
  rfl

example : (runRx Sample.tbl {} ([Sample.hb2.encode.take 5, Sample.hb2.encode.drop 5 ++
    Sample.unk.encode ++ Sample.hb1.encode.take 3, [1, 1]].map .got)).2 =
    [Sample.hb2.toMsg Sample.tbl, Sample.unk.toMsg Sample.tbl] :=
  (C01_reassembly Sample.tbl [Sample.hb2, Sample.unk] (Sample.hb1.encode.take 5) Sample.hb1 _
    (by
      intro f hf
      simp only [List.mem_cons, List.not_mem_nil, or_false] at hf
      rcases hf with rfl | rfl
      · exact ⟨Sample.hb2_wf, Sample.hb2_crc⟩
      · exact ⟨Sample.unk_wf, Sample.unk_crc⟩)
    Sample.hb1_wf (List.take_prefix _ _) (by decide) (by decide) (by decide)).1

/-- **C01** (general form, any byte stream at all): after any read events, what was handed on, followed by
the meaning of the bytes still pending, is the meaning of all bytes taken from the kernel – chunk boundaries
never matter. -/
theorem C01_chunking_irrelevant (tbl : MsgTable) (ios : List SysRead) :
    ∃ ms rest, Means tbl (runRx tbl {} ios).1.pending ms rest ∧
      Means tbl (consumedRun tbl {} ios) ((runRx tbl {} ios).2 ++ ms) rest := by
  obtain ⟨ms, rest, hm⟩ := Means.exists tbl (runRx tbl {} ios).1.pending
  refine ⟨ms, rest, hm, ?_⟩
  simpa [Rx.pending] using runRx_means tbl ios {} inv_fresh ms rest hm

example : ∃ ms rest, Means Sample.tbl (runRx Sample.tbl {} [.got [0xFD, 3], .fail (-11), .got [7]]).1.pending
    ms rest ∧ Means Sample.tbl [0xFD, 3, 7] ms rest := by
  obtain ⟨ms, rest, h1, h2⟩ :=
    C01_chunking_irrelevant Sample.tbl [.got [0xFD, 3], .fail (-11), .got [7]]
  have e1 : consumedRun Sample.tbl {} [.got [0xFD, 3], .fail (-11), .got [7]] = [0xFD, 3, 7] := by
    decide +kernel
  have e2 : (runRx Sample.tbl {} [.got [0xFD, 3], .fail (-11), .got [7]]).2 = [] := by decide +kernel
  rw [e1, e2] at h2
  exact ⟨ms, rest, h1, h2⟩

theorem means_delivers {tbl : MsgTable} {bs ms t} (h : Means tbl bs ms t) :
    ∀ x ∈ ms, Delivers tbl x.1.data x.1 x.2 := by
  induction h with
  | done _ => simp
  | deliver _ hd _ ih =>
    intro x hx
    rcases List.mem_cons.mp hx with rfl | hx
    · have := hd.bytes
      simp only []
      rw [this]; exact hd
    · exact ih x hx
  | drop _ _ _ ih => exact ih

/-- **C03** (receive half): every message ever handed on, in any history, is a complete frame whose checksum
is right if its id is known; a corrupt frame is never handed on. -/
theorem C03_handed_on_is_valid (tbl : MsgTable) (ios : List SysRead) :
    ∀ x ∈ (runRx tbl {} ios).2, Delivers tbl x.1.data x.1 x.2 ∧ ¬ Corrupt tbl x.1.data := by
  obtain ⟨ms, rest, _, h⟩ := C01_chunking_irrelevant tbl ios
  intro x hx
  have := means_delivers h x (by simp [hx])
  exact ⟨this, delivers_not_corrupt this⟩

example : ∃ x, x ∈ (runRx Sample.tbl {} [.got Sample.hb2.encode]).2 := by
  refine ⟨Sample.hb2.toMsg Sample.tbl, ?_⟩
  have := (C06_noise_transparent Sample.tbl [([], Sample.hb2)] [] [Sample.hb2.encode]
    (by
      intro x hx
      simp only [List.mem_cons, List.not_mem_nil, or_false] at hx
      subst hx
      exact ⟨by decide, Sample.hb2_wf, Sample.hb2_crc⟩) rfl (by decide) (by decide)).1
  simp at this
  rw [this]; simp

/-- **C03** (receive half): a corrupt frame arriving on an idle endpoint changes nothing but the checksum
error counters and the amount of pending data. -/
theorem C03_corrupt_only_counted (tbl : MsgTable) (fr : List UInt8) (rx : Rx)
    (hidle : rx.lastLen = 0) (hempty : rx.buf = [])
    (hcomplete : firstFrame fr = some (fr, [])) (hcor : Corrupt tbl fr) :
    (handleReadRx tbl rx (.got fr)).2.1 = [] ∧
    (handleReadRx tbl rx (.got fr)).1.pending = [] ∧
    (handleReadRx tbl rx (.got fr)).1.stat =
      { rx.stat with total := rx.stat.total + 1, crcError := rx.stat.crcError + 1,
                     crcErrorBytes := rx.stat.crcErrorBytes + UInt64.ofNat fr.length } := by
  obtain ⟨hd, _, g2, g3, _, _, _, g7, _, g9, g10, _⟩ := firstFrame_some hcomplete
  have hne : fr ≠ [] := by intro h; rw [h] at g3; simp at g3; omega
  have htake : fr.take (rxBufMax - rx.buf.length) = fr := by
    apply List.take_of_length_le
    simp only [hempty, List.length_nil, rxBufMax]
    omega
  have hread : readMsg tbl true rx (.got fr) = parseBuf tbl fr rx.stat := by
    rw [hempty, List.length_nil, Nat.sub_zero] at htake
    simp only [readMsg, hidle, hempty, List.length_nil, Nat.sub_zero, htake]
    cases fr with
    | nil => exact absurd rfl hne
    | cons c cs => simp
  rcases parseBuf_some tbl hcomplete rx.stat with ⟨m, k, seq, hdel, _⟩ | ⟨_, h⟩
  · exact absurd hcor (delivers_not_corrupt hdel)
  · simp only [handleReadRx, drain, hread, h]
    exact ⟨trivial, by simp [Rx.pending], rfl⟩

theorem hbBad_corrupt : Corrupt Sample.tbl Sample.hbBad.encode := by
  refine ⟨10, 9, 7, 1, 1, 0, Sample.heartbeatEntry, by decide, rfl, ?_⟩
  have : checkCrc Sample.heartbeatEntry Sample.hbBad.encode = false := by decide
  intro hv
  have hv : crcValid Sample.heartbeatEntry.crcExtra 10 9 (Sample.hbBad.encode.take 21) := hv
  rw [← crcValid_iff _ _ 10 9 21 (by decide) (by decide) (by decide) (by decide) (by decide), this] at hv
  cases hv

example : Corrupt Sample.tbl Sample.hbBad.encode ∧
    firstFrame Sample.hbBad.encode = some (Sample.hbBad.encode, []) :=
  ⟨hbBad_corrupt, by decide⟩

/-- **C05**: a complete frame with an unknown id is handed on with its bytes unchanged and no target, whatever
its checksum bytes are. -/
theorem C05_unknown_forwarded (tbl : MsgTable) (f : Frame) (hw : f.WF) (hunk : tbl f.msgid = none)
    (rx : Rx) (hidle : rx.lastLen = 0) (hempty : rx.buf = []) :
    (handleReadRx tbl rx (.got f.encode)).2.1 =
      [({ data := f.encode, msgId := f.msgid, targetSys := -1, targetComp := -1, srcSys := f.sys,
          srcComp := f.comp, payloadLen := UInt8.ofNat f.payload.length,
          payloadOfs := some (if f.v2 then 10 else 6) }, false)] := by
  have hc : f.CrcOk tbl := by intro e h; rw [hunk] at h; cases h
  have hlen : f.encode.length ≤ 841 := by
    obtain ⟨hd, _, _, g3, _, _, _, _, _, _, g10, _⟩ :=
      firstFrame_some (firstFrame_noise_encode (noise := []) (by simp) f hw [])
    omega
  obtain ⟨hm, hcl⟩ := means_items tbl [] rfl [([], f)] (by simp [hw, hc])
  simp only [List.flatMap_cons, List.nil_append, List.flatMap_nil, List.append_nil, List.map_cons,
    List.map_nil] at hm hcl
  have hinv : rx.Inv := ⟨by simp [hempty], by simp [hidle], by simp [hempty]⟩
  obtain ⟨_, h2⟩ := handleRead_clean tbl rx f.encode hinv hidle hlen (by rw [hempty]; rfl)
    (by rw [hempty]; rfl) (by rw [hempty]; simpa using hcl)
  rw [hempty, List.nil_append] at h2
  have := (Means.unique h2 hm).1
  rw [this]
  simp [Frame.toMsg, hunk]

example : Sample.unk.WF ∧ Sample.tbl Sample.unk.msgid = none := ⟨Sample.unk_wf, rfl⟩

/-- **C07** is false of the code: a valid heartbeat received in the same read behind a heartbeat with a bad
checksum is not delivered by that read; the read loop stops at the bad frame
(src/endpoint.cpp:400-404 with 227-229) although a complete valid frame is in the buffer. -/
theorem C07_violated :
    (handleReadRx Sample.tbl {} (.got (Sample.hbBad.encode ++ Sample.hb2.encode))).2.1 = [] ∧
    (handleReadRx Sample.tbl {} (.got (Sample.hbBad.encode ++ Sample.hb2.encode))).1.pending =
      Sample.hb2.encode ∧
    firstFrame Sample.hb2.encode = some (Sample.hb2.encode, []) := by
  refine ⟨by decide +kernel, by decide +kernel, by decide⟩

theorem drain_progress (tbl : MsgTable) (rx : Rx) (io : SysRead) (hll : rx.lastLen ≠ 0) :
    (handleReadRx tbl rx io).1.lastLen = 0 ∨
    (handleReadRx tbl rx io).1.pending.length < rx.pending.length := by
  have aux : ∀ n (rx : Rx), rx.lastLen ≠ 0 →
      (drain tbl true (n + 1) rx io).1.lastLen = 0 ∨
      (drain tbl true (n + 1) rx io).1.pending.length < rx.pending.length := by
    intro n
    induction n with
    | zero =>
      intro rx hll
      have hread : readMsg tbl true rx io = parseBuf tbl rx.pending rx.stat := by
        simp [readMsg, hll, Rx.pending]
      simp only [drain, hread]
      cases hf : firstFrame rx.pending with
      | none => left; rw [(parseBuf_none tbl hf rx.stat).1]
      | some x =>
        obtain ⟨fr, rest⟩ := x
        have := firstFrame_rest_length hf
        right
        rcases parseBuf_some tbl hf rx.stat with ⟨m, k, seq, hdel, _, h⟩ | ⟨_, h⟩ <;> rw [h] <;>
          simp [Rx.pending] at this ⊢ <;> omega
    | succ n ih =>
      intro rx hll
      have hread : readMsg tbl true rx io = parseBuf tbl rx.pending rx.stat := by
        simp [readMsg, hll, Rx.pending]
      rw [drain]
      simp only [hread]
      cases hf : firstFrame rx.pending with
      | none => left; rw [(parseBuf_none tbl hf rx.stat).1]
      | some x =>
        obtain ⟨fr, rest⟩ := x
        have := firstFrame_rest_length hf
        obtain ⟨hd, _, g2, g3, _, _, _, g7, _, g9, _, _⟩ := firstFrame_some hf
        rcases parseBuf_some tbl hf rx.stat with ⟨m, k, seq, hdel, _, h⟩ | ⟨_, h⟩
        · rw [h]
          simp only []
          have hfr : fr.length ≠ 0 := by omega
          rcases ih { buf := fr ++ rest, lastLen := fr.length, stat := statOk rx.stat fr.length seq } hfr
            with h1 | h1
          · left; exact h1
          · right
            have h2 : ({ buf := fr ++ rest, lastLen := fr.length,
                         stat := statOk rx.stat fr.length seq } : Rx).pending.length = rest.length := by
              simp [Rx.pending]
            omega
        · right; rw [h]; simp [Rx.pending] at this ⊢; omega
  exact aux rxBufMax rx hll

/-- **C07** (partial): valid frames behind a bad one are never lost, and they are all delivered after at
most as many further readable events as there are pending bytes; those events need not bring new data
(the pending bytes are processed before the kernel is asked). Missing: "without waiting for the peer" –
false, see `C07_violated`. -/
theorem C07_delivered_later_partial (tbl : MsgTable) (ios : List SysRead) (rx : Rx) (hinv : rx.Inv)
    (hll : rx.lastLen ≠ 0) {ms rest} (hm : Means tbl rx.pending ms rest)
    (hn : rx.pending.length < ios.length) :
    ms <+: (runRx tbl rx ios).2 := by
  have key : ∀ (ios : List SysRead) (rx : Rx), rx.Inv → rx.lastLen ≠ 0 → ∀ ms rest,
      Means tbl rx.pending ms rest → rx.pending.length < ios.length → ms <+: (runRx tbl rx ios).2 := by
    intro ios
    induction ios with
    | nil => intro rx _ _ ms rest _ h; simp at h
    | cons io ios ih =>
      intro rx hinv hll ms rest hm hn
      have hc : consumedBy rx io = [] := by simp [consumedBy, hll]
      obtain ⟨ms1, t1, hm1⟩ := Means.exists tbl (handleReadRx tbl rx io).1.pending
      have h2 := handleRead_means tbl rx io hinv ms1 t1 hm1
      rw [hc, List.append_nil] at h2
      obtain ⟨e1, _⟩ := Means.unique hm h2
      simp only [runRx]
      rw [e1]
      apply List.prefix_append_right_inj _ |>.mpr
      by_cases h0 : (handleReadRx tbl rx io).1.lastLen = 0
      · have hd := drain_pending tbl (rxBufMax + 1) rx.pending rx.stat io
          (by have := hinv.1; simp [Rx.pending]; omega) rx hll rfl rfl
        have hidle := (hd.2.1 h0).1
        have hp : (handleReadRx tbl rx io).1.pending = (handleReadRx tbl rx io).1.buf := by
          simp [Rx.pending, h0]
        rw [hp] at hm1
        have := Means.unique hm1 (.done hidle)
        rw [this.1]
        exact List.nil_prefix
      · rcases drain_progress tbl rx io hll with h | h
        · exact absurd h h0
        · have hlt : (handleReadRx tbl rx io).1.pending.length < ios.length := by
            simp at hn; omega
          exact ih _ (handleRead_inv tbl true (rxBufMax + 1) rx io hinv) h0 ms1 t1 hm1 hlt
  exact key ios rx hinv hll ms rest hm hn

example : let rx := (handleReadRx Sample.tbl {} (.got (Sample.hbBad.encode ++ Sample.hb2.encode))).1
    rx.Inv ∧ rx.lastLen ≠ 0 ∧
    (runRx Sample.tbl rx [.fail (-11)]).2 = [Sample.hb2.toMsg Sample.tbl] := by
  refine ⟨handleRead_inv _ _ _ _ _ inv_fresh, by decide +kernel, by decide +kernel⟩

end Verif
