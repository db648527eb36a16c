/- Properties C48 – C52: the PX4 log endpoint. -/
import Verif.Lemmas.ULogSeq
import Verif.Spec.ULogSamples

namespace Verif

open Spec

/-! ### C48 -/

/-- **C48** (partial, one packet): with `dist` counted from the last processed number (`expSeq - 1`), a packet that
is the last one or more than 32770 numbers ahead (that is, less than half the number space behind) has no effect
whatever; a packet ahead by less than half the number space is processed.  Missing: distances 32768 to 32770, where
the answer depends on whether the 16 bit numbers wrap (`C48_violated`). -/
theorem C48_seq_partial (env : LogEnv) (u : ULog) (p : Pkt) :
    (dist (u.expSeq - 1) p.seq = 0 ∨ 32770 < dist (u.expSeq - 1) p.seq → u.process env p = some (u, p)) ∧
    (0 < dist (u.expSeq - 1) p.seq ∧ dist (u.expSeq - 1) p.seq < 32768 → u.waitHdr = false →
      ∀ v q, u.process env p = some (v, q) → v.expSeq = p.seq + 1) := by
  have he := u.expSeq.toNat_lt
  have hs := p.seq.toNat_lt
  obtain ⟨h1, h2⟩ := logSeq_iff u.expSeq p.seq
  have hsub : (u.expSeq - 1).toNat = (u.expSeq.toNat + 65535) % 65536 := by
    rw [UInt16.toNat_sub]
    have : (1 : UInt16).toNat = 1 := rfl
    omega
  have hd : dist (u.expSeq - 1) p.seq = (dist u.expSeq p.seq + 1) % 65536 := by
    unfold dist
    rw [hsub]
    omega
  have hlt := dist_lt u.expSeq p.seq
  refine ⟨?_, ?_⟩
  · intro h
    have hn : logSeq u.expSeq p.seq = none := by
      refine h2.2 ?_
      split <;> omega
    unfold ULog.process
    rw [hn]
  · intro h hw v q hr
    unfold ULog.process at hr
    rcases h1 with h1 | h1
    · have := h2.1 h1
      split at this <;> omega
    · rw [h1] at hr
      simp only [hw, Bool.false_eq_true, if_false] at hr
      exact (append_keeps hr).1

example : dist ((0 : UInt16) - 1) 0 = 1 ∧ dist ((5 : UInt16) - 1) 2 = 65534 ∧
    (Sample.ulogStarted.process Sample.logEnv (Sample.pkt 0 0 Sample.ulogHdrBytes)).isSome := by
  decide +kernel

/-- **C48** (histories): while every arrival is within half the number space of the next expected number, processing
all arrivals gives exactly the state that processing only the new ones would give, and their numbers increase:
nothing is processed twice, retransmissions change nothing. -/
theorem C48_once (env : LogEnv) (ps : List (Nat × Pkt)) (next : Nat) (u : ULog)
    (hseq : ∀ x ∈ ps, x.2.seq = UInt16.ofNat x.1) (hw : InWindow next ps)
    (hu : u.expSeq = UInt16.ofNat next) (hh : u.waitHdr = false) :
    u.processAll env (ps.map (·.2)) = u.processAll env ((fresh next ps).map (·.2)) ∧
      (fresh next ps).Pairwise (fun a b => a.1 < b.1) :=
  ⟨processAll_fresh env ps next u hseq hw hu hh, fresh_increasing next ps⟩

/-- Numbers 65535, 65536 (wire number 0), and a repetition of both: the repetitions are not among the new packets. -/
example : InWindow 65535 [(65535, Sample.pkt 65535 0 [1]), (65536, Sample.pkt 0 0 [2]), (65535, Sample.pkt 65535 0 [1]),
      (65536, Sample.pkt 0 0 [2])] ∧
    (fresh 65535 [(65535, Sample.pkt 65535 0 [1]), (65536, Sample.pkt 0 0 [2]), (65535, Sample.pkt 65535 0 [1]),
      (65536, Sample.pkt 0 0 [2])]).map (·.1) = [65535, 65536] := by
  refine ⟨?_, by decide +kernel⟩
  simp [InWindow]

/-- **C48 is false** as stated: packet 7233 is processed, then 39999 (32766 ahead); a retransmission of 7233 is then
32767 behind the expected number and is processed again, its message is written twice. -/
theorem C48_violated :
    ((({ base := { target := some 1, mode := .always, file := some [] }, waitHdr := false, expSeq := 7233 } : ULog).processAll
      Sample.logEnv [Sample.pkt 7233 0 Sample.ulogMsgA, Sample.pkt 39999 0 Sample.ulogMsgB,
        Sample.pkt 7233 0 Sample.ulogMsgA]).map (·.base.file)) =
      some (some (Sample.ulogMsgA ++ Sample.ulogMsgB ++ Sample.ulogMsgA)) := by
  decide +kernel

/-! ### C49 -/

theorem init_fileOk (target : Option UInt8) (mode : LogMode) : FileOk (ULog.init target mode) := by
  intro _
  refine ⟨?_, ?_⟩
  · intro c hc
    simp [ULog.init] at hc
  · intro _ c hc
    simp [ULog.init] at hc

/-- **C49** (partial): after every history of messages, timeouts and stops, for all results of file creation and
writes: the bytes written to the open file followed by the pending remainder are nothing or a header and complete
messages, and every closed file is empty or consists of a header and complete messages if no closing write failed.
This holds unless the "partial buffer is not big enough" error occurred (`lost`) or a message with a size of 65533 or
more came up (`wrapped`), which is the part that is missing: the program does not notice (`C49_violated`). -/
theorem C49_format_partial (env : LogEnv) (target : Option UInt8) (mode : LogMode) (evs : List ULogEv) (u : ULog)
    (h : (ULog.init target mode).run env evs = some u) (hw : u.wrapped = false) (hl : u.lost = false) :
    (∀ c, u.base.file = some c → c ++ u.part = [] ∨ ULogFile (c ++ u.part)) ∧
    (u.cut = false → ∀ c ∈ u.base.done, c = [] ∨ ULogFile c) := by
  obtain ⟨h1, h2⟩ := run_fileOk env evs _ u h (init_fileOk target mode) ⟨hw, hl⟩
  refine ⟨?_, h2⟩
  intro c hc
  obtain ⟨h3, h4⟩ := h1 c hc
  cases hwh : u.waitHdr with
  | true =>
    left
    obtain ⟨e1, e2⟩ := h3 hwh
    rw [e1, e2]
    rfl
  | false => exact .inr (h4 hwh)

/-- A history with a lost packet: header, a message, packets 2 and 3 missing, a packet whose first message starts at
offset 2, stop.  The file holds the header and the two whole messages. -/
example : ((ULog.init (some 1) .always).run Sample.logEnv
      [.msg (Sample.ulogMsg 0 21 0 (Sample.ulogHdrBytes ++ Sample.ulogMsgA)),
       .msg (Sample.ulogMsg 3 5 2 ([0x11, 0x22] ++ Sample.ulogMsgB)), .stop]).map
      (fun u => (u.base.done, u.wrapped, u.lost, u.cut)) =
    some ([Sample.ulogHdrBytes ++ Sample.ulogMsgA ++ Sample.ulogMsgB], false, false, false) := by
  decide +kernel

/-- **C49 is false** without that condition: a message with size field 65534 makes the file end in a single byte of it;
no write failed and nothing was lost. -/
theorem C49_violated :
    ∃ (u : ULog) (c : List UInt8), (ULog.init (some 1) .always).run Sample.logEnv
        [.msg (Sample.ulogMsg 0 20 0 (Sample.ulogHdrBytes ++ [0xFE, 0xFF, 0x41, 0]))] = some u ∧
      u.lost = false ∧ u.cut = false ∧ u.base.file = some c ∧ u.part = [] ∧ c ≠ [] ∧ ¬ULogFile c := by
  have hrun : ((ULog.init (some 1) .always).run Sample.logEnv
      [.msg (Sample.ulogMsg 0 20 0 (Sample.ulogHdrBytes ++ [0xFE, 0xFF, 0x41, 0]))]).map
      (fun u => (u.lost, u.cut, u.base.file, u.part)) =
      some (false, false, some (Sample.ulogHdrBytes ++ [0xFE]), []) := by decide +kernel
  cases hr : (ULog.init (some 1) .always).run Sample.logEnv
      [.msg (Sample.ulogMsg 0 20 0 (Sample.ulogHdrBytes ++ [0xFE, 0xFF, 0x41, 0]))] with
  | none => rw [hr] at hrun; cases hrun
  | some u =>
    rw [hr] at hrun
    simp only [Option.map_some, Option.some.injEq, Prod.mk.injEq] at hrun
    obtain ⟨h1, h2, h3, h4⟩ := hrun
    refine ⟨u, _, rfl, h1, h2, h3, h4, by decide, ?_⟩
    rintro ⟨hdr, msgs, e, hl, _, hm⟩
    have hlen := congrArg List.length e
    rw [List.length_append, List.length_append, hl] at hlen
    have hfl : msgs.flatten.length = 1 := by
      simp only [Sample.ulogHdrBytes, List.length_cons, List.length_nil] at hlen
      omega
    cases msgs with
    | nil => simp at hfl
    | cons m ms =>
      obtain ⟨lo, hi, ty, pl, rfl, _⟩ := hm m List.mem_cons_self
      simp at hfl

/-! ### C50 -/

/-- **C50** (partial, complete writes): a stream of a header and messages of at most 1800 bytes, cut into packets in
any way (the first with the header and at most 233 bytes), arriving without loss and with any retransmissions, is
stored verbatim: the file (with the header if it is all there is) is the header and the first `j` messages, and what
has been received beyond it is less than one message.  Missing: short and blocked writes, for which
`C50_bytes_partial` holds and `C50_violated` shows the failure. -/
theorem C50_verbatim_partial (env : LogEnv) (hw : WritesAll env) (hdr : List UInt8)
    (msgs chunks : List (List UInt8)) (hcut : Cut hdr msgs chunks) (ps : List Pkt) (n : Nat)
    (ha : Arrivals chunks 0 ps n) (hn : 0 < n) (u : ULog) (hu : Started u) (hc : u.wrapped = false)
    (hl : u.lost = false) (hd : u.dropped = false) :
    ∃ v c j, u.processAll env ps = some v ∧ v.base.file = some c ∧
      c ++ v.part = hdr ++ (msgs.take j).flatten ∧ c ++ v.part ++ v.pend = (chunks.take n).flatten ∧
      (v.pend = [] ∨ ∃ m, msgs[j]? = some m ∧ v.pend.length < m.length) ∧
      (v.part = [] ∨ (chunks.take n).flatten = hdr) ∧ v.dropped = false := by
  have h0 : ULogTaken hdr msgs chunks 0 u := {
    exp := hu.2.2.2.1
    first := hu.2.2.1
    part := by rw [hu.2.2.2.2.2.2]; simp
    clean := ⟨hc, hl⟩
    dropped := hd
    start := fun _ => hu
    data := fun h => absurd h (Nat.lt_irrefl 0) }
  obtain ⟨v, h1, h2⟩ := h0.arrivals hw hcut ha
  obtain ⟨_, c, j, h3, h4, h5, h6, h7⟩ := h2.data hn
  exact ⟨v, c, j, h1, h3, h4, by rw [h4]; exact h5, h6, h7, h2.dropped⟩

example : (Sample.ulogStarted.processAll Sample.logEnv Sample.ulogArrivals).map (fun u => (u.base.file, u.pend)) =
      some (some (Sample.ulogHdrBytes ++ Sample.ulogMsgA ++ Sample.ulogMsgB), [2]) ∧
    Arrivals Sample.ulogChunks 0 Sample.ulogArrivals 3 ∧ Started Sample.ulogStarted :=
  ⟨by decide +kernel, Sample.ulogArrivals_ok, Sample.ulogStarted_started⟩

/-- **C50** (partial, any results of the writes): file, remainder and buffer together are exactly the bytes received,
as long as no buffer overflow (`dropped`) or lost remainder was reported and no size of 65533 or more came up. -/
theorem C50_bytes_partial (env : LogEnv) (hdr : List UInt8) (msgs chunks : List (List UInt8))
    (hcut : Cut hdr msgs chunks) (ps : List Pkt) (n : Nat) (ha : Arrivals chunks 0 ps n) (hn : 0 < n) (u v : ULog)
    (hu : Started u) (hv : u.processAll env ps = some v) (hc : v.wrapped = false) (hl : v.lost = false)
    (hd : v.dropped = false) :
    ∃ c, v.base.file = some c ∧ c ++ v.part ++ v.pend = (chunks.take n).flatten := by
  have h0 : BytesKept chunks 0 u := fun _ _ =>
    ⟨hu.2.2.2.1, hu.2.2.1, fun _ => hu, fun h => absurd h (Nat.lt_irrefl 0)⟩
  obtain ⟨_, _, _, h⟩ := h0.arrivals hcut ha hv ⟨hc, hl⟩ hd
  exact (h hn).2

example : (Sample.ulogStarted.processAll Sample.slowEnv Sample.ulogArrivals).map
      (fun u => (u.base.file, u.part, u.pend, u.dropped)) =
    some (some (Sample.ulogHdrBytes ++ Sample.ulogMsgA ++ [0]), [0, 0x42], [2], false) := by
  decide +kernel

/-- A packet of 83 messages of 3 bytes. -/
def Sample.fullPkt (seq : UInt16) : Pkt := Sample.pkt seq 0 (List.replicate 83 Sample.ulogMsgB).flatten

/-- **C50 is false** for short writes: at most one message per packet is written then, the buffer fills up and is
dropped although nothing was lost on the link and no write failed. -/
theorem C50_violated :
    (Sample.ulogStarted.processAll Sample.slowEnv
      (Sample.pkt 0 0 Sample.ulogHdrBytes :: (List.range 9).map (fun i => Sample.fullPkt (UInt16.ofNat (i + 1))))).map
      (fun u => (u.dropped, u.lost, u.cut, u.pend.length)) = some (true, false, false, 246) := by
  decide +kernel

/-! ### C51 -/

theorem init_memOk (target : Option UInt8) (mode : LogMode) : MemOk (ULog.init target mode) :=
  ⟨by simp [ULog.init], by simp [ULog.init], by simp [ULog.init]⟩

/-- **C51** (partial, the endpoint's buffers): after every history the data lies within the 2048 byte buffer and the
1024 byte remainder buffer; whatever the packets contain, the buffers cannot be overrun. -/
theorem C51_buffers_partial (env : LogEnv) (target : Option UInt8) (mode : LogMode) (evs : List ULogEv) (u : ULog)
    (h : (ULog.init target mode).run env evs = some u) :
    u.idx + u.pend.length ≤ 2048 ∧ u.part.length ≤ 1024 := by
  have := run_memOk env evs _ u h (init_memOk target mode)
  exact ⟨this.buf, this.part⟩

example : ((ULog.init (some 1) .always).run Sample.slowEnv
    ((List.range 12).map fun i => .msg (Sample.ulogMsg (UInt8.ofNat i) 249 0 (Sample.ulogHdrBytes ++ Sample.ulogMsgA)))).map
    (fun u => (u.idx, u.pend.length, u.part.length)) = some (1040, 107, 259) := by
  decide +kernel

/-- **C51** (partial, the packet): an access outside the packet happens only if the length field exceeds the data
field, the offset of the first message exceeds the length, or the packet with the header is longer than 233 bytes
(or its offset lies within the last 16 bytes). -/
theorem C51_packet_partial (env : LogEnv) (target : Option UInt8) (mode : LogMode) (evs : List ULogEv) (u : ULog)
    (h : (ULog.init target mode).run env evs = some u)
    (hp : ∀ m, ULogEv.msg m ∈ evs → m.msgId = 266 ∨ m.msgId = 267 → Polite (m.pkt env) ∧
      (PoliteHeader (m.pkt env) ∨ (m.pkt env).mem.take 7 ≠ [0x55, 0x4C, 0x6F, 0x67, 0x01, 0x12, 0x35])) :
    u.oob = false ∧ u.oobWrite = false := by
  have := run_preserves env (fun u => MemOk u ∧ u.oob = false ∧ u.oobWrite = false)
    (fun p => Polite p ∧ (PoliteHeader p ∨ p.mem.take 7 ≠ [0x55, 0x4C, 0x6F, 0x67, 0x01, 0x12, 0x35]))
    (fun _ _ _ _ hP => ⟨⟨hP.1.buf, hP.1.part, hP.1.first⟩, hP.2⟩)
    (fun v hP => ⟨hP.1.start, by rw [(start_flags env v).1]; exact hP.2.1,
      by rw [(start_flags env v).2.1]; exact hP.2.2⟩)
    (fun v w hr hP => by
      obtain ⟨h1, h2, h3⟩ := hP.1.stop hr
      exact ⟨h1, by rw [h2]; exact hP.2.1, by rw [h3]; exact hP.2.2⟩)
    (fun v w p q _ hQ hr hP => by
      obtain ⟨h1, h2, h3⟩ := hP.1.process hr
      refine ⟨h1, ?_, ?_⟩
      · rcases h3 hQ.1 (fun _ => by
          rcases hQ.2 with h | h
          · exact .inl h
          · exact .inr (.inr h)) with h | h
        · rw [h]; exact hP.2.1
        · exact h
      · cases ho : w.oobWrite with
        | false => rfl
        | true =>
          rcases h2 ho with h | ⟨_, h⟩
          · rw [hP.2.2] at h; cases h
          · have := hQ.1.1
            omega)
    evs hp (ULog.init target mode) u h ⟨init_memOk target mode, rfl, rfl⟩
  exact this.2

example : Polite (Sample.pkt 1 3 [0x41, 7, 8, 0, 0]) ∧ PoliteHeader (Sample.pkt 0 0 (Sample.ulogHdrBytes ++ [2, 0])) := by
  refine ⟨⟨by decide, .inr (by decide)⟩, by decide, .inr (by decide)⟩

/-- **C51 is false**: an ordinary first packet with a full data field (length 249) makes the in-place move read 16
bytes after the packet. -/
theorem C51_violated :
    ((ULog.init (some 1) .always).run Sample.logEnv
      [.msg (Sample.ulogMsg 0 249 0 (Sample.ulogHdrBytes ++ Sample.ulogMsgA))]).map (·.oob) = some true := by
  decide +kernel

/-- **C51 is false** for writes too: a header packet whose length field says 255 makes the move write 6 bytes after
the packet. -/
theorem C51_violated_write :
    ((ULog.init (some 1) .always).run Sample.logEnv
      [.msg (Sample.ulogMsg 0 255 0 (Sample.ulogHdrBytes ++ Sample.ulogMsgA))]).map (·.oobWrite) = some true := by
  decide +kernel

/-- **C51 is false** also after the header: an offset beyond the length makes the 8 bit length wrap around, and bytes
after the packet are stored in the log. -/
theorem C51_violated_offset :
    ((ULog.init (some 1) .always).run Sample.logEnv
      [.msg (Sample.ulogMsg 0 16 0 Sample.ulogHdrBytes), .msg (Sample.ulogMsg 9 1 3 [1])]).map
      (fun u => (u.oob, u.pend.length)) = some (true, 254) := by
  decide +kernel

/-! ### C52 -/

/-- **C52** (partial, one packet): processing returns unless the bytes `0xFD 0xFF` (size field 65533) occur in the data
pending and appended, or the header is bad and stopping the log does not return. -/
theorem C52_returns_partial (env : LogEnv) (u : ULog) (p : Pkt) (h : u.process env p = none) :
    (∃ l mem i k, l <:+ u.pend ∧ (mem = p.mem ∨ mem = (p.mem.drop 16).take p.length.toNat ++ p.mem.drop p.length.toNat) ∧
      HasFDFF (l ++ (mem.drop i).take k)) ∨
    (u.waitHdr = true ∧ ∃ e, ULog.stop env { u with expSeq := e } = none) := by
  unfold ULog.process at h
  cases hq : logSeq u.expSeq p.seq with
  | none => rw [hq] at h; cases h
  | some de =>
    obtain ⟨drops, exp⟩ := de
    rw [hq] at h
    simp only at h
    split at h
    · rename_i hwh
      split at h
      · right
        refine ⟨hwh, exp, ?_⟩
        cases hs : ULog.stop env { u with expSeq := exp } with
        | none => rfl
        | some v =>
          unfold ULog.restart at h
          rw [hs] at h
          cases h
      · left
        rcases append_none h with h | ⟨l, i, k, h1, h2⟩
        · exact ⟨u.pend, p.mem, 0, 0, List.suffix_refl _, .inl rfl, by simpa [takeHeader] using h⟩
        · exact ⟨l, _, i, k, h1, .inr rfl, h2⟩
    · left
      rcases append_none h with h | ⟨l, i, k, h1, h2⟩
      · exact ⟨u.pend, p.mem, 0, 0, List.suffix_refl _, .inl rfl, by simpa using h⟩
      · exact ⟨l, p.mem, i, k, h1, .inl rfl, h2⟩

example : ¬HasFDFF [2, 0, 0x41, 7, 8] := by
  rintro ⟨pre, rest, h⟩
  match pre, h with
  | [], h => simp at h
  | [_], h => simp at h
  | [_, _], h => simp at h
  | [_, _, _], h => simp at h
  | [_, _, _, _], h => simp at h
  | _ :: _ :: _ :: _ :: _ :: pre, h => simp at h

/-- **C52** (stopping): if writing makes progress again and again (or fails), stopping the log returns after finitely
many rounds. -/
theorem C52_stop_returns (env : LogEnv) (hp : Progress env) (u : ULog) :
    ∃ N, ∀ fuel, N ≤ fuel → ULog.stop { env with fuel := fuel } u ≠ none := by
  obtain ⟨N, hN⟩ := stopLoop_returns env hp _ (stopping u) rfl (Nat.le_refl _)
  refine ⟨N, fun fuel hf => ?_⟩
  unfold ULog.stop
  split
  · simp
  · have h := hN fuel hf
    have e : ∀ (n : Nat) (w : ULog), stopLoop { env with fuel := fuel } n w = stopLoop env n w := by
      have ew : ∀ (b : LogBase) (bs : List UInt8), b.write { env with fuel := fuel } bs = b.write env bs := fun _ _ => rfl
      have e1 : ∀ (n : Nat) (b : LogBase) (q : List UInt8),
          flushPart { env with fuel := fuel } n b q = flushPart env n b q := by
        intro n
        induction n with
        | zero => intro b q; cases q <;> rfl
        | succ n ih =>
          intro b q
          cases q with
          | nil => rfl
          | cons x q =>
            simp only [flushPart, ew]
            split <;> first | rfl | exact ih _ _
      have e2 : ∀ (n : Nat) (w : ULog), flushBuf { env with fuel := fuel } n w = flushBuf env n w := by
        intro n
        induction n with
        | zero => intro w; rfl
        | succ n ih =>
          intro w
          simp only [flushBuf, ew, ih]
      intro n
      induction n with
      | zero => intro w; rfl
      | succ n ih =>
        intro w
        simp only [stopLoop, ULog.flush, e1, e2, ih]
    rw [e]
    cases hs : stopLoop env fuel (stopping u) with
    | none => exact absurd hs h
    | some w =>
      have hs' : stopLoop env fuel { u with base := u.base.send .cmdStop, pend := [] } = some w := hs
      simp only [hs']
      simp

/-- Writes that alternate between `EAGAIN` and one byte make progress. -/
example : Progress { Sample.logEnv with wr := fun n => if n % 2 = 0 then .again else .n 1 } := by
  intro i
  refine ⟨2 * i + 1, by omega, ?_, ?_⟩
  · show (if (2 * i + 1) % 2 = 0 then FileRes.again else .n 1) ≠ _
    rw [if_neg (by omega)]
    simp
  · show (if (2 * i + 1) % 2 = 0 then FileRes.again else .n 1) ≠ _
    rw [if_neg (by omega)]
    simp

/-- **C52 is false**: with every write carried out, a packet with the message size field 65533 is never done with. -/
theorem C52_violated :
    (ULog.init (some 1) .always).run Sample.logEnv
      [.msg (Sample.ulogMsg 0 20 0 (Sample.ulogHdrBytes ++ [0xFD, 0xFF, 0x41, 0]))] = none ∧
    WritesAll Sample.logEnv :=
  ⟨by decide +kernel, Sample.logEnv_writesAll⟩

/-- Without progress stopping never returns, however long one waits: the loop spins. -/
theorem C52_stop_spins (fuel : Nat) :
    ULog.stop { Sample.stuckEnv with fuel := fuel } { Sample.ulogStarted with part := [1] } = none := by
  have h : ∀ (n : Nat) (u : ULog) (c : List UInt8), u.base.file = some c → u.part = [1] → u.pend = [] →
      stopLoop { Sample.stuckEnv with fuel := fuel } n u = none := by
    intro n
    induction n with
    | zero => intro u c _ hp _; simp [stopLoop, hp]
    | succ n ih =>
      intro u c hf hp hpe
      have hw : u.base.write { Sample.stuckEnv with fuel := fuel } [1] = ({ u.base with nwrite := u.base.nwrite + 1 }, .again) := by
        have hb : u.base = { u.base with file := some c } := by rw [← hf]
        rw [hb]
        rfl
      have hfl : u.flush { Sample.stuckEnv with fuel := fuel } =
          some ({ u with base := { u.base with nwrite := u.base.nwrite + 1 }, part := [1] }, true) := by
        refine flush_part_only _ u hpe { u.base with nwrite := u.base.nwrite + 1 } [1] .wait ?_
        rw [hp]
        simp only [List.length_cons, List.length_nil, flushPart, hw]
      simp only [stopLoop, hp, reduceCtorEq, if_false, hfl]
      exact ih _ c hf rfl hpe
  unfold ULog.stop
  rw [if_neg (by decide)]
  rw [h _ _ [] rfl rfl rfl]

end Verif
