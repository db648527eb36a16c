/- C50, C115: a PX4 log from its start to its end, in terms of the messages the endpoint gets. -/
import Verif.Props.ULogLoss
import Verif.Lemmas.ULogFlight

namespace Verif

open Spec

/-- The packet in a data message. -/
theorem DataMsg.carries {env : LogEnv} {n : Nat} {first : UInt8} {chunk : List UInt8} {m : Msg} (h : DataMsg n first chunk m) :
    Carries n chunk (m.pkt env) ∧ (m.pkt env).first = first := by
  obtain ⟨_, hc, head, body, tail, fill, cut, ts, tc, hd, hh, hb, he, hl, h2⟩ := h
  have hraw : ∀ k, k < body.length → some (m.rawByte env k) = body[k]? := by
    intro k hk
    unfold Msg.rawByte
    simp only [hdrLen_eq]
    rw [hd, ← hh, List.append_assoc, List.getElem?_append_right (by omega), Nat.add_sub_cancel_left, List.getElem?_append_left hk,
      List.getElem?_eq_getElem hk]
  have hf : ∀ k, k < 255 → some (if m.trimmed 255 = 0 then m.rawByte env k
      else if k < m.payloadLen.toNat then m.rawByte env k
      else if k < 255 then 0
      else env.stale k) = ([UInt8.ofNat n, UInt8.ofNat (n / 256), ts, tc, UInt8.ofNat chunk.length, first] ++ chunk ++ fill)[k]? := by
    intro k hk
    rw [← he]
    have htr : m.trimmed 255 = cut := by
      unfold Msg.trimmed
      rw [← hb]
      rcases h2 with h2 | h2
      · rw [if_pos h2]; omega
      · split <;> omega
    rw [htr, ← hb]
    by_cases hkb : k < body.length
    · rw [if_pos hkb, ite_self, hraw k hkb, List.getElem?_append_left hkb]
    · rw [if_neg (show ¬cut = 0 by omega), if_neg hkb, if_pos hk, List.getElem?_append_right (by omega), List.getElem?_replicate, if_pos (by omega)]
  obtain ⟨f, hp, hf⟩ : ∃ f : Nat → UInt8, m.pkt env = ⟨(f 0).toUInt16 + 256 * (f 1).toUInt16, f 4, f 5,
        (List.range 520).map fun j => f (6 + j)⟩ ∧
      ∀ k, k < 255 → some (f k) = ([UInt8.ofNat n, UInt8.ofNat (n / 256), ts, tc, UInt8.ofNat chunk.length, first] ++ chunk ++ fill)[k]? :=
    ⟨_, rfl, hf⟩
  rw [hp]
  have f0 := hf 0 (by omega)
  have f1 := hf 1 (by omega)
  have f4 := hf 4 (by omega)
  have f5 := hf 5 (by omega)
  simp only [List.cons_append, List.getElem?_cons_zero, List.getElem?_cons_succ, Option.some.injEq] at f0 f1 f4 f5
  refine ⟨⟨?_, ?_, ?_, ?_⟩, f5⟩
  · simp only [f0, f1]
    apply UInt16.toNat_inj.mp
    simp
    omega
  · simp only [f4]
    simp
    omega
  · apply List.ext_getElem?
    intro i
    by_cases hi : i < chunk.length
    · rw [List.getElem?_take, if_pos hi]
      have := hf (6 + i) (by omega)
      rw [List.append_assoc, List.getElem?_append_right (by simp)] at this
      simp only [List.length_cons, List.length_nil, Nat.zero_add, Nat.reduceAdd, Nat.add_sub_cancel_left] at this
      rw [List.getElem?_append_left hi] at this
      rw [← this]
      simp only []
      rw [List.getElem?_map, List.getElem?_range (by omega)]
      rfl
    · rw [List.getElem?_take, if_neg hi, List.getElem?_eq_none (by omega)]
  · simp

/-- A log that was just started. -/
theorem start_started {env : LogEnv} {u0 u : ULog} (h : u0.start env = (u, true)) : Started u ∧ u.base.done = u0.base.done := by
  unfold ULog.start LogBase.start at h
  split at h
  · rename_i b hb
    split at hb
    · cases hb
    · split at hb
      · cases hb
        cases h
        exact ⟨⟨rfl, rfl, rfl, rfl, rfl, rfl, rfl⟩, rfl⟩
      · cases hb
  · cases h

/-- Stopping closes the file with what was still to be written. -/
theorem stop_stream {env : LogEnv} (hw : WritesAll env) {v w : ULog} {c : List UInt8} (hf : v.base.file = some c) (hp : v.part.length ≤ 2048)
    (h : v.stop env = some w) : w.base.done = v.base.done ++ [c ++ v.part] := by
  unfold ULog.stop at h
  rw [if_neg (by rw [hf]; simp)] at h
  have key : ∀ z, stopLoop env env.fuel { v with base := v.base.send .cmdStop, pend := [] } = some z →
      z.base.file = some (c ++ v.part) ∧ z.base.done = v.base.done := by
    intro z hz
    cases hfu : env.fuel with
    | zero =>
      rw [hfu] at hz
      simp only [stopLoop] at hz
      split at hz
      · rename_i hpe
        cases hz
        exact ⟨by rw [hpe, List.append_nil]; exact hf, rfl⟩
      · cases hz
    | succ n =>
      rw [hfu] at hz
      simp only [stopLoop] at hz
      split at hz
      · rename_i hpe
        cases hz
        exact ⟨by rw [hpe, List.append_nil]; exact hf, rfl⟩
      · obtain ⟨y, j, h1, h2, h3, _, _, h4⟩ := flush_stream env hw [] (by simp)
          { v with base := v.base.send .cmdStop, pend := [] } c [] hf hp rfl
        rw [h1] at hz
        simp only [] at hz
        have : stopLoop env n y = some y := by cases n <;> simp [stopLoop, h3]
        rw [this] at hz
        cases hz
        refine ⟨by simpa using h2, h4.kept.2.1⟩
  cases hz : stopLoop env env.fuel { v with base := v.base.send .cmdStop, pend := [] } with
  | none => rw [hz] at h; cases h
  | some z =>
    rw [hz] at h
    cases h
    obtain ⟨h1, h2⟩ := key z hz
    simp only [LogBase.stop, h1, h2]

/-- The data messages in a sequence of events. -/
theorem dataPkts_eq (env : LogEnv) : ∀ evs : List ULogEv, dataPkts env evs = (dataMsgs evs).map (Msg.pkt env)
  | [] => rfl
  | ev :: evs => by
    cases ev with
    | msg m =>
      simp only [dataPkts, dataMsgs, dataPkts_eq env evs]
      split <;> simp
    | startTimeout => exact dataPkts_eq env evs
    | aliveTimeout => exact dataPkts_eq env evs
    | stop => exact dataPkts_eq env evs

/-- **C115** (partial, complete writes; a log from start to end): `start` succeeds, whatever happened before; then come any events, among
them data messages with numbered packets of a stream, the first with the header; the others may be lost or repeated. The log is not
restarted or stopped in between. When it is stopped, the file it leaves consists of the header and exactly those messages all bytes
of which arrived. -/
theorem C115_flight_partial (env : LogEnv) (hw : WritesAll env) (ht : env.tbl 266 ≠ none ∧ env.tbl 267 ≠ none) (hdr : List UInt8)
    (msgs chunks : List (List UInt8)) (hcut : Cut hdr msgs chunks) (hne : ∀ c ∈ chunks, c ≠ []) (u0 u v w : ULog)
    (hs : u0.start env = (u, true)) (evs : List ULogEv) (hr : u.run env evs = some v)
    (hopen : v.base.nstart = u.base.nstart ∧ v.base.file ≠ none) (m : Msg) (d : List (Nat × Msg)) (hd : dataMsgs evs = ((0, m) :: d).map Prod.snd)
    (hwin : InWindow 0 (((0, m) :: d).map (fun x => (x.1, x.2.pkt env))))
    (hpk : ∀ x ∈ (0, m) :: d, ∃ chunk first, chunks[x.1]? = some chunk ∧ DataMsg x.1 first chunk x.2 ∧ FirstMsg hdr msgs chunks x.1 first)
    (hstop : v.stop env = some w) :
    w.base.file = none ∧ w.base.done = u0.base.done ++
      [hdr ++ (arrivedMsgs hdr msgs chunks ((fresh 0 (((0, m) :: d).map (fun x => (x.1, x.2.pkt env)))).map Prod.fst) msgs.length).flatten] := by
  obtain ⟨hst, hdone⟩ := start_started hs
  have ho : ¬LogOver u.base.nstart v := by
    rintro (h | ⟨h, _⟩)
    · omega
    · exact hopen.2 h
  obtain ⟨h1, x, hx, hxv⟩ := run_log (y := { u with wrapped := false, lost := false, dropped := false }) ht evs hr (Nat.le_refl _) ho
    ⟨rfl, rfl, rfl, rfl, rfl, rfl, rfl, rfl, fun _ => rfl, fun _ => rfl⟩
  obtain ⟨x', c, h2, h3, h4, h5⟩ := loss_exact env hw hdr msgs chunks hcut hne (m.pkt env) (d.map (fun x : Nat × Msg => (x.1, x.2.pkt env)))
    hwin (by
      intro y hy
      obtain ⟨z, hz, rfl⟩ := List.mem_map.mp (show y ∈ ((0, m) :: d).map (fun x => (x.1, x.2.pkt env)) from hy)
      obtain ⟨chunk, first, h1, h2, h3⟩ := hpk z hz
      obtain ⟨h4, h5⟩ := DataMsg.carries (env := env) h2
      exact ⟨chunk, h1, h4, by rw [h5]; exact h3⟩)
    { u with wrapped := false, lost := false, dropped := false } hst rfl rfl rfl
  have hps : dataPkts env evs = (((0, m.pkt env) :: d.map (fun x => (x.1, x.2.pkt env))).map Prod.snd) := by
    rw [dataPkts_eq, hd]
    simp
  rw [hps, h2] at hx
  cases hx
  obtain ⟨e1, _, _, _, _, _, _, e8, _⟩ := hxv
  refine ⟨(stop_base hstop).1, ?_⟩
  rw [stop_stream hw (e1 ▸ h3) (by rw [← e8]; omega) hstop, h1, hdone, ← e8, h5]
  rfl

namespace Sample

/-- LOGGING_DATA as `ulogMsg` makes it. -/
theorem ulogMsg_data (n : Nat) (hn : n < 256) (first : UInt8) (d : List UInt8) (hd : d.length ≤ 249) :
    DataMsg n first d (ulogMsg (UInt8.ofNat n) (UInt8.ofNat d.length) first d) := by
  refine ⟨.inl rfl, hd, [0xFD, 255, 0, 0, 0, 1, 1, 10, 1, 0],
    [UInt8.ofNat n, 0, 0, 0, UInt8.ofNat d.length, first] ++ d ++ List.replicate (249 - d.length) 1, [0x34, 0x12],
    List.replicate (249 - d.length) 1, 0, 0, 0, rfl, rfl, ?_, ?_, ?_, .inr rfl⟩
  · simp [ulogMsg]; omega
  · rw [show n / 256 = 0 by omega]; simp
  · simp; omega

/-- Packet 3 as LOGGING_DATA_ACKED, with the zeros at the end left out. -/
def ulogShort : Msg :=
  { data := [0xFD, 9, 0, 0, 0, 1, 1, 11, 1, 0] ++ [3, 0, 0, 0, 3, 255, 0x41, 7, 8] ++ [0x34, 0x12]
    msgId := 267, targetSys := 0, targetComp := 0, srcSys := 1, srcComp := 1, payloadLen := 9, payloadOfs := some 10 }

theorem ulogShort_data : DataMsg 3 255 [0x41, 7, 8] ulogShort :=
  ⟨.inr rfl, by decide, [0xFD, 9, 0, 0, 0, 1, 1, 11, 1, 0], [3, 0, 0, 0, 3, 255, 0x41, 7, 8], [0x34, 0x12], List.replicate 246 0, 246, 0, 0,
    rfl, rfl, rfl, rfl, rfl, .inl rfl⟩

/-- Disarmed, but the autopilot already sends log data: they are in the buffer when the log starts. -/
def flightBefore : Option ULog :=
  (ULog.init (some 1) .whileArmed).run logEnv [.msg (ulogMsg 0 23 16 (ulogHdrBytes ++ ulogMsgA ++ [2, 0]))]

/-- Packet 1 of `lossChunks` gets lost, packet 2 is repeated. -/
def flightMsgs : List (Nat × Msg) :=
  [(0, ulogMsg 0 23 16 (ulogHdrBytes ++ ulogMsgA ++ [2, 0])), (2, ulogMsg 2 5 0 [0, 0, 0x42, 2, 0]),
    (2, ulogMsg 2 5 0 [0, 0, 0x42, 2, 0]), (3, ulogShort)]

def flightEvs : List ULogEv :=
  .startTimeout :: (flightMsgs.take 2).map (fun x => .msg x.2) ++ .aliveTimeout :: (flightMsgs.drop 2).map (fun x => .msg x.2)

theorem flightMsgs_ok : ∀ x ∈ flightMsgs, ∃ chunk first, lossChunks[x.1]? = some chunk ∧ DataMsg x.1 first chunk x.2 ∧
    FirstMsg ulogHdrBytes lossMsgs lossChunks x.1 first := by
  intro x hx
  simp only [flightMsgs, List.mem_cons, List.not_mem_nil, or_false] at hx
  have c2 : ∃ chunk first, lossChunks[2]? = some chunk ∧ DataMsg 2 first chunk (ulogMsg 2 5 0 [0, 0, 0x42, 2, 0]) ∧
      FirstMsg ulogHdrBytes lossMsgs lossChunks 2 first :=
    ⟨_, _, rfl, ulogMsg_data 2 (by decide) 0 [0, 0, 0x42, 2, 0] (by decide), .inr ⟨2, by decide, by decide, by decide, by decide +kernel⟩⟩
  rcases hx with rfl | rfl | rfl | rfl
  · exact ⟨_, _, rfl, ulogMsg_data 0 (by decide) 16 (ulogHdrBytes ++ ulogMsgA ++ [2, 0]) (by decide),
      .inr ⟨0, by decide, by decide, by decide, by decide +kernel⟩⟩
  · exact c2
  · exact c2
  · exact ⟨_, _, rfl, ulogShort_data, .inl ⟨rfl, by decide +kernel⟩⟩

end Sample

open Sample in
/-- The hypotheses of `C115_flight_partial` hold here, with old data in the buffer; the file has the messages A, B, A. -/
example : (flightBefore.map (fun u0 => (u0.pend, (u0.start logEnv).2))) = some (ulogMsgA ++ [2, 0], true) ∧
    (flightBefore.bind (fun u0 => ((u0.start logEnv).1.run logEnv flightEvs).map (fun v => (v.base.nstart, v.base.file)))) =
      some (1, some (ulogHdrBytes ++ ulogMsgA ++ ulogMsgB ++ ulogMsgA)) ∧
    (flightBefore.bind (fun u0 => ((u0.start logEnv).1.run logEnv (flightEvs ++ [.stop])).map (fun v => (v.base.done, v.base.file)))) =
      some ([ulogHdrBytes ++ ulogMsgA ++ ulogMsgB ++ ulogMsgA], none) ∧
    dataMsgs flightEvs = flightMsgs.map Prod.snd ∧ InWindow 0 (flightMsgs.map (fun x => (x.1, x.2.pkt logEnv))) ∧
    (fresh 0 (flightMsgs.map (fun x => (x.1, x.2.pkt logEnv)))).map Prod.fst = [0, 2, 3] ∧
    logEnv.tbl 266 ≠ none ∧ logEnv.tbl 267 ≠ none :=
  ⟨by decide +kernel, by decide +kernel, by decide +kernel, by decide +kernel, by simp [InWindow, flightMsgs], rfl, by decide, by decide⟩

/-- Every position of a stream is in one of its packets. -/
theorem chunk_of (chunks : List (List UInt8)) (x : Nat) : ∀ n, x < chunkAt chunks n → ∃ k, k < n ∧ chunkAt chunks k ≤ x ∧ x < chunkAt chunks (k + 1)
  | 0, h => absurd h (by simp [chunkAt])
  | n + 1, h => by
    by_cases hx : x < chunkAt chunks n
    · obtain ⟨k, h1, h2, h3⟩ := chunk_of chunks x n hx
      exact ⟨k, by omega, h2, h3⟩
    · exact ⟨n, by omega, by omega, h⟩

/-- **C50** (partial, complete writes; a log from start to end): if all packets of the stream arrive, in order and with any repetitions
and other events in between, the file the log leaves is the stream, byte for byte; nothing of earlier logs and of data received
before the start gets into it. -/
theorem C50_flight_partial (env : LogEnv) (hw : WritesAll env) (ht : env.tbl 266 ≠ none ∧ env.tbl 267 ≠ none) (hdr : List UInt8)
    (msgs chunks : List (List UInt8)) (hcut : Cut hdr msgs chunks) (hall : chunks.flatten = hdr ++ msgs.flatten) (hne : ∀ c ∈ chunks, c ≠ [])
    (u0 u v w : ULog) (hs : u0.start env = (u, true)) (evs : List ULogEv) (hr : u.run env evs = some v)
    (hopen : v.base.nstart = u.base.nstart ∧ v.base.file ≠ none) (m : Msg) (d : List (Nat × Msg)) (hd : dataMsgs evs = ((0, m) :: d).map Prod.snd)
    (hwin : InWindow 0 (((0, m) :: d).map (fun x => (x.1, x.2.pkt env))))
    (hpk : ∀ x ∈ (0, m) :: d, ∃ chunk first, chunks[x.1]? = some chunk ∧ DataMsg x.1 first chunk x.2 ∧ FirstMsg hdr msgs chunks x.1 first)
    (hgot : (fresh 0 (((0, m) :: d).map (fun x => (x.1, x.2.pkt env)))).map Prod.fst = List.range chunks.length)
    (hstop : v.stop env = some w) :
    w.base.file = none ∧ w.base.done = u0.base.done ++ [chunks.flatten] := by
  obtain ⟨h1, h2⟩ := C115_flight_partial env hw ht hdr msgs chunks hcut hne u0 u v w hs evs hr hopen m d hd hwin hpk hstop
  refine ⟨h1, ?_⟩
  rw [h2, hgot, hall]
  have := arrivedMsgs_run (hdr := hdr) (msgs := msgs) (chunks := chunks) (got := List.range chunks.length) (j := 0) msgs.length
    (fun l _ hl => ⟨by omega, fun x _ hx2 => by
      have hm := msgAt_mono hdr msgs (show l + 1 ≤ msgs.length by omega)
      have hlen : msgAt hdr msgs msgs.length = chunkAt chunks chunks.length := by
        unfold msgAt chunkAt
        rw [List.take_length, List.take_length, hall, List.length_append]
      obtain ⟨k, hk1, hk2⟩ := chunk_of chunks x chunks.length (by omega)
      exact ⟨k, List.mem_range.mpr hk1, hk2⟩⟩)
  rw [Nat.zero_add] at this
  rw [this]
  simp [arrivedMsgs]

open Sample in
/-- The hypotheses on the stream hold of `lossChunks`; all packets, one twice, with old data in the buffer at the start. -/
example : lossChunks.flatten = ulogHdrBytes ++ lossMsgs.flatten ∧
    (fresh 0 ([(0, ulogMsg 0 23 16 (ulogHdrBytes ++ ulogMsgA ++ [2, 0])), (1, ulogMsg 1 3 255 [0x41, 7, 8]), (2, ulogMsg 2 5 0 [0, 0, 0x42, 2, 0]),
      (1, ulogMsg 1 3 255 [0x41, 7, 8]), (3, ulogShort)].map (fun x => (x.1, x.2.pkt logEnv)))).map Prod.fst = List.range lossChunks.length ∧
    (flightBefore.bind (fun u0 => ((u0.start logEnv).1.run logEnv [.msg (ulogMsg 0 23 16 (ulogHdrBytes ++ ulogMsgA ++ [2, 0])),
      .msg (ulogMsg 1 3 255 [0x41, 7, 8]), .msg (ulogMsg 2 5 0 [0, 0, 0x42, 2, 0]), .msg (ulogMsg 1 3 255 [0x41, 7, 8]), .msg ulogShort, .stop]).map
        (fun v => (v.base.done, v.base.file)))) = some ([lossChunks.flatten], none) :=
  ⟨by decide +kernel, rfl, by decide +kernel⟩

/-- Stopping closes the file; unless an error is reported, what was still to be written of messages begun is in it. -/
theorem stop_written {env : LogEnv} {v w : ULog} {c : List UInt8} (hf : v.base.file = some c) (h : v.stop env = some w)
    (hwr : w.wrapped = false) (hl : w.lost = false) (hc : w.cut = false) :
    w.base.done = v.base.done ++ [c ++ v.part] ∧ v.wrapped = false ∧ v.lost = false := by
  rcases stop_spec env v w h with ⟨h1, _⟩ | ⟨x, c', hc', hr, rfl⟩
  · rw [hf] at h1; cases h1
  · simp only [Bool.or_eq_false_iff, Bool.not_eq_false', List.isEmpty_iff] at hc hwr hl
    obtain ⟨msgs, _, hp, hd⟩ := hr.data hwr hl
    obtain ⟨c2, h2, h3⟩ := hd c hf
    have hm : msgs.flatten = [] := (List.append_eq_nil_iff.mp hp.symm).1
    rw [hc.2, List.append_nil, hm, List.append_nil] at h3
    refine ⟨?_, false_of_mono hr.wrapped hwr, false_of_mono hr.lost hl⟩
    simp only [LogBase.stop, h2, h3, hr.kept.2.1]
    rfl

/-- **C115** (partial, any results of the writes; a log from start to end): whatever the writes return, the file the log leaves consists
of the header and some of the messages sent, complete, each at most once and in the order in which they were sent. This holds unless
a write failed when the log was closed (`cut`), the "partial buffer is not big enough" error occurred (`lost`), or a size of 65533 or more
came up (`wrapped`). Which messages are missing is said by `C115_flight_partial` for complete writes only. -/
theorem C115_flight_sent_partial (env : LogEnv) (ht : env.tbl 266 ≠ none ∧ env.tbl 267 ≠ none) (hdr : List UInt8)
    (msgs chunks : List (List UInt8)) (hcut : Cut hdr msgs chunks) (u0 u v w : ULog)
    (hs : u0.start env = (u, true)) (evs : List ULogEv) (hr : u.run env evs = some v)
    (hopen : v.base.nstart = u.base.nstart ∧ v.base.file ≠ none) (m : Msg) (d : List (Nat × Msg)) (hd : dataMsgs evs = ((0, m) :: d).map Prod.snd)
    (hwin : InWindow 0 (((0, m) :: d).map (fun x => (x.1, x.2.pkt env))))
    (hpk : ∀ x ∈ (0, m) :: d, ∃ chunk first, chunks[x.1]? = some chunk ∧ DataMsg x.1 first chunk x.2 ∧ FirstMsg hdr msgs chunks x.1 first)
    (hstop : v.stop env = some w) (hwr : w.wrapped = false) (hl : w.lost = false) (hc : w.cut = false) :
    w.base.file = none ∧ ∃ sub, sub.Sublist msgs ∧ w.base.done = u0.base.done ++ [hdr ++ List.flatten sub] := by
  obtain ⟨hst, hdone⟩ := start_started hs
  have ho : ¬LogOver u.base.nstart v := by
    rintro (h | ⟨h, _⟩)
    · omega
    · exact hopen.2 h
  obtain ⟨h1, x, hx, hxv⟩ := run_log (y := u) ht evs hr (Nat.le_refl _) ho (.refl _)
  have hps : dataPkts env evs = (((0, m.pkt env) :: d.map (fun x => (x.1, x.2.pkt env))).map Prod.snd) := by
    rw [dataPkts_eq, hd]
    simp
  obtain ⟨e1, _, _, _, _, _, _, e8, e9, e10⟩ := hxv
  obtain ⟨c, hf⟩ := Option.ne_none_iff_exists'.mp hopen.2
  obtain ⟨h2, h3, h4⟩ := stop_written hf hstop hwr hl hc
  rw [hps] at hx
  obtain ⟨c', sub, h5, h6, h7⟩ := C115_only_sent_partial env hdr msgs chunks hcut (m.pkt env) (d.map (fun x : Nat × Msg => (x.1, x.2.pkt env)))
    hwin (by
      intro y hy
      obtain ⟨z, hz, rfl⟩ := List.mem_map.mp (show y ∈ ((0, m) :: d).map (fun x => (x.1, x.2.pkt env)) from hy)
      obtain ⟨chunk, first, h1, h2, h3⟩ := hpk z hz
      obtain ⟨h4, h5⟩ := DataMsg.carries (env := env) h2
      exact ⟨chunk, h1, h4, by rw [h5]; exact h3⟩) u x hst hx (e9 h3) (e10 h4)
  refine ⟨(stop_base hstop).1, sub, h7, ?_⟩
  rw [e1, hf] at h5
  cases h5
  rw [h2, h1, hdone, ← e8, h6]

namespace Sample

/-- A whole log in one message: header and the messages A and B. -/
def flightOne : Msg := ulogMsg 0 24 16 (ulogHdrBytes ++ ulogMsgA ++ ulogMsgB)

end Sample

open Sample in
/-- With writes of one byte the file has the header and message A only (below); the hypotheses of `C115_flight_sent_partial` hold. -/
example : ((ULog.init (some 1) .always).start slowEnv).2 = true ∧
    (((ULog.init (some 1) .always).start slowEnv).1.run slowEnv [.msg flightOne]).map (fun v => (v.base.nstart, v.base.file)) =
      some (1, some (ulogHdrBytes ++ [2])) ∧
    (((ULog.init (some 1) .always).start slowEnv).1.run slowEnv [.msg flightOne, .stop]).map (fun w => (w.wrapped, w.lost, w.cut, w.base.done)) =
      some (false, false, false, [ulogHdrBytes ++ ulogMsgA]) ∧
    dataMsgs [.msg flightOne] = [(0, flightOne)].map Prod.snd ∧ slowEnv.tbl 266 ≠ none ∧ slowEnv.tbl 267 ≠ none :=
  ⟨by decide +kernel, by decide +kernel, by decide +kernel, rfl, by decide, by decide⟩

open Sample in
/-- **C115 is false** with short writes: all packets arrive, no write fails and no error is reported, but message B, complete in the
buffer when the log is stopped, is not in the file. -/
theorem C115_violated : ∃ (u0 u w : ULog) (hdr : List UInt8) (msgs chunks : List (List UInt8)),
    u0.start slowEnv = (u, true) ∧ Cut hdr msgs chunks ∧ chunks.flatten = hdr ++ msgs.flatten ∧
    chunks.length = 1 ∧ (∀ chunk ∈ chunks, DataMsg 0 16 chunk flightOne) ∧ FirstMsg hdr msgs chunks 0 16 ∧
    u.run slowEnv [.msg flightOne, .stop] = some w ∧ w.wrapped = false ∧ w.lost = false ∧ w.cut = false ∧ w.dropped = false ∧
    ∃ a b, msgs = [a, b] ∧ w.base.done = u0.base.done ++ [hdr ++ a] := by
  have hx : ((ULog.init (some 1) .always).start slowEnv).2 = true ∧
      (((ULog.init (some 1) .always).start slowEnv).1.run slowEnv [.msg flightOne, .stop]).map
        (fun w => ((w.wrapped, w.lost, w.cut, w.dropped), w.base.done)) =
        some ((false, false, false, false), [ulogHdrBytes ++ ulogMsgA]) := ⟨by decide +kernel, by decide +kernel⟩
  obtain ⟨w, hw, hw'⟩ := Option.map_eq_some_iff.mp hx.2
  simp only [Prod.mk.injEq] at hw'
  refine ⟨ULog.init (some 1) .always, _, w, ulogHdrBytes, [ulogMsgA, ulogMsgB], [ulogHdrBytes ++ ulogMsgA ++ ulogMsgB], ?_, ?_, rfl, rfl, ?_, ?_, hw,
    hw'.1.1, hw'.1.2.1, hw'.1.2.2.1, hw'.1.2.2.2, ulogMsgA, ulogMsgB, rfl, hw'.2⟩
  · rw [← hx.1]
  · refine ⟨rfl, rfl, ?_, ⟨[], rfl⟩, by decide, by decide⟩
    intro m hm
    simp only [List.mem_cons, List.not_mem_nil, or_false] at hm
    rcases hm with rfl | rfl
    · exact ⟨⟨2, 0, 0x41, [7, 8], rfl, rfl⟩, by decide⟩
    · exact ⟨⟨0, 0, 0x42, [], rfl, rfl⟩, by decide⟩
  · intro c hc
    rw [List.mem_singleton.mp hc]
    exact ulogMsg_data 0 (by decide) 16 _ (by decide)
  · exact .inr ⟨0, by decide, rfl, by decide, fun i _ _ => by simp [msgAt]⟩

end Verif
