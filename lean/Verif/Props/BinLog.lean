/-
C45-C47: the ArduPilot log file, acknowledgements, and requests for missing blocks.
-/
import Verif.Lemmas.BinHist
import Verif.Spec.BinLogSamples

namespace Verif

open Verif.Spec

/-- Every block message of a history carries a whole block. -/
def WholeBlocks (evs : List ULogEv) : Prop := ∀ m, ULogEv.msg m ∈ evs → m.msgId = 184 → BlockMsg m

/-- Every block number of a history is below the limit. -/
def LowNumbers (evs : List ULogEv) : Prop := ∀ p ∈ received evs, p.seqno.toNat < blockLimit

theorem flatMap_blockOfEv {env : LogEnv} {evs : List ULogEv} (h : WholeBlocks evs)
    (ht : env.tbl 184 ≠ none) : evs.flatMap (blockOfEv env) = received evs := by
  induction evs with
  | nil => rfl
  | cons ev evs ih =>
    have ih := ih (fun m hm => h m (List.mem_cons_of_mem _ hm))
    have he : blockOfEv env ev = received [ev] := by
      unfold received
      rw [List.flatMap_cons, List.flatMap_nil, List.append_nil]
      cases ev with
      | msg m =>
        simp only [blockOfEv]
        by_cases h184 : m.msgId = 184
        · rw [if_pos ⟨h184, ht⟩, if_pos h184, block_eq (h m (List.mem_cons_self ..) h184)]
        · rw [if_neg (by simp [h184]), if_neg h184]
      | startTimeout => rfl
      | aliveTimeout => rfl
      | stop => rfl
    rw [List.flatMap_cons, ih, he]
    unfold received
    rw [List.flatMap_cons, List.flatMap_nil, List.append_nil, List.flatMap_cons]

/-- The writes recorded for a history obey the limits of C45. -/
theorem writesOf_bounds {evs : List ULogEv} {ws : List BlockWrite} (hl : LowNumbers evs)
    (h : WritesOf (received evs) ws) : (∀ w ∈ ws, w.seqno.toNat < blockLimit) ∧ ∀ w ∈ ws, w.bytes.length ≤ 200 := by
  refine ⟨fun w hw => ?_, fun w hw => ?_⟩
  · obtain ⟨p, hp, k, rfl⟩ := h.mem hw
    exact hl p hp
  · obtain ⟨p, hp, k, rfl⟩ := h.mem hw
    have : p.data.length = 200 := by
      unfold received at hp
      obtain ⟨ev, _, hp⟩ := List.mem_flatMap.mp hp
      cases ev with
      | msg m =>
        simp only at hp
        split at hp
        · rw [List.mem_singleton.mp hp]
          simp [blockIn]
        · cases hp
      | startTimeout => cases hp
      | aliveTimeout => cases hp
      | stop => cases hp
    show (p.data.take k).length ≤ 200
    rw [List.length_take]
    omega

/-- C45, C46: after any history of messages, timer ticks and stops, with any results of starting
and writing, every log file (`done`: closed ones, `file`: the open one) is laid out exactly by the
writes of received blocks it got: block `n` at `[200n, 200n+200)`, last write wins; and the
acknowledgements sent are, in order, exactly those of the completely written blocks. -/
theorem C45_files (env : LogEnv) (target : Option UInt8) (mode : LogMode) (evs : List ULogEv)
    (ht : env.tbl 184 ≠ none) (hm : WholeBlocks evs) (hn : LowNumbers evs) :
    ∃ (dn : List (List BlockWrite)) (op : List BlockWrite),
      ((BinLog.init target mode).run env evs).base.done.length = dn.length ∧
      (∀ (i : Nat) c ws, ((BinLog.init target mode).run env evs).base.done[i]? = some c → dn[i]? = some ws → BinFile ws c) ∧
      (∀ c, ((BinLog.init target mode).run env evs).base.file = some c → BinFile op c) ∧
      WritesOf (received evs) (dn.flatten ++ op) ∧
      acks ((BinLog.init target mode).run env evs).base.out =
        ((dn.flatten ++ op).filter fun w => w.bytes.length = 200).map (·.seqno) := by
  obtain ⟨dn, op, h⟩ := (binHist_init target mode).run (env := env) evs
  rw [List.nil_append, flatMap_blockOfEv hm ht] at h
  obtain ⟨hb1, hb2⟩ := writesOf_bounds hn h.from_
  refine ⟨dn, op, by rw [h.done, List.length_map], fun i c ws hc hw => ?_, fun c hc => ?_, h.from_, h.acked⟩
  · rw [h.done, List.getElem?_map, hw] at hc
    cases hc
    have hmem : ∀ w ∈ ws, w ∈ dn.flatten ++ op := fun w hw' =>
      List.mem_append_left _ (List.mem_flatten.mpr ⟨ws, List.mem_of_getElem? hw, hw'⟩)
    exact laidOut_binFile (fun w hw' => hb1 w (hmem w hw')) (fun w hw' => hb2 w (hmem w hw'))
  · rcases h.file with ⟨hf, _⟩ | hf
    · rw [hf] at hc; cases hc
    · rw [hf] at hc
      cases hc
      exact laidOut_binFile (fun w hw' => hb1 w (List.mem_append_right _ hw'))
        (fun w hw' => hb2 w (List.mem_append_right _ hw'))

/-- C46: over any history, with any block numbers and any results of starting and writing, the
acknowledgements sent are, in order, exactly the numbers of the received blocks that were written
completely: one each, none for the others. -/
theorem C46_history (env : LogEnv) (target : Option UInt8) (mode : LogMode) (evs : List ULogEv)
    (ht : env.tbl 184 ≠ none) (hm : WholeBlocks evs) :
    ∃ ws : List BlockWrite, WritesOf (received evs) ws ∧
      acks ((BinLog.init target mode).run env evs).base.out =
        (ws.filter fun w => w.bytes.length = 200).map (·.seqno) := by
  obtain ⟨dn, op, h⟩ := (binHist_init target mode).run (env := env) evs
  rw [List.nil_append, flatMap_blockOfEv hm ht] at h
  exact ⟨dn.flatten ++ op, h.from_, h.acked⟩

theorem sample_wholeBlocks : WholeBlocks Sample.binHist := by
  intro m hm h184
  simp only [Sample.binHist, List.mem_cons, ULogEv.msg.injEq, List.not_mem_nil, or_false] at hm
  rcases hm with rfl | rfl | rfl | rfl | rfl
  · exact absurd h184 (by decide)
  all_goals exact ⟨rfl, by decide, .inl rfl⟩

theorem sample_lowNumbers : LowNumbers Sample.binHist := by
  unfold LowNumbers
  decide +kernel

example : ((BinLog.init none .always).run Sample.binEnv Sample.binHist).base.file =
    some ([1, 2] ++ List.replicate 198 0 ++ [5, 5] ++ List.replicate 198 0 ++ [8, 9] ++ List.replicate 198 0) := by
  decide +kernel

example : Sample.binEnv.tbl 184 ≠ none ∧ WholeBlocks Sample.binHist := ⟨by decide, sample_wholeBlocks⟩

example : acks ((BinLog.init none .always).run Sample.binEnv Sample.binHist).base.out = [0, 2, 1, 2] := by
  decide +kernel

/-- A message that brings a block while the file is open and block 0 was seen. -/
theorem writeMsg_open {env : LogEnv} {l : BinLog} {m : Msg} {c : List UInt8} (hm : BlockMsg m)
    (ht : env.tbl 184 ≠ none) (hf : l.base.file = some c) (hs : l.base.startTimer = false) :
    l.writeMsg env m = (l.process env (blockIn m)).count := by
  have h184 := hm.id
  have hl : l.base.learnTarget m = l.base := by
    unfold LogBase.learnTarget
    rw [if_neg (by rw [h184]; simp)]
  have ha : l.base.autoAct env m = .nothing := by
    unfold LogBase.autoAct
    split
    · rfl
    · split
      · rw [hf]; simp
      · rw [if_neg (by rw [h184]; simp)]
      · rfl
  unfold BinLog.writeMsg
  rw [hl]
  show (if m.msgId ≠ 184 then l.auto env m else _) = _
  rw [if_neg (by simp [h184])]
  have hauto : l.auto env m = l := by
    unfold BinLog.auto
    rw [ha]
  rw [h184, if_neg ht]
  show (l.auto env m).takeBlock env (m.block env) = _
  rw [hauto, block_eq hm]
  unfold BinLog.takeBlock
  rw [hs]
  rfl

theorem blockIn_length (m : Msg) : (blockIn m).data.length = 200 := by simp [blockIn]

theorem run_complete (env : LogEnv) (l : BinLog) (ms : List Msg) (ws : List BlockWrite)
    (ht : env.tbl 184 ≠ none) (hw : WritesBlocks env) (hm : ∀ m ∈ ms, BlockMsg m)
    (hn : ∀ m ∈ ms, (blockIn m).seqno.toNat < blockLimit)
    (hf : l.base.file = some (laidOut ws)) (hs : l.base.startTimer = false)
    (hws : ∀ w ∈ ws, w.seqno.toNat < blockLimit ∧ w.bytes.length ≤ 200) :
    ∃ c, (l.run env (ms.map .msg)).base.file = some c ∧
      BinFile (ws ++ ms.map fun m => ⟨(blockIn m).seqno, (blockIn m).data⟩) c := by
  induction ms generalizing l ws with
  | nil =>
    rw [List.map_nil, List.map_nil, List.append_nil]
    exact ⟨laidOut ws, hf, laidOut_binFile (fun w h => (hws w h).1) (fun w h => (hws w h).2)⟩
  | cons m ms ih =>
    have hm0 := hm m (List.mem_cons_self ..)
    obtain ⟨k, hk, hk200⟩ := hw l.base.nwrite
    have hstep := writeMsg_open hm0 ht hf hs
    have hfull : min k (blockIn m).data.length = blockLen := by
      rw [blockIn_length]; unfold blockLen; omega
    have htake : (blockIn m).data.take k = (blockIn m).data :=
      List.take_of_length_le (by rw [blockIn_length]; omega)
    have hproc : (l.process env (blockIn m)).base.file =
          some (laidOut (ws ++ [⟨(blockIn m).seqno, (blockIn m).data⟩])) ∧
        (l.process env (blockIn m)).base.startTimer = false := by
      unfold BinLog.process
      rw [hf]
      simp only [hk]
      rw [if_pos hfull, htake, ← laidOut_snoc ws ⟨(blockIn m).seqno, (blockIn m).data⟩]
      refine ⟨(sendAck_base _ _).1, ?_⟩
      unfold BinLog.sendAck
      split <;> exact hs
    have hws' : ∀ w ∈ ws ++ [(⟨(blockIn m).seqno, (blockIn m).data⟩ : BlockWrite)],
        w.seqno.toNat < blockLimit ∧ w.bytes.length ≤ 200 := by
      intro w hw'
      rcases List.mem_append.mp hw' with h | h
      · exact hws w h
      · rw [List.mem_singleton.mp h]
        exact ⟨hn m (List.mem_cons_self ..), by show (blockIn m).data.length ≤ 200; rw [blockIn_length]; omega⟩
    have := ih (l := l.writeMsg env m) (ws := ws ++ [⟨(blockIn m).seqno, (blockIn m).data⟩])
      (fun m' h => hm m' (List.mem_cons_of_mem _ h)) (fun m' h => hn m' (List.mem_cons_of_mem _ h))
      (by rw [hstep]; exact hproc.1) (by rw [hstep]; exact hproc.2) hws'
    rw [List.map_cons, List.map_cons, List.append_cons]
    exact this

/-- C45: nothing received is missing.  While the file is open, block 0 was seen and the disk takes
every write, a file laid out by the writes `ws` gets, for the messages `ms`, all their blocks
completely. -/
theorem C45_complete (env : LogEnv) (l : BinLog) (ms : List Msg) (ws : List BlockWrite) (c : List UInt8)
    (ht : env.tbl 184 ≠ none) (hw : WritesBlocks env) (hm : ∀ m ∈ ms, BlockMsg m)
    (hn : ∀ m ∈ ms, (blockIn m).seqno.toNat < blockLimit)
    (hf : l.base.file = some c) (hc : BinFile ws c) (hs : l.base.startTimer = false)
    (hws : ∀ w ∈ ws, w.seqno.toNat < blockLimit ∧ w.bytes.length ≤ 200) :
    ∃ c', (l.run env (ms.map .msg)).base.file = some c' ∧
      BinFile (ws ++ ms.map fun m => ⟨(blockIn m).seqno, (blockIn m).data⟩) c' := by
  have : c = laidOut ws := BinFile.unique hc (laidOut_binFile (fun w h => (hws w h).1) (fun w h => (hws w h).2))
  exact run_complete env l ms ws ht hw hm hn (this ▸ hf) hs hws

example : ∃ c, (BinLog.run Sample.binEnv ({ base := { target := some 1, mode := .always, file := some [] } })
      ([Sample.binMsg 1 [4], Sample.binMsg 0 [3]].map .msg)).base.file = some c ∧
    BinFile ([] ++ [Sample.binMsg 1 [4], Sample.binMsg 0 [3]].map
      fun m => ⟨(blockIn m).seqno, (blockIn m).data⟩) c :=
  C45_complete Sample.binEnv _ _ [] [] (by decide) Sample.binEnv_writes
    (by intro m hm; simp only [List.mem_cons, List.not_mem_nil, or_false] at hm
        rcases hm with rfl | rfl <;> exact ⟨rfl, by decide, .inl rfl⟩)
    (by decide +kernel) rfl (by intro i; rfl) rfl (by intro w hw; cases hw)

/-- The byte at a position depends only on the last data of its block, if all writes are
complete. -/
theorem binByte_lastData {ws : List BlockWrite} (h : ∀ w ∈ ws, w.bytes.length = 200) (i : Nat) :
    binByte ws i = match lastData ws (i / 200) with | some d => d.getD (i % 200) 0 | none => 0 := by
  unfold binByte lastData
  have hf : ws.reverse.find? (fun w => decide (w.seqno.toNat = i / 200 ∧ i % 200 < w.bytes.length)) =
      ws.reverse.find? (fun w => decide (w.seqno.toNat = i / 200)) := by
    have : ∀ l : List BlockWrite, (∀ w ∈ l, w.bytes.length = 200) →
        l.find? (fun w => decide (w.seqno.toNat = i / 200 ∧ i % 200 < w.bytes.length)) =
          l.find? (fun w => decide (w.seqno.toNat = i / 200)) := by
      intro l
      induction l with
      | nil => intro _; rfl
      | cons w l ih =>
        intro hl
        have h200 := hl w (List.mem_cons_self ..)
        rw [List.find?_cons, List.find?_cons, ih (fun w hw => hl w (List.mem_cons_of_mem _ hw)), h200]
        have : i % 200 < 200 := Nat.mod_lt _ (by decide)
        simp [this]
    exact this _ (fun w hw => h w (List.mem_reverse.mp hw))
  rw [hf]
  cases ws.reverse.find? (fun w => decide (w.seqno.toNat = i / 200)) with
  | none => rfl
  | some w => rfl

/-- Where the file ends is where the highest block received ends. -/
theorem lt_binSize {ws : List BlockWrite} (h : ∀ w ∈ ws, w.bytes.length = 200) (i : Nat) :
    i < binSize ws ↔ ∃ w ∈ ws, i < 200 * w.seqno.toNat + 200 := by
  induction ws with
  | nil => simp [binSize]
  | cons w ws ih =>
    have h200 := h w (List.mem_cons_self ..)
    have hne : w.bytes ≠ [] := by intro h0; rw [h0] at h200; cases h200
    simp only [binSize]
    rw [if_neg hne, h200]
    have ih := ih (fun w hw => h w (List.mem_cons_of_mem _ hw))
    constructor
    · intro hi
      rcases Nat.lt_or_ge i (200 * w.seqno.toNat + 200) with h1 | h1
      · exact ⟨w, List.mem_cons_self .., h1⟩
      · obtain ⟨v, hv, hlt⟩ := ih.mp (by omega)
        exact ⟨v, List.mem_cons_of_mem _ hv, hlt⟩
    · rintro ⟨v, hv, hlt⟩
      rcases List.mem_cons.mp hv with rfl | hv
      · omega
      · have := ih.mpr ⟨v, hv, hlt⟩
        omega

theorem lastData_isSome {ws : List BlockWrite} {n : Nat} :
    (lastData ws n).isSome = true ↔ ∃ w ∈ ws, w.seqno.toNat = n := by
  unfold lastData
  rw [Option.isSome_map, List.find?_isSome]
  simp

/-- C45: the content is determined by the last data received for each block number; the order in
which different blocks arrived, losses that were repaired, and repetitions leave no trace. -/
theorem C45_order_independent (ws vs : List BlockWrite) (c d : List UInt8)
    (hw : ∀ w ∈ ws, w.bytes.length = 200) (hv : ∀ w ∈ vs, w.bytes.length = 200)
    (hsame : ∀ n, lastData ws n = lastData vs n) (hc : BinFile ws c) (hd : BinFile vs d) : c = d := by
  apply List.ext_getElem?
  intro i
  rw [hc i, hd i, binByte_lastData hw, binByte_lastData hv, hsame]
  have hmem : ∀ n, (∃ w ∈ ws, w.seqno.toNat = n) ↔ ∃ w ∈ vs, w.seqno.toNat = n := by
    intro n
    rw [← lastData_isSome, ← lastData_isSome, hsame]
  have : i < binSize ws ↔ i < binSize vs := by
    rw [lt_binSize hw, lt_binSize hv]
    constructor
    · rintro ⟨w, h1, h2⟩
      obtain ⟨v, h3, h4⟩ := (hmem _).mp ⟨w, h1, rfl⟩
      exact ⟨v, h3, by omega⟩
    · rintro ⟨w, h1, h2⟩
      obtain ⟨v, h3, h4⟩ := (hmem _).mpr ⟨w, h1, rfl⟩
      exact ⟨v, h3, by omega⟩
  by_cases hi : i < binSize ws
  · rw [if_pos hi, if_pos (this.mp hi)]
  · rw [if_neg hi, if_neg (fun h => hi (this.mpr h))]

example : ∀ n, lastData [⟨0, List.replicate 200 1⟩, ⟨1, List.replicate 200 2⟩, ⟨0, List.replicate 200 3⟩] n =
    lastData [⟨0, List.replicate 200 3⟩, ⟨1, List.replicate 200 2⟩] n := by
  intro n
  simp only [lastData, List.reverse_cons, List.reverse_nil, List.nil_append, List.cons_append, List.find?_cons]
  rcases n with _ | _ | n
  · rfl
  · rfl
  · simp

/-- C45: block `n` as last written completely is read back at its place. -/
theorem C45_place (ws : List BlockWrite) (c d : List UInt8) (n : Nat)
    (hw : ∀ w ∈ ws, w.bytes.length = 200) (hc : BinFile ws c) (hl : lastData ws n = some d) :
    (c.drop (200 * n)).take 200 = d := by
  have hd : d.length = 200 ∧ ∃ w ∈ ws, w.seqno.toNat = n := by
    unfold lastData at hl
    cases hf : ws.reverse.find? (fun w => decide (w.seqno.toNat = n)) with
    | none => rw [hf] at hl; cases hl
    | some w =>
      rw [hf] at hl
      cases hl
      have hmem := List.mem_reverse.mp (List.mem_of_find?_eq_some hf)
      exact ⟨hw w hmem, w, hmem, of_decide_eq_true (List.find?_some (p := fun w : BlockWrite => decide (w.seqno.toNat = n)) hf)⟩
  obtain ⟨hd200, w, hmem, hnum⟩ := hd
  apply List.ext_getElem?
  intro j
  rw [List.getElem?_take]
  by_cases hj : j < 200
  · rw [if_pos hj, List.getElem?_drop, hc, if_pos ((lt_binSize hw _).mpr ⟨w, hmem, by omega⟩),
      binByte_lastData hw]
    have h1 : (200 * n + j) / 200 = n := by omega
    have h2 : (200 * n + j) % 200 = j := by omega
    rw [h1, h2, hl]
    show some (d.getD j 0) = _
    rw [List.getD_eq_getElem?_getD, List.getElem?_eq_getElem (by omega)]
    rfl
  · rw [if_neg hj, List.getElem?_eq_none (by omega)]

example : lastData [⟨0, List.replicate 200 1⟩, ⟨1, List.replicate 200 2⟩] 1 = some (List.replicate 200 2) := rfl

/-- The limit on block numbers is needed: block 21474837 is written over block 0. -/
theorem C45_wraps : blockOffset 21474837 = 104 ∧ 200 * (21474837 : UInt32).toNat = 4294967400 := by
  decide +kernel

/-- C46: while the file is open and block 0 was seen, a received block is acknowledged, once and
with its number, iff the write took all its 200 bytes; and then its bytes are in the file. -/
theorem C46_ack (env : LogEnv) (l : BinLog) (m : Msg) (c : List UInt8) (hm : BlockMsg m)
    (ht : env.tbl 184 ≠ none) (hf : l.base.file = some c) (hs : l.base.startTimer = false) :
    ∃ new, (l.writeMsg env m).base.out = l.base.out ++ new ∧
      ((∃ k, env.wr l.base.nwrite = .n k ∧ 200 ≤ k) → acks new = [(blockIn m).seqno] ∧
        ∃ c', (l.writeMsg env m).base.file = some c' ∧
          ((blockIn m).seqno.toNat < blockLimit →
            (c'.drop (200 * (blockIn m).seqno.toNat)).take 200 = (blockIn m).data)) ∧
      ((¬ ∃ k, env.wr l.base.nwrite = .n k ∧ 200 ≤ k) → acks new = []) := by
  rw [writeMsg_open hm ht hf hs]
  show ∃ new, (l.process env (blockIn m)).base.out = l.base.out ++ new ∧
      (_ → acks new = [(blockIn m).seqno] ∧ ∃ c', (l.process env (blockIn m)).base.file = some c' ∧ _) ∧ _
  generalize hp : blockIn m = p
  have hp200 : p.data.length = 200 := by rw [← hp]; exact blockIn_length m
  unfold BinLog.process
  rw [hf]
  cases hw : env.wr l.base.nwrite with
  | n k =>
    simp only [hp200]
    by_cases hk : min k 200 = blockLen
    · rw [if_pos hk]
      have hk' : 200 ≤ k := by unfold blockLen at hk; omega
      refine ⟨if p.seqno < l.lastAcked then [.blockAck p.seqno]
          else nackLoop (l.lastAcked + 1) p.seqno ++ [.blockAck p.seqno], ?_, fun _ => ⟨?_, ?_⟩, ?_⟩
      · unfold BinLog.sendAck
        by_cases hlt : p.seqno < l.lastAcked
        · simp only [if_pos hlt]; rfl
        · simp only [if_neg hlt]
          rw [List.append_assoc]
      · split
        · rfl
        · rw [acks_append, acks_nackLoop]; rfl
      · rw [(sendAck_base _ _).1]
        refine ⟨_, rfl, fun hlim => ?_⟩
        rw [← blockOffset_eq hlim]
        have htake : p.data.take k = p.data := List.take_of_length_le (by omega)
        have hne : p.data ≠ [] := by intro h0; rw [h0] at hp200; cases hp200
        rw [htake]
        apply List.ext_getElem?
        intro j
        rw [List.getElem?_take]
        by_cases hj : j < 200
        · rw [if_pos hj, List.getElem?_drop, writeAt_get _ _ _ _ hne, if_neg (by omega), if_pos (by omega)]
          congr 1
          omega
        · rw [if_neg hj, List.getElem?_eq_none (by omega)]
      · intro h
        exact absurd ⟨k, rfl, hk'⟩ h
    · rw [if_neg hk]
      refine ⟨[], by simp, ?_, fun _ => rfl⟩
      rintro ⟨k', h, hk'⟩
      cases h
      exact absurd (show min k 200 = blockLen by unfold blockLen; omega) hk
  | again =>
    refine ⟨[], by simp, ?_, fun _ => rfl⟩
    rintro ⟨k', h, _⟩
    cases h
  | err =>
    refine ⟨[.blockStop], ?_, ?_, fun _ => rfl⟩
    · show (BinLog.restart env _).base.out = _
      rw [binRestart_out]
      rw [hf]
      simp
    · rintro ⟨k', h, _⟩
      cases h

example : acks (({ base := { target := some 1, mode := .always, file := some [] } } : BinLog).writeMsg
    Sample.binEnv (Sample.binMsg 0 [3])).base.out = [0] := by decide +kernel

/-- C47 fails: after blocks 0 and 3 were received, block 3 is reported missing twice; blocks 1 and
2 are never requested. -/
theorem C47_violated : ∃ evs : List ULogEv,
    acks ((BinLog.init none .always).run Sample.binEnv evs).base.out = [0, 3] ∧
    nacks ((BinLog.init none .always).run Sample.binEnv evs).base.out = [3, 3] ∧
    skipped 0 3 = [1, 2] :=
  ⟨[.msg (Sample.logHb 1 1 3 128), .msg (Sample.binMsg 0 [1, 2]), .msg (Sample.binMsg 3 [7])],
    by decide +kernel, by decide +kernel, by decide +kernel⟩

/-- C47, second failure: a block with number 2^32-1 received twice is answered by 2^32-1 negative
acknowledgements although nothing was skipped. -/
theorem C47_flood (l : BinLog) (h : l.lastAcked = 0xFFFFFFFF) :
    ∃ new, (l.sendAck 0xFFFFFFFF).base.out = l.base.out ++ new ∧ (nacks new).length = 4294967295 ∧
      skipped 0xFFFFFFFF 0xFFFFFFFF = [] := by
  refine ⟨nackLoop (l.lastAcked + 1) 0xFFFFFFFF ++ [.blockAck 0xFFFFFFFF], ?_, ?_, by decide⟩
  · unfold BinLog.sendAck
    rw [h, if_neg (by decide), List.append_assoc]
  · rw [nacks_append, nacks_nackLoop, h]
    simp only [List.length_append, List.length_replicate]
    rfl

example : ({ base := { target := some 1, mode := .always }, lastAcked := 0xFFFFFFFF } : BinLog).lastAcked = 0xFFFFFFFF := rfl

/-- C47, what holds: as many negative acknowledgements are sent as blocks were skipped (none if
none was), but each carries the number of the block that did arrive.  Missing from C47: the
numbers, and last acknowledged number 2^32-1. -/
theorem C47_count_partial (l : BinLog) (n : UInt32) (h : l.lastAcked ≠ 0xFFFFFFFF) :
    ∃ new, (l.sendAck n).base.out = l.base.out ++ new ∧
      (nacks new).length = (skipped l.lastAcked n).length ∧ ∀ x ∈ nacks new, x = n := by
  have h1 : (l.lastAcked + 1).toNat = l.lastAcked.toNat + 1 := by
    rw [UInt32.toNat_add]
    have h1 : (1 : UInt32).toNat = 1 := rfl
    have h2 : l.lastAcked.toNat ≠ 4294967295 := fun hc => h (UInt32.toNat_inj.mp hc)
    have h3 := l.lastAcked.toNat_lt
    rw [h1]
    omega
  have hs : (skipped l.lastAcked n).length = n.toNat - (l.lastAcked.toNat + 1) := by
    unfold skipped
    rw [List.length_map, List.length_range']
  unfold BinLog.sendAck
  by_cases hlt : n < l.lastAcked
  · refine ⟨[.blockAck n], by rw [if_pos hlt]; rfl, ?_, fun x hx => by cases hx⟩
    rw [hs]
    have := UInt32.lt_iff_toNat_lt.mp hlt
    show 0 = _
    omega
  · refine ⟨nackLoop (l.lastAcked + 1) n ++ [.blockAck n], by rw [if_neg hlt, List.append_assoc], ?_, ?_⟩
    · rw [nacks_append, nacks_nackLoop, hs, h1]
      simp [nacks]
    · intro x hx
      rw [nacks_append, nacks_nackLoop] at hx
      rcases List.mem_append.mp hx with hx | hx
      · exact List.eq_of_mem_replicate hx
      · cases hx

example : nacks (({ base := { target := some 1, mode := .always }, lastAcked := 7 } : BinLog).sendAck 10).base.out = [10, 10]
    ∧ skipped 7 10 = [8, 9] := by decide +kernel

end Verif
