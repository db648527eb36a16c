import Verif.Lemmas.BinLog

namespace Verif

open Verif.Spec

theorem Spec.WritesOf.snocSkip {ps : List Block} {ws : List BlockWrite} (p : Block) (h : WritesOf ps ws) :
    WritesOf (ps ++ [p]) ws := by
  induction h with
  | nil => exact .skip .nil
  | skip _ ih => exact .skip ih
  | wrote k _ ih => exact .wrote k ih

theorem Spec.WritesOf.snocWrote {ps : List Block} {ws : List BlockWrite} (p : Block) (k : Nat)
    (h : WritesOf ps ws) : WritesOf (ps ++ [p]) (ws ++ [⟨p.seqno, p.data.take k⟩]) := by
  induction h with
  | nil => exact .wrote k .nil
  | skip _ ih => exact .skip ih
  | wrote k _ ih => exact .wrote k ih

theorem Spec.WritesOf.mem {ps : List Block} {ws : List BlockWrite} (h : WritesOf ps ws) {w : BlockWrite}
    (hw : w ∈ ws) : ∃ p ∈ ps, ∃ k, w = ⟨p.seqno, p.data.take k⟩ := by
  induction h with
  | nil => cases hw
  | skip _ ih => obtain ⟨p, hp, k, e⟩ := ih hw; exact ⟨p, List.mem_cons_of_mem _ hp, k, e⟩
  | @wrote p ps ws k _ ih =>
    rcases List.mem_cons.mp hw with rfl | hw
    · exact ⟨p, List.mem_cons_self .., k, rfl⟩
    · obtain ⟨p', hp, k, e⟩ := ih hw; exact ⟨p', List.mem_cons_of_mem _ hp, k, e⟩

theorem acks_append (a b : List LogOut) : acks (a ++ b) = acks a ++ acks b := by
  simp [acks]

theorem nacks_append (a b : List LogOut) : nacks (a ++ b) = nacks a ++ nacks b := by
  simp [nacks]

theorem acks_nackLoop (i n : UInt32) : acks (nackLoop i n) = [] := by
  rw [nackLoop_eq]
  unfold acks
  rw [List.filterMap_eq_nil_iff]
  intro o ho
  rw [List.eq_of_mem_replicate ho]

theorem nacks_nackLoop (i n : UInt32) : nacks (nackLoop i n) = List.replicate (n.toNat - i.toNat) n := by
  rw [nackLoop_eq]
  generalize n.toNat - i.toNat = k
  induction k with
  | zero => rfl
  | succ k ih =>
    rw [List.replicate_succ, List.replicate_succ]
    show n :: nacks _ = _
    rw [ih]

/-- Numbers of the complete writes, in order. -/
def fullWrites (ws : List BlockWrite) : List UInt32 :=
  (ws.filter fun w => w.bytes.length = 200).map (·.seqno)

theorem fullWrites_snoc (ws : List BlockWrite) (w : BlockWrite) :
    fullWrites (ws ++ [w]) = fullWrites ws ++ (if w.bytes.length = 200 then [w.seqno] else []) := by
  unfold fullWrites
  rw [List.filter_append, List.map_append]
  congr 1
  by_cases h : w.bytes.length = 200 <;> simp [h]

/-- The endpoint's files are the results of the writes `dn` (closed files) and `op` (open file) of
received blocks `ps`, and the acknowledgements sent are those of the complete writes. -/
structure BinHist (l : BinLog) (ps : List Block) (dn : List (List BlockWrite)) (op : List BlockWrite) :
    Prop where
  done : l.base.done = dn.map laidOut
  file : l.base.file = none ∧ op = [] ∨ l.base.file = some (laidOut op)
  from_ : WritesOf ps (dn.flatten ++ op)
  acked : acks l.base.out = fullWrites (dn.flatten ++ op)

/-- Nothing that concerns files and acknowledgements changed. -/
structure BinSame (l l' : BinLog) : Prop where
  done : l'.base.done = l.base.done
  file : l'.base.file = l.base.file
  acked : acks l'.base.out = acks l.base.out

theorem BinHist.same {l l' : BinLog} {ps dn op} (h : BinHist l ps dn op) (hs : BinSame l l') :
    BinHist l' ps dn op :=
  ⟨hs.done.trans h.done, hs.file ▸ h.file, h.from_, hs.acked.trans h.acked⟩

theorem BinSame.send {l : BinLog} {o : LogOut} (ho : acks [o] = []) :
    BinSame l { l with base := l.base.send o } :=
  ⟨rfl, rfl, by show acks (l.base.out ++ [o]) = _; rw [acks_append, ho, List.append_nil]⟩

theorem BinHist.stop {l : BinLog} {ps dn op} (h : BinHist l ps dn op) :
    ∃ dn' op', BinHist l.stop ps dn' op' ∧ l.stop.base.file = none ∧ op' = [] := by
  unfold BinLog.stop
  rcases h.file with ⟨hf, ho⟩ | hf
  · rw [if_pos hf]
    exact ⟨dn, op, h, hf, ho⟩
  · rw [if_neg (by rw [hf]; simp)]
    refine ⟨dn ++ [op], [], ⟨?_, .inl ⟨rfl, rfl⟩, ?_, ?_⟩, rfl, rfl⟩
    · show (match l.base.file with | some c => l.base.done ++ [c] | none => l.base.done) = _
      rw [hf]
      show l.base.done ++ [laidOut op] = _
      rw [h.done]
      simp
    · simpa using h.from_
    · show acks (l.base.out ++ [LogOut.blockStop]) = _
      rw [acks_append]
      have := h.acked
      simpa [acks] using this

theorem BinHist.start {env : LogEnv} {l : BinLog} {ps dn op} (h : BinHist l ps dn op) :
    BinHist (l.start env).1 ps dn op := by
  unfold BinLog.start LogBase.start
  rcases h.file with ⟨hf, ho⟩ | hf
  · rw [hf]
    simp only [Option.isSome_none, Bool.false_eq_true, if_false]
    by_cases hk : env.startOk l.base.nstart = true
    · rw [if_pos hk]
      exact ⟨h.done, .inr (by rw [ho]; rfl), h.from_, h.acked⟩
    · rw [if_neg hk]
      exact ⟨h.done, .inl ⟨rfl, ho⟩, h.from_, h.acked⟩
  · rw [hf]
    simp only [Option.isSome_some, if_true]
    exact h

theorem BinHist.restart {env : LogEnv} {l : BinLog} {ps dn op} (h : BinHist l ps dn op) :
    ∃ dn' op', BinHist (l.restart env) ps dn' op' := by
  obtain ⟨dn', op', h', _, _⟩ := h.stop
  exact ⟨dn', op', h'.start⟩

theorem binStart_out (env : LogEnv) (l : BinLog) : (l.start env).1.base.out = l.base.out := by
  unfold BinLog.start LogBase.start
  cases l.base.file.isSome with
  | true => rfl
  | false => cases env.startOk l.base.nstart <;> rfl

theorem binRestart_out (env : LogEnv) (l : BinLog) (h : l.base.file ≠ none) :
    (l.restart env).base.out = l.base.out ++ [.blockStop] := by
  unfold BinLog.restart
  rw [binStart_out]
  unfold BinLog.stop
  rw [if_neg h]
  rfl

theorem BinHist.skip {l : BinLog} {ps dn op} (p : Block) (h : BinHist l ps dn op) :
    BinHist l (ps ++ [p]) dn op := ⟨h.done, h.file, h.from_.snocSkip p, h.acked⟩

theorem sendAck_base (l : BinLog) (n : UInt32) :
    (l.sendAck n).base.file = l.base.file ∧ (l.sendAck n).base.done = l.base.done ∧
      acks (l.sendAck n).base.out = acks l.base.out ++ [n] := by
  unfold BinLog.sendAck
  split
  · refine ⟨rfl, rfl, ?_⟩
    show acks (l.base.out ++ [LogOut.blockAck n]) = _
    rw [acks_append]
    rfl
  · refine ⟨rfl, rfl, ?_⟩
    show acks (l.base.out ++ nackLoop (l.lastAcked + 1) n ++ [LogOut.blockAck n]) = _
    rw [acks_append, acks_append, acks_nackLoop, List.append_nil]
    rfl

theorem BinHist.process {env : LogEnv} {l : BinLog} {ps dn op} {p : Block} (hp : p.data.length = 200)
    (h : BinHist l ps dn op) : ∃ dn' op', BinHist (l.process env p) (ps ++ [p]) dn' op' := by
  unfold BinLog.process
  rcases h.file with ⟨hf, ho⟩ | hf
  · rw [hf]
    exact (h.skip p).restart
  · rw [hf]
    cases hw : env.wr l.base.nwrite with
    | n k =>
      simp only []
      refine ⟨dn, op ++ [⟨p.seqno, p.data.take k⟩], ?_⟩
      have hlen : (p.data.take k).length = min k 200 := by rw [List.length_take, hp]
      have hfile : writeAt (laidOut op) (blockOffset p.seqno) (p.data.take k) =
          laidOut (op ++ [⟨p.seqno, p.data.take k⟩]) := (laidOut_snoc op ⟨p.seqno, p.data.take k⟩).symm
      have hfrom := h.from_.snocWrote p k
      rw [List.append_assoc] at hfrom
      have hfull : fullWrites (dn.flatten ++ (op ++ [⟨p.seqno, p.data.take k⟩])) =
          fullWrites (dn.flatten ++ op) ++ (if min k 200 = 200 then [p.seqno] else []) := by
        rw [← List.append_assoc, fullWrites_snoc, hlen]
      rw [hp]
      by_cases hk : min k 200 = blockLen
      · rw [if_pos hk]
        have hk' : min k 200 = 200 := hk
        obtain ⟨h1, h2, h3⟩ := sendAck_base
          { l with base := { l.base with
              file := some (writeAt (laidOut op) (blockOffset p.seqno) (p.data.take k))
              nwrite := l.base.nwrite + 1 } } p.seqno
        refine ⟨h2.trans h.done, .inr (h1.trans (congrArg some hfile)), hfrom, ?_⟩
        rw [h3, hfull, if_pos hk']
        show acks l.base.out ++ _ = _
        rw [h.acked]
      · rw [if_neg hk]
        have hk' : ¬ min k 200 = 200 := hk
        refine ⟨h.done, .inr (congrArg some hfile), hfrom, ?_⟩
        rw [hfull, if_neg hk', List.append_nil]
        exact h.acked
    | again => exact ⟨dn, op, (h.skip p).same ⟨rfl, rfl, rfl⟩⟩
    | err =>
      simp only []
      have : BinHist { l with base := { l.base with nwrite := l.base.nwrite + 1 } } (ps ++ [p]) dn op :=
        (h.skip p).same ⟨rfl, rfl, rfl⟩
      exact this.restart

theorem block_data_length (env : LogEnv) (m : Msg) : (m.block env).data.length = 200 := by
  simp [Msg.block, blockLen]

theorem BinHist.takeBlock {env : LogEnv} {l : BinLog} {ps dn op} {p : Block} (hp : p.data.length = 200)
    (h : BinHist l ps dn op) : ∃ dn' op', BinHist (l.takeBlock env p) (ps ++ [p]) dn' op' := by
  unfold BinLog.takeBlock
  split
  · split
    · have h1 : BinHist { l with base := { l.base with startTimer := false, aliveTimer := env.aliveOk } }
          ps dn op := h.same ⟨rfl, rfl, rfl⟩
      obtain ⟨dn', op', h2⟩ := h1.process (env := env) hp
      exact ⟨dn', op', h2.same ⟨rfl, rfl, rfl⟩⟩
    · exact ⟨dn, op, (h.skip p).same (BinSame.send rfl)⟩
  · obtain ⟨dn', op', h2⟩ := h.process (env := env) hp
    exact ⟨dn', op', h2.same ⟨rfl, rfl, rfl⟩⟩

theorem BinHist.learn {l : BinLog} {ps dn op} (m : Msg) (h : BinHist l ps dn op) :
    BinHist { l with base := l.base.learnTarget m } ps dn op := by
  apply h.same
  unfold LogBase.learnTarget
  split <;> exact ⟨rfl, rfl, rfl⟩

theorem BinHist.auto {env : LogEnv} {l : BinLog} {ps dn op} (m : Msg) (h : BinHist l ps dn op) :
    ∃ dn' op', BinHist (l.auto env m) ps dn' op' := by
  unfold BinLog.auto
  cases l.base.autoAct env m with
  | nothing => exact ⟨dn, op, h⟩
  | start =>
    simp only []
    have h1 := h.start (env := env)
    rcases hs : l.start env with ⟨l', b⟩
    rw [hs] at h1
    cases b with
    | true => exact ⟨dn, op, h1⟩
    | false => exact ⟨dn, op, h1.same ⟨rfl, rfl, rfl⟩⟩
  | stop =>
    obtain ⟨dn', op', h', _⟩ := h.stop
    exact ⟨dn', op', h'⟩

/-- The block an event brings to the endpoint. -/
def blockOfEv (env : LogEnv) : ULogEv → List Block
  | .msg m => if m.msgId = 184 ∧ env.tbl 184 ≠ none then [m.block env] else []
  | _ => []

theorem BinHist.step {env : LogEnv} {l : BinLog} {ps dn op} (ev : ULogEv) (h : BinHist l ps dn op) :
    ∃ dn' op', BinHist (l.step env ev) (ps ++ blockOfEv env ev) dn' op' := by
  cases ev with
  | msg m =>
    obtain ⟨dn', op', h1⟩ := (h.learn m).auto (env := env) m
    simp only [BinLog.step, BinLog.writeMsg, blockOfEv]
    by_cases h184 : m.msgId = 184
    · rw [if_neg (by simp [h184])]
      rw [h184]
      by_cases ht : env.tbl 184 = none
      · rw [if_pos ht, if_neg (by simp [ht]), List.append_nil]
        exact ⟨dn', op', h1⟩
      · rw [if_neg ht, if_pos ⟨rfl, ht⟩]
        exact h1.takeBlock (block_data_length env m)
    · rw [if_pos h184, if_neg (by simp [h184]), List.append_nil]
      exact ⟨dn', op', h1⟩
  | startTimeout =>
    simp only [BinLog.step, BinLog.startTimeout, blockOfEv, List.append_nil]
    split
    · exact ⟨dn, op, h.same (BinSame.send rfl)⟩
    · exact ⟨dn, op, h⟩
  | aliveTimeout =>
    simp only [BinLog.step, BinLog.aliveTimeout, blockOfEv, List.append_nil]
    split
    · split
      · obtain ⟨dn', op', h1⟩ := h.restart (env := env)
        exact ⟨dn', op', h1.same ⟨rfl, rfl, rfl⟩⟩
      · exact ⟨dn, op, h.same ⟨rfl, rfl, rfl⟩⟩
    · exact ⟨dn, op, h⟩
  | stop =>
    obtain ⟨dn', op', h', _⟩ := h.stop
    simp only [BinLog.step, blockOfEv, List.append_nil]
    exact ⟨dn', op', h'⟩

theorem BinHist.run {env : LogEnv} {l : BinLog} {ps dn op} (evs : List ULogEv) (h : BinHist l ps dn op) :
    ∃ dn' op', BinHist (l.run env evs) (ps ++ evs.flatMap (blockOfEv env)) dn' op' := by
  induction evs generalizing l ps dn op with
  | nil => exact ⟨dn, op, by simpa [BinLog.run] using h⟩
  | cons ev evs ih =>
    obtain ⟨dn', op', h1⟩ := h.step (env := env) ev
    obtain ⟨dn'', op'', h2⟩ := ih h1
    refine ⟨dn'', op'', ?_⟩
    rw [List.flatMap_cons, ← List.append_assoc]
    exact h2

theorem binHist_init (target : Option UInt8) (mode : LogMode) : BinHist (BinLog.init target mode) [] [] [] :=
  ⟨rfl, .inl ⟨rfl, rfl⟩, .nil, rfl⟩

/-- The block the code takes from a message is the one the message carries. -/
theorem block_eq {env : LogEnv} {m : Msg} (h : BlockMsg m) : m.block env = blockIn m := by
  have hb : ∀ k, k < 206 → m.blockByte env k = payloadByte m k := by
    intro k hk
    unfold Msg.blockByte payloadByte Msg.trimmed Msg.rawByte
    simp only [hdrLen_eq]
    have hp := h.present
    have hget : k < m.payloadLen.toNat →
        (match m.data[headerLen m + k]? with | some b => b | none => env.stale (headerLen m + k)) =
          m.data.getD (headerLen m + k) 0 := by
      intro hlt
      rw [List.getElem?_eq_getElem (by omega), List.getD_eq_getElem?_getD, List.getElem?_eq_getElem (by omega)]
      rfl
    rcases h.whole with hv | hw
    · rw [if_pos hv]
      by_cases h0 : 206 - m.payloadLen.toNat = 0
      · rw [if_pos h0, if_pos (by omega)]
        exact hget (by omega)
      · rw [if_neg h0]
        by_cases hk' : k < m.payloadLen.toNat
        · rw [if_pos hk', if_pos hk']; exact hget hk'
        · rw [if_neg hk', if_neg hk']
    · have h0 : (if m.data.head? = some 0xFD then 206 - m.payloadLen.toNat else 0) = 0 := by
        split <;> omega
      rw [if_pos h0, if_pos (by omega)]
      exact hget (by omega)
  unfold Msg.block blockIn
  congr 1
  · rw [hb 0 (by omega), hb 1 (by omega), hb 2 (by omega), hb 3 (by omega)]
    apply UInt32.toNat_inj.mp
    have e1 : (256 : UInt32).toNat = 256 := rfl
    have e2 : (65536 : UInt32).toNat = 65536 := rfl
    have e3 : (16777216 : UInt32).toNat = 16777216 := rfl
    have a0 := (payloadByte m 0).toNat_lt
    have a1 := (payloadByte m 1).toNat_lt
    have a2 := (payloadByte m 2).toNat_lt
    have a3 := (payloadByte m 3).toNat_lt
    simp only [UInt32.toNat_add, UInt32.toNat_mul, UInt8.toNat_toUInt32, e1, e2, e3, UInt32.toNat_ofNat']
    omega
  · unfold blockLen
    apply List.map_congr_left
    intro j hj
    exact hb _ (by have := List.mem_range.mp hj; omega)

end Verif
