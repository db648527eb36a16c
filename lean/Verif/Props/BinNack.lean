import Verif.Props.BinLog

/- Property C47 over whole log sessions: which requests are sent for missing blocks, in terms of the blocks received only. -/

namespace Verif
open Spec

/-- What the router sends while the blocks with the numbers `ns` are written, when `high` is the highest number so far: each block
is acknowledged, and before that a negative acknowledgement is sent for each number that was skipped – with the number of the block
that did arrive. -/
def Spec.blockReplies (high : Nat) : List UInt32 → List LogOut
  | [] => []
  | n :: ns => List.replicate (n.toNat - (high + 1)) (.blockNack n) ++ [.blockAck n] ++ blockReplies (max high n.toNat) ns

/-- The numbers of the blocks of which all bytes could be written, when the `k`-th write is the one of the first block. -/
def Spec.writtenBlocks (wr : Nat → FileRes) : Nat → List Block → List UInt32
  | _, [] => []
  | k, b :: bs => (match wr k with | .n j => if 200 ≤ j then [b.seqno] else [] | .again => [] | .err => []) ++
      writtenBlocks wr (k + 1) bs

theorem sendAck_eq (l : BinLog) (n : UInt32) (h : l.lastAcked ≠ 0xFFFFFFFF) :
    (l.sendAck n).base.out = l.base.out ++ (List.replicate (n.toNat - (l.lastAcked.toNat + 1)) (.blockNack n) ++ [.blockAck n]) ∧
    (l.sendAck n).lastAcked.toNat = max l.lastAcked.toNat n.toNat ∧ (l.sendAck n).base.nwrite = l.base.nwrite ∧
    (l.sendAck n).base.startTimer = l.base.startTimer := by
  have h1 : (l.lastAcked + 1).toNat = l.lastAcked.toNat + 1 := by
    rw [UInt32.toNat_add]
    have h1 : (1 : UInt32).toNat = 1 := rfl
    have h2 : l.lastAcked.toNat ≠ 4294967295 := fun hc => h (UInt32.toNat_inj.mp hc)
    have h3 := l.lastAcked.toNat_lt
    rw [h1]
    omega
  unfold BinLog.sendAck
  by_cases hlt : n < l.lastAcked
  · have h2 := UInt32.lt_iff_toNat_lt.mp hlt
    rw [if_pos hlt]
    refine ⟨?_, (Nat.max_eq_left (a := l.lastAcked.toNat) (by omega)).symm, rfl, rfl⟩
    rw [show n.toNat - (l.lastAcked.toNat + 1) = 0 by omega]
    rfl
  · have h2 : ¬ n.toNat < l.lastAcked.toNat := fun h => hlt (UInt32.lt_iff_toNat_lt.mpr h)
    rw [if_neg hlt]
    refine ⟨?_, (Nat.max_eq_right (a := l.lastAcked.toNat) (b := n.toNat) (by omega)).symm, rfl, rfl⟩
    show l.base.out ++ nackLoop (l.lastAcked + 1) n ++ [.blockAck n] = _
    rw [nackLoop_eq, h1, List.append_assoc]

theorem process_replies {env : LogEnv} {l : BinLog} {c : List UInt8} {b : Block} (hf : l.base.file = some c)
    (hs : l.base.startTimer = false) (hb : b.data.length = 200) (he : env.wr l.base.nwrite ≠ .err)
    (hl : l.lastAcked ≠ 0xFFFFFFFF) (hn : b.seqno ≠ 0xFFFFFFFF) :
    let ns := writtenBlocks env.wr l.base.nwrite [b]
    (∃ c', (l.process env b).base.file = some c') ∧ (l.process env b).base.startTimer = false ∧
    (l.process env b).base.nwrite = l.base.nwrite + 1 ∧ (l.process env b).lastAcked ≠ 0xFFFFFFFF ∧
    (l.process env b).base.out = l.base.out ++ blockReplies l.lastAcked.toNat ns ∧
    (l.process env b).lastAcked.toNat = ns.foldl (fun h n => max h n.toNat) l.lastAcked.toNat := by
  unfold BinLog.process
  rw [hf]
  cases hw : env.wr l.base.nwrite with
  | err => exact absurd hw he
  | again => exact ⟨⟨_, hf⟩, hs, rfl, hl, by simp [writtenBlocks, hw, blockReplies], by simp [writtenBlocks, hw]⟩
  | n k =>
    simp only [hb]
    by_cases hk : min k 200 = blockLen
    · rw [if_pos hk]
      have hk' : 200 ≤ k := by unfold blockLen at hk; omega
      have hsa := sendAck_eq { l with base :=
        { l.base with file := some (writeAt c (blockOffset b.seqno) (b.data.take k)), nwrite := l.base.nwrite + 1 } } b.seqno hl
      have hlast : (l.lastAcked.toNat) ≠ 4294967295 := fun h => hl (UInt32.toNat_inj.mp h)
      have hnum : b.seqno.toNat ≠ 4294967295 := fun h => hn (UInt32.toNat_inj.mp h)
      refine ⟨⟨_, (sendAck_base _ _).1⟩, hsa.2.2.2.trans hs, hsa.2.2.1, ?_, ?_, ?_⟩
      · intro h
        have h1 := hsa.2.1
        rw [h] at h1
        have h2 : (0xFFFFFFFF : UInt32).toNat = 4294967295 := rfl
        simp only [h2] at h1
        omega
      · rw [hsa.1]; simp [writtenBlocks, hw, hk', blockReplies]
      · rw [hsa.2.1]; simp [writtenBlocks, hw, hk']
    · rw [if_neg hk]
      have hk' : ¬ 200 ≤ k := by unfold blockLen at hk; omega
      exact ⟨⟨_, rfl⟩, hs, rfl, hl, by simp [writtenBlocks, hw, hk', blockReplies], by simp [writtenBlocks, hw, hk']⟩

theorem blockReplies_append (h : Nat) (a b : List UInt32) :
    blockReplies h (a ++ b) = blockReplies h a ++ blockReplies (a.foldl (fun h n => max h n.toNat) h) b := by
  induction a generalizing h with
  | nil => rfl
  | cons n a ih => simp [blockReplies, ih]

theorem writtenBlocks_cons (wr : Nat → FileRes) (k : Nat) (b : Block) (bs : List Block) :
    writtenBlocks wr k (b :: bs) = writtenBlocks wr k [b] ++ writtenBlocks wr (k + 1) bs := by
  simp [writtenBlocks]

theorem session_replies {env : LogEnv} (ht : env.tbl 184 ≠ none) (he : ∀ i, env.wr i ≠ .err) : ∀ (ms : List Msg) (l : BinLog),
    (∀ m ∈ ms, BlockMsg m ∧ (blockIn m).seqno ≠ 0xFFFFFFFF) → (∃ c, l.base.file = some c) → l.base.startTimer = false →
    l.lastAcked ≠ 0xFFFFFFFF →
    (l.run env (ms.map .msg)).base.out = l.base.out ++
      blockReplies l.lastAcked.toNat (writtenBlocks env.wr l.base.nwrite (ms.map blockIn))
  | [], l, _, _, _, _ => by simp [BinLog.run, writtenBlocks, blockReplies]
  | m :: ms, l, hm, ⟨c, hf⟩, hs, hl => by
    obtain ⟨hm1, hm2⟩ := hm m List.mem_cons_self
    obtain ⟨p1, p2, p3, p4, p5, p6⟩ := process_replies hf hs (blockIn_length m) (he _) hl hm2
    have ih := session_replies ht he ms (l.process env (blockIn m)).count (fun x hx => hm x (List.mem_cons_of_mem _ hx)) p1 p2 p4
    have hstep : l.run env ((m :: ms).map .msg) = (l.process env (blockIn m)).count.run env (ms.map .msg) := by
      show (l.writeMsg env m).run env (ms.map .msg) = _
      rw [writeMsg_open hm1 ht hf hs]
    rw [hstep, ih]
    show (l.process env (blockIn m)).base.out ++ blockReplies (l.process env (blockIn m)).lastAcked.toNat
      (writtenBlocks env.wr (l.process env (blockIn m)).base.nwrite _) = _
    rw [p3, p5, p6, List.append_assoc, ← blockReplies_append, ← writtenBlocks_cons]
    rfl

/-- A message that brings a block while the file is open. -/
theorem writeMsg_take {env : LogEnv} {l : BinLog} {m : Msg} {c : List UInt8} (hm : BlockMsg m)
    (ht : env.tbl 184 ≠ none) (hf : l.base.file = some c) : l.writeMsg env m = l.takeBlock env (blockIn m) := by
  have h184 := hm.id
  have hl : l.base.learnTarget m = l.base := by
    unfold LogBase.learnTarget
    rw [if_neg (by rw [h184]; simp)]
  have ha : l.base.autoAct env m = .nothing := by
    unfold LogBase.autoAct
    split
    · rfl
    · split
      · rw [hf]; simp
      · rw [if_neg (by rw [h184]; simp)]
      · rfl
  have hauto : l.auto env m = l := by
    unfold BinLog.auto
    rw [ha]
  unfold BinLog.writeMsg
  rw [hl]
  show (if m.msgId ≠ 184 then l.auto env m else _) = _
  rw [if_neg (by simp [h184]), h184, if_neg ht]
  show (l.auto env m).takeBlock env (m.block env) = _
  rw [hauto, block_eq hm]

/-- **C47**, partial, for whole sessions: from the start of a log on, whatever blocks arrive in whatever order, the first one with
number 0, and however many bytes the file system takes of each, the messages sent are exactly the acknowledgement of each block
written completely, preceded by as many negative acknowledgements as there are numbers between the highest number acknowledged in
this session and the number of the block. Missing from C47: the numbers in the negative acknowledgements (`C47_violated`), number
2^32-1 (`C47_flood`). -/
theorem C47_session_partial (env : LogEnv) (l0 l : BinLog) (m : Msg) (ms : List Msg) (ht : env.tbl 184 ≠ none)
    (he : ∀ i, env.wr i ≠ .err) (hstart : l0.start env = (l, true)) (h0 : (blockIn m).seqno = 0)
    (hm : ∀ x ∈ m :: ms, BlockMsg x ∧ (blockIn x).seqno ≠ 0xFFFFFFFF) :
    (l.run env ((m :: ms).map .msg)).base.out = l.base.out ++
      blockReplies 0 (writtenBlocks env.wr l.base.nwrite ((m :: ms).map blockIn)) := by
  have hl : l.lastAcked = 0 ∧ l.base.file = some [] ∧ l.base.startTimer = true := by
    unfold BinLog.start LogBase.start at hstart
    by_cases h1 : l0.base.file.isSome = true
    · rw [if_pos h1] at hstart; cases hstart
    · rw [if_neg h1] at hstart
      by_cases h2 : env.startOk l0.base.nstart = true
      · rw [if_pos h2] at hstart; cases hstart; exact ⟨rfl, rfl, rfl⟩
      · rw [if_neg h2] at hstart; cases hstart
  obtain ⟨hl1, hl2, hl3⟩ := hl
  let l1 : BinLog := { l with base := { l.base with startTimer := false, aliveTimer := env.aliveOk } }
  have hm1 := (hm m List.mem_cons_self).1
  have hstep : l.writeMsg env m = l1.writeMsg env m := by
    rw [writeMsg_take hm1 ht hl2, writeMsg_open (l := l1) hm1 ht hl2 rfl]
    unfold BinLog.takeBlock
    rw [if_pos hl3, if_pos h0]
  have hrun : l.run env ((m :: ms).map .msg) = l1.run env ((m :: ms).map .msg) := by
    show (l.writeMsg env m).run env _ = (l1.writeMsg env m).run env _
    rw [hstep]
  rw [hrun]
  have := session_replies ht he (m :: ms) l1 hm ⟨_, hl2⟩ rfl (by show l.lastAcked ≠ _; rw [hl1]; decide)
  rw [this]
  show l.base.out ++ blockReplies l.lastAcked.toNat _ = _
  rw [hl1]
  rfl

/-- Blocks 0, 3, 1 and 4: two requests when block 3 arrives, none when the gap is filled or when block 4 arrives. -/
example : ∃ l, (BinLog.init (some 1) .always).start Sample.binEnv = (l, true) ∧
    (l.run Sample.binEnv ([Sample.binMsg 0 [1], Sample.binMsg 3 [2], Sample.binMsg 1 [3], Sample.binMsg 4 [3]].map .msg)).base.out =
      [.blockAck 0, .blockNack 3, .blockNack 3, .blockAck 3, .blockAck 1, .blockAck 4] := by
  refine ⟨_, rfl, ?_⟩
  decide +kernel

example : ∀ x ∈ [Sample.binMsg 0 [1], Sample.binMsg 3 [2], Sample.binMsg 1 [3]],
    BlockMsg x ∧ (blockIn x).seqno ≠ 0xFFFFFFFF := by
  intro x hx
  simp only [List.mem_cons, List.not_mem_nil, or_false] at hx
  rcases hx with rfl | rfl | rfl <;> exact ⟨⟨rfl, by decide, .inl rfl⟩, by decide +kernel⟩

end Verif
