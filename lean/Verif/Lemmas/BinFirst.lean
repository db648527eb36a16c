/- An ArduPilot log file begins with block 0. -/
import Verif.Lemmas.LogProto

namespace Verif

open Verif.Spec

/-- `BinHist`, with the order of writes: every file begins with block 0, nothing is written while
the start is pending, and afterwards something has been. -/
structure BinHist1 (l : BinLog) (ps : List Block) (dn : List (List BlockWrite)) (op : List BlockWrite) :
    Prop where
  hist : BinHist l ps dn op
  inv : TimerInv l.base
  closed : ∀ ws ∈ dn, FirstOk ws
  current : FirstOk op
  pending : l.base.startTimer = true → op = []
  begun : l.base.file.isSome = true → l.base.startTimer = false → op ≠ []

theorem BinHist1.same {l l' : BinLog} {ps dn op} (h : BinHist1 l ps dn op) (hs : BinSame l l')
    (hi : TimerInv l'.base) (ht : l'.base.startTimer = l.base.startTimer) : BinHist1 l' ps dn op :=
  ⟨h.hist.same hs, hi, h.closed, h.current, fun hc => h.pending (ht ▸ hc),
    fun h1 h2 => h.begun (hs.file ▸ h1) (ht ▸ h2)⟩

theorem BinHist1.stop {l : BinLog} {ps dn op} (h : BinHist1 l ps dn op) :
    ∃ dn', BinHist1 l.stop ps dn' [] ∧ l.stop.base.file = none := by
  have hi := (Mv.binStop l).inv h.inv
  unfold BinLog.stop at *
  rcases h.hist.file with ⟨hf, ho⟩ | hf
  · rw [if_pos hf] at *
    subst ho
    exact ⟨dn, h, hf⟩
  · have hne : ¬ l.base.file = none := by rw [hf]; simp
    rw [if_neg hne] at *
    refine ⟨dn ++ [op], ⟨⟨?_, .inl ⟨rfl, rfl⟩, ?_, ?_⟩, hi, ?_, ?_, fun _ => rfl, ?_⟩, rfl⟩
    · show (match l.base.file with | some c => l.base.done ++ [c] | none => l.base.done) = _
      rw [hf]
      show l.base.done ++ [laidOut op] = _
      rw [h.hist.done]
      simp
    · simpa using h.hist.from_
    · show acks (l.base.out ++ [LogOut.blockStop]) = _
      rw [acks_append]
      have := h.hist.acked
      simpa [acks] using this
    · intro ws hw
      rcases List.mem_append.mp hw with hw | hw
      · exact h.closed ws hw
      · rw [List.mem_singleton.mp hw]; exact h.current
    · intro w hw; cases hw
    · intro hc _; cases hc

theorem BinHist1.start {env : LogEnv} {l : BinLog} {ps dn} (h : BinHist1 l ps dn []) (hf : l.base.file = none) :
    BinHist1 (l.start env).1 ps dn [] := by
  have hi := (Mv.binStart (env := env) h.inv).inv h.inv
  refine ⟨h.hist.start, hi, h.closed, h.current, fun _ => rfl, ?_⟩
  intro h1 h2
  exfalso
  unfold BinLog.start LogBase.start at h1 h2
  rw [hf] at h1 h2
  simp only [Option.isSome_none, Bool.false_eq_true, if_false] at h1 h2
  by_cases hk : env.startOk l.base.nstart = true
  · rw [if_pos hk] at h2; cases h2
  · rw [if_neg hk] at h1; cases h1

theorem BinHist1.restart {env : LogEnv} {l : BinLog} {ps dn op} (h : BinHist1 l ps dn op) :
    ∃ dn', BinHist1 (l.restart env) ps dn' [] := by
  obtain ⟨dn', h', hf⟩ := h.stop
  exact ⟨dn', h'.start hf⟩

theorem BinHist1.skip {l : BinLog} {ps dn op} (p : Block) (h : BinHist1 l ps dn op) :
    BinHist1 l (ps ++ [p]) dn op := ⟨h.hist.skip p, h.inv, h.closed, h.current, h.pending, h.begun⟩

/-- Processing a block when the start is not pending: either this is block 0, or writes have been
made already. -/
theorem BinHist1.process {env : LogEnv} {l : BinLog} {ps dn op} {p : Block} (hp : p.data.length = 200)
    (hna : ∀ i, env.wr i ≠ .again) (h : BinHist l ps dn op) (hi : TimerInv l.base)
    (hst : l.base.startTimer = false) (hcl : ∀ ws ∈ dn, FirstOk ws) (hcur : FirstOk op)
    (hor : l.base.file.isSome = true → op ≠ [] ∨ p.seqno = 0) :
    ∃ dn' op', BinHist1 (l.process env p) (ps ++ [p]) dn' op' := by
  have hi' := (Mv.binProcess (env := env) p hi).inv hi
  unfold BinLog.process at hi' ⊢
  rcases h.file with ⟨hf, ho⟩ | hf
  · rw [hf]
    subst ho
    have h1 : BinHist1 l (ps ++ [p]) dn [] := ⟨h.skip p, hi, hcl, hcur, fun _ => rfl,
      fun hc _ => by rw [hf] at hc; cases hc⟩
    obtain ⟨dn', h2⟩ := h1.restart (env := env)
    exact ⟨dn', [], h2⟩
  · rw [hf] at hi' ⊢
    cases hw : env.wr l.base.nwrite with
    | n k =>
      rw [hw] at hi'
      simp only at hi' ⊢
      refine ⟨dn, op ++ [⟨p.seqno, p.data.take k⟩], ?_⟩
      have hlen : (p.data.take k).length = min k 200 := by rw [List.length_take, hp]
      have hfile : writeAt (laidOut op) (blockOffset p.seqno) (p.data.take k) =
          laidOut (op ++ [⟨p.seqno, p.data.take k⟩]) := (laidOut_snoc op ⟨p.seqno, p.data.take k⟩).symm
      have hfrom := h.from_.snocWrote p k
      rw [List.append_assoc] at hfrom
      have hfull : fullWrites (dn.flatten ++ (op ++ [⟨p.seqno, p.data.take k⟩])) =
          fullWrites (dn.flatten ++ op) ++ (if min k 200 = 200 then [p.seqno] else []) := by
        rw [← List.append_assoc, fullWrites_snoc, hlen]
      have hfirst : FirstOk (op ++ [⟨p.seqno, p.data.take k⟩]) := by
        intro w hw
        rcases hor (by rw [hf]; rfl) with hne | h0
        · cases hop : op with
          | nil => exact absurd hop hne
          | cons x op' =>
            rw [hop] at hw hcur
            exact hcur w (by simpa using hw)
        · cases hop : op with
          | nil =>
            rw [hop] at hw
            simp at hw
            rw [← hw]
            exact h0
          | cons x op' =>
            rw [hop] at hw hcur
            exact hcur w (by simpa using hw)
      rw [hp] at hi' ⊢
      by_cases hk : min k 200 = blockLen
      · rw [if_pos hk] at hi' ⊢
        have hk' : min k 200 = 200 := hk
        obtain ⟨h1, h2, h3⟩ := sendAck_base
          { l with base := { l.base with
              file := some (writeAt (laidOut op) (blockOffset p.seqno) (p.data.take k))
              nwrite := l.base.nwrite + 1 } } p.seqno
        have hst' : (BinLog.sendAck { l with base := { l.base with
              file := some (writeAt (laidOut op) (blockOffset p.seqno) (p.data.take k))
              nwrite := l.base.nwrite + 1 } } p.seqno).base.startTimer = false := by
          unfold BinLog.sendAck
          split <;> exact hst
        refine ⟨⟨h2.trans h.done, .inr (h1.trans (congrArg some hfile)), hfrom, ?_⟩, hi', hcl, hfirst, ?_,
          fun _ _ => by simp⟩
        · rw [h3, hfull, if_pos hk']
          show acks l.base.out ++ _ = _
          rw [h.acked]
        · intro hc; rw [hst'] at hc; cases hc
      · rw [if_neg hk] at hi' ⊢
        have hk' : ¬ min k 200 = 200 := hk
        refine ⟨⟨h.done, .inr (congrArg some hfile), hfrom, ?_⟩, hi', hcl, hfirst, ?_, fun _ _ => by simp⟩
        · rw [hfull, if_neg hk', List.append_nil]
          exact h.acked
        · intro hc
          replace hc : l.base.startTimer = true := hc
          rw [hst] at hc; cases hc
    | again => exact absurd hw (hna _)
    | err =>
      simp only
      -- the file is closed, a new one begins
      have hstop : ∃ dn', BinHist1 (BinLog.stop { l with base := { l.base with nwrite := l.base.nwrite + 1 } })
          (ps ++ [p]) dn' [] ∧
          (BinLog.stop { l with base := { l.base with nwrite := l.base.nwrite + 1 } }).base.file = none := by
        have hne : ¬ l.base.file = none := by rw [hf]; simp
        unfold BinLog.stop
        rw [if_neg hne]
        refine ⟨dn ++ [op], ⟨⟨?_, .inl ⟨rfl, rfl⟩, ?_, ?_⟩, ⟨?_, ?_, ?_⟩, ?_, ?_, fun _ => rfl, ?_⟩, rfl⟩
        · show (match l.base.file with | some c => l.base.done ++ [c] | none => l.base.done) = _
          rw [hf]
          show l.base.done ++ [laidOut op] = _
          rw [h.done]
          simp
        · simpa using h.from_.snocSkip p
        · show acks (l.base.out ++ [LogOut.blockStop]) = _
          rw [acks_append]
          have := h.acked
          simpa [acks] using this
        · intro hc; cases hc
        · intro hc; cases hc
        · intro hc; cases hc
        · intro ws hw
          rcases List.mem_append.mp hw with hw | hw
          · exact hcl ws hw
          · rw [List.mem_singleton.mp hw]; exact hcur
        · intro w hw; cases hw
        · intro hc _; cases hc
      obtain ⟨dn', h1, h2⟩ := hstop
      exact ⟨dn', [], h1.start h2⟩

theorem BinHist1.takeBlock {env : LogEnv} {l : BinLog} {ps dn op} {p : Block} (hp : p.data.length = 200)
    (hna : ∀ i, env.wr i ≠ .again) (h : BinHist1 l ps dn op) :
    ∃ dn' op', BinHist1 (l.takeBlock env p) (ps ++ [p]) dn' op' := by
  unfold BinLog.takeBlock
  have hcount : ∀ {l : BinLog} {ps dn op}, BinHist1 l ps dn op → BinHist1 l.count ps dn op := fun h =>
    h.same ⟨rfl, rfl, rfl⟩ ⟨h.inv.startOpen, h.inv.aliveOpen, h.inv.one⟩ rfl
  split
  · rename_i hst
    split
    · rename_i h0
      have hi : TimerInv { l.base with startTimer := false, aliveTimer := env.aliveOk } :=
        ⟨by simp, fun _ => h.inv.startOpen hst, by simp⟩
      have hh : BinHist { l with base := { l.base with startTimer := false, aliveTimer := env.aliveOk } } ps dn op :=
        h.hist.same ⟨rfl, rfl, rfl⟩
      obtain ⟨dn', op', h1⟩ := BinHist1.process (env := env) hp hna hh hi rfl h.closed h.current (fun _ => .inr h0)
      exact ⟨dn', op', hcount h1⟩
    · exact ⟨dn, op, (h.skip p).same (BinSame.send rfl) ⟨h.inv.startOpen, h.inv.aliveOpen, h.inv.one⟩ rfl⟩
  · rename_i hst
    have hst' : l.base.startTimer = false := by simpa using hst
    obtain ⟨dn', op', h1⟩ := BinHist1.process (env := env) hp hna h.hist h.inv hst' h.closed h.current
      (fun hop => .inl (h.begun hop hst'))
    exact ⟨dn', op', hcount h1⟩

theorem BinHist1.auto {env : LogEnv} {l : BinLog} {ps dn op} (m : Msg) (h : BinHist1 l ps dn op) :
    ∃ dn' op', BinHist1 (l.auto env m) ps dn' op' := by
  unfold BinLog.auto
  cases hact : l.base.autoAct env m with
  | nothing => exact ⟨dn, op, h⟩
  | start =>
    simp only []
    have hf : l.base.file = none := by
      unfold LogBase.autoAct at hact
      split at hact
      · cases hact
      · split at hact
        · split at hact
          · assumption
          · cases hact
        · split at hact
          · split at hact
            · rename_i hc; exact hc.1
            · split at hact <;> cases hact
          · cases hact
        · cases hact
    have ho : op = [] := by
      rcases h.hist.file with ⟨_, ho⟩ | hc
      · exact ho
      · rw [hf] at hc; cases hc
    subst ho
    have h1 := h.start (env := env) hf
    rcases hs : l.start env with ⟨l', b⟩
    rw [hs] at h1
    cases b with
    | true => exact ⟨dn, [], h1⟩
    | false => exact ⟨dn, [], h1.same ⟨rfl, rfl, rfl⟩ ⟨h1.inv.startOpen, h1.inv.aliveOpen, h1.inv.one⟩ rfl⟩
  | stop =>
    obtain ⟨dn', h', _⟩ := h.stop
    exact ⟨dn', [], h'⟩

theorem BinHist1.learn {l : BinLog} {ps dn op} (m : Msg) (h : BinHist1 l ps dn op) :
    BinHist1 { l with base := l.base.learnTarget m } ps dn op := by
  have hi := (Mv.learn l.base m).inv h.inv
  have : ({ l with base := l.base.learnTarget m } : BinLog).base.startTimer = l.base.startTimer := by
    show (l.base.learnTarget m).startTimer = _
    unfold LogBase.learnTarget
    split <;> rfl
  refine h.same ?_ hi this
  unfold LogBase.learnTarget
  split <;> exact ⟨rfl, rfl, rfl⟩

theorem BinHist1.step {env : LogEnv} {l : BinLog} {ps dn op} (hna : ∀ i, env.wr i ≠ .again) (ev : ULogEv)
    (h : BinHist1 l ps dn op) : ∃ dn' op', BinHist1 (l.step env ev) (ps ++ blockOfEv env ev) dn' op' := by
  cases ev with
  | msg m =>
    obtain ⟨dn', op', h1⟩ := (h.learn m).auto (env := env) m
    simp only [BinLog.step, BinLog.writeMsg, blockOfEv]
    by_cases h184 : m.msgId = 184
    · rw [if_neg (by simp [h184])]
      rw [h184]
      by_cases ht : env.tbl 184 = none
      · rw [if_pos ht, if_neg (by simp [ht]), List.append_nil]
        exact ⟨dn', op', h1⟩
      · rw [if_neg ht, if_pos ⟨rfl, ht⟩]
        exact h1.takeBlock (block_data_length env m) hna
    · rw [if_pos h184, if_neg (by simp [h184]), List.append_nil]
      exact ⟨dn', op', h1⟩
  | startTimeout =>
    simp only [BinLog.step, BinLog.startTimeout, blockOfEv, List.append_nil]
    split
    · exact ⟨dn, op, h.same (BinSame.send rfl) ⟨h.inv.startOpen, h.inv.aliveOpen, h.inv.one⟩ rfl⟩
    · exact ⟨dn, op, h⟩
  | aliveTimeout =>
    simp only [BinLog.step, BinLog.aliveTimeout, blockOfEv, List.append_nil]
    split
    · split
      · obtain ⟨dn', h1⟩ := h.restart (env := env)
        exact ⟨dn', [], h1.same ⟨rfl, rfl, rfl⟩ ⟨h1.inv.startOpen, h1.inv.aliveOpen, h1.inv.one⟩ rfl⟩
      · exact ⟨dn, op, h.same ⟨rfl, rfl, rfl⟩ ⟨h.inv.startOpen, h.inv.aliveOpen, h.inv.one⟩ rfl⟩
    · exact ⟨dn, op, h⟩
  | stop =>
    obtain ⟨dn', h', _⟩ := h.stop
    simp only [BinLog.step, blockOfEv, List.append_nil]
    exact ⟨dn', [], h'⟩

theorem BinHist1.run {env : LogEnv} {l : BinLog} {ps dn op} (hna : ∀ i, env.wr i ≠ .again) (evs : List ULogEv)
    (h : BinHist1 l ps dn op) :
    ∃ dn' op', BinHist1 (l.run env evs) (ps ++ evs.flatMap (blockOfEv env)) dn' op' := by
  induction evs generalizing l ps dn op with
  | nil => exact ⟨dn, op, by simpa [BinLog.run] using h⟩
  | cons ev evs ih =>
    obtain ⟨dn', op', h1⟩ := h.step (env := env) hna ev
    obtain ⟨dn'', op'', h2⟩ := ih h1
    refine ⟨dn'', op'', ?_⟩
    rw [List.flatMap_cons, ← List.append_assoc]
    exact h2

theorem binHist1_init (target : Option UInt8) (mode : LogMode) : BinHist1 (BinLog.init target mode) [] [] [] :=
  ⟨binHist_init target mode, ⟨(nomatch ·), (nomatch ·), (nomatch ·)⟩,
    by simp, (fun _ h => nomatch h), fun _ => rfl, (nomatch ·)⟩

end Verif
