import Verif.Spec.Armed
import Verif.Lemmas.BinHist
import Verif.Lemmas.ULogHist
import Verif.Lemmas.TLog

namespace Verif

open Verif.Spec

/-- The endpoint follows the specification state. -/
structure ArmInv (st : ArmSt) (b : LogBase) : Prop where
  mode : b.mode = .whileArmed
  target : b.target = st.sys
  file : b.file ≠ none ↔ st.armed = true

theorem and128 (b : UInt8) : (b &&& 128 != 0) = decide (128 ≤ b.toNat) := by
  have h : ∀ n : Fin 256, (UInt8.ofNat n.val &&& 128 != 0) = decide (128 ≤ (UInt8.ofNat n.val).toNat) := by
    decide +kernel
  have := h ⟨b.toNat, b.toNat_lt⟩
  simpa only [UInt8.ofNat_toNat] using this

theorem armed_eq {env : LogEnv} {m : Msg} (h0 : m.msgId = 0) (h : HbWhole m) : m.armed env = saysArmed m := by
  obtain ⟨h1, h2⟩ := h h0
  unfold Msg.armed saysArmed
  rw [and128]
  have : m.rawByte env 6 = payloadByte m 6 := by
    unfold Msg.rawByte payloadByte
    simp only [hdrLen_eq]
    rw [if_pos (by omega), List.getElem?_eq_getElem (by omega), List.getD_eq_getElem?_getD,
      List.getElem?_eq_getElem (by omega)]
    rfl
  rw [this]

/-- What the start/stop decision does to an endpoint that follows the specification. -/
theorem autoAct_arm {env : LogEnv} {st : ArmSt} {b : LogBase} {m : Msg} (h : ArmInv st b) (hm : HbWhole m) :
    (b.learnTarget m).mode = .whileArmed ∧ (b.learnTarget m).target = (st.msg m).sys ∧
    (b.learnTarget m).file = b.file ∧
    (((b.learnTarget m).autoAct env m = .nothing ∧ (st.msg m).armed = st.armed) ∨
     ((b.learnTarget m).autoAct env m = .start ∧ b.file = none ∧ (st.msg m).armed = true) ∨
     ((b.learnTarget m).autoAct env m = .stop ∧ b.file ≠ none ∧ (st.msg m).armed = false)) := by
  have ht : (b.learnTarget m).target = if st.sys = none ∧ AutopilotHb m then some m.srcSys else st.sys := by
    unfold LogBase.learnTarget AutopilotHb
    rw [h.target]
    by_cases hc : st.sys = none ∧ m.msgId = 0 ∧ m.srcComp = 1
    · rw [if_pos hc, if_pos hc]
    · rw [if_neg hc, if_neg hc]; exact h.target
  have hmode : (b.learnTarget m).mode = .whileArmed := by
    unfold LogBase.learnTarget
    split <;> exact h.mode
  have hfile : (b.learnTarget m).file = b.file := by
    unfold LogBase.learnTarget
    split <;> rfl
  have hsys : (st.msg m).sys = if st.sys = none ∧ AutopilotHb m then some m.srcSys else st.sys := by
    unfold ArmSt.msg
    simp only
    by_cases hc : AutopilotHb m ∧ (if st.sys = none ∧ AutopilotHb m then some m.srcSys else st.sys) = some m.srcSys
    · rw [if_pos hc]
    · rw [if_neg hc]
  refine ⟨hmode, ht.trans hsys.symm, hfile, ?_⟩
  have harm : (st.msg m).armed =
      if AutopilotHb m ∧ (st.msg m).sys = some m.srcSys then saysArmed m else st.armed := by
    rw [hsys]
    unfold ArmSt.msg
    simp only
    by_cases hc : AutopilotHb m ∧ (if st.sys = none ∧ AutopilotHb m then some m.srcSys else st.sys) = some m.srcSys
    · rw [if_pos hc, if_pos hc]
    · rw [if_neg hc, if_neg hc]
  rw [← hsys] at ht
  unfold LogBase.autoAct
  rw [hmode, hfile, ht, harm]
  by_cases hhb : AutopilotHb m ∧ (st.msg m).sys = some m.srcSys
  · obtain ⟨⟨h0, h1⟩, h2⟩ := hhb
    have hne : ¬ (st.msg m).sys = none := by rw [h2]; simp
    rw [if_pos (⟨⟨h0, h1⟩, h2⟩ : AutopilotHb m ∧ (st.msg m).sys = some m.srcSys)]
    simp only [if_neg hne]
    rw [if_pos ⟨h0, h2, h1⟩, armed_eq h0 hm]
    cases hs : saysArmed m with
    | true =>
      by_cases hf : b.file = none
      · right; left
        rw [if_pos ⟨hf, rfl⟩]
        exact ⟨rfl, hf, rfl⟩
      · left
        rw [if_neg (fun hc => hf hc.1), if_neg (fun hc => hc.2 rfl)]
        exact ⟨rfl, (h.file.mp hf).symm⟩
    | false =>
      by_cases hf : b.file = none
      · left
        rw [if_neg (fun hc => by cases hc.2), if_neg (fun hc => hc.1 hf)]
        refine ⟨rfl, ?_⟩
        cases ha : st.armed with
        | false => rfl
        | true => exact absurd hf (h.file.mpr ha)
      · right; right
        rw [if_neg (fun hc => by cases hc.2), if_pos ⟨hf, by simp⟩]
        exact ⟨rfl, hf, rfl⟩
  · left
    rw [if_neg hhb]
    refine ⟨?_, rfl⟩
    by_cases hn : (st.msg m).sys = none
    · rw [if_pos hn]
    · rw [if_neg hn]
      simp only
      rw [if_neg (fun hc => hhb ⟨⟨hc.1, hc.2.2⟩, hc.2.1⟩)]

theorem start_ok {env : LogEnv} {b : LogBase} (hs : StartsOk env) (hf : b.file = none) :
    ∃ b', b.start env = (b', true) ∧ b'.file = some [] ∧ b'.mode = b.mode ∧ b'.target = b.target := by
  refine ⟨{ b with file := some [], startTimer := true, nstart := b.nstart + 1 }, ?_, rfl, rfl, rfl⟩
  unfold LogBase.start
  rw [hf]
  simp only [Option.isSome_none, Bool.false_eq_true, if_false]
  rw [if_pos (hs _)]

/-- The invariant only depends on mode, target and whether a file is open. -/
theorem ArmInv.same {st : ArmSt} {b b' : LogBase} (h : ArmInv st b) (h1 : b'.mode = b.mode)
    (h2 : b'.target = b.target) (h3 : b'.file ≠ none ↔ b.file ≠ none) : ArmInv st b' :=
  ⟨h1.trans h.mode, h2.trans h.target, h3.trans h.file⟩

/-! ### TLog -/

theorem tlogStep_arm {env : LogEnv} {st : ArmSt} {b : LogBase} (ev : TLogEv) (hs : StartsOk env)
    (hm : HbWhole ev.msg) (h : ArmInv st b) : ArmInv (st.msg ev.msg) (tlogWriteMsg env b ev.now ev.msg) := by
  have hwr : ∀ (b : LogBase) x, (b.write env x).1.mode = b.mode ∧ (b.write env x).1.target = b.target ∧
      ((b.write env x).1.file ≠ none ↔ b.file ≠ none) := by
    intro b x
    unfold LogBase.write
    cases hf : b.file with
    | none => exact ⟨rfl, rfl, by rw [hf]⟩
    | some c => cases env.wr b.nwrite <;> simp
  have hauto : ArmInv (st.msg ev.msg) (tlogAuto env (b.learnTarget ev.msg) ev.msg) := by
    obtain ⟨h1, h2, h3, h4⟩ := autoAct_arm (env := env) h hm
    unfold tlogAuto
    rcases h4 with ⟨ha, har⟩ | ⟨ha, hf, har⟩ | ⟨ha, hf, har⟩
    · rw [ha]
      exact ⟨h1, h2, by rw [h3, har]; exact h.file⟩
    · rw [ha]
      obtain ⟨b', e, e1, e2, e3⟩ := start_ok hs (h3.trans hf)
      simp only [e]
      exact ⟨e2.trans h1, e3.trans h2, by rw [e1, har]; simp⟩
    · rw [ha]
      show ArmInv _ (tlogStop _)
      unfold tlogStop
      rw [if_neg (by rw [h3]; exact hf)]
      exact ⟨h1, h2, by rw [har]; simp [LogBase.stop]⟩
  unfold tlogWriteMsg
  simp only
  obtain ⟨a1, a2, a3⟩ := hwr (tlogAuto env (b.learnTarget ev.msg) ev.msg) (be64 ev.now)
  obtain ⟨c1, c2, c3⟩ := hwr ((tlogAuto env (b.learnTarget ev.msg) ev.msg).write env (be64 ev.now)).1 ev.msg.data
  exact hauto.same (c1.trans a1) (c2.trans a2) (c3.trans a3)

/-! ### BinLog -/

theorem binStart_arm {env : LogEnv} {l : BinLog} (hs : StartsOk env) (hf : l.base.file = none) :
    ∃ l', l.start env = (l', true) ∧ l'.base.file = some [] ∧ l'.base.mode = l.base.mode ∧
      l'.base.target = l.base.target := by
  obtain ⟨b', e, e1, e2, e3⟩ := start_ok hs hf
  refine ⟨{ base := b', lastAcked := 0 }, ?_, e1, e2, e3⟩
  unfold BinLog.start
  rw [e]

theorem binRestart_arm {env : LogEnv} {l : BinLog} (hs : StartsOk env) :
    (l.restart env).base.file ≠ none ∧ (l.restart env).base.mode = l.base.mode ∧
      (l.restart env).base.target = l.base.target := by
  unfold BinLog.restart
  have hst : l.stop.base.file = none ∧ l.stop.base.mode = l.base.mode ∧ l.stop.base.target = l.base.target := by
    unfold BinLog.stop
    split
    · exact ⟨by assumption, rfl, rfl⟩
    · exact ⟨rfl, rfl, rfl⟩
  obtain ⟨l', e, e1, e2, e3⟩ := binStart_arm hs hst.1
  rw [e]
  exact ⟨by rw [e1]; simp, e2.trans hst.2.1, e3.trans hst.2.2⟩

theorem binProcess_arm {env : LogEnv} {l : BinLog} (hs : StartsOk env) (p : Block) :
    (l.process env p).base.file ≠ none ∧ (l.process env p).base.mode = l.base.mode ∧
      (l.process env p).base.target = l.base.target := by
  unfold BinLog.process
  cases hf : l.base.file with
  | none => exact binRestart_arm hs
  | some c =>
    have hack : ∀ (l : BinLog) n, (l.sendAck n).base.mode = l.base.mode ∧ (l.sendAck n).base.target = l.base.target := by
      intro l n
      unfold BinLog.sendAck
      split <;> exact ⟨rfl, rfl⟩
    cases env.wr l.base.nwrite with
    | n k =>
      simp only
      split
      · refine ⟨?_, (hack _ _).1, (hack _ _).2⟩
        rw [(sendAck_base _ _).1]
        simp
      · exact ⟨by simp, rfl, rfl⟩
    | again => exact ⟨by simp [hf], rfl, rfl⟩
    | err => exact binRestart_arm hs

theorem binStep_arm {env : LogEnv} {st : ArmSt} {l : BinLog} (m : Msg) (hs : StartsOk env) (hm : HbWhole m)
    (hd : LogData m → st.armed = true) (h : ArmInv st l.base) : ArmInv (st.msg m) (l.writeMsg env m).base := by
  have hauto : ArmInv (st.msg m) (BinLog.auto env { l with base := l.base.learnTarget m } m).base := by
    obtain ⟨h1, h2, h3, h4⟩ := autoAct_arm (env := env) h hm
    unfold BinLog.auto
    rcases h4 with ⟨ha, har⟩ | ⟨ha, hf, har⟩ | ⟨ha, hf, har⟩
    · rw [ha]
      exact ⟨h1, h2, by rw [har]; exact (by rw [h3] : _ ↔ _).trans h.file⟩
    · rw [ha]
      obtain ⟨l', e, e1, e2, e3⟩ := binStart_arm (l := { l with base := l.base.learnTarget m }) hs (h3.trans hf)
      simp only [e]
      exact ⟨e2.trans h1, e3.trans h2, by rw [e1, har]; simp⟩
    · rw [ha]
      show ArmInv _ (BinLog.stop _).base
      unfold BinLog.stop
      rw [if_neg (by show ¬ (l.base.learnTarget m).file = none; rw [h3]; exact hf)]
      exact ⟨h1, h2, by rw [har]; simp [LogBase.stop]⟩
  unfold BinLog.writeMsg
  simp only
  split
  · exact hauto
  · rename_i hid
    split
    · exact hauto
    · have h184 : m.msgId = 184 := by
        by_cases hc : m.msgId = 184
        · exact hc
        · exact absurd hc hid
      have hopen : (BinLog.auto env { l with base := l.base.learnTarget m } m).base.file ≠ none := by
        rw [hauto.file]
        have : (st.msg m).armed = st.armed := by
          unfold ArmSt.msg
          simp only
          rw [if_neg (fun hc => by rw [hc.1.1] at h184; cases h184)]
        rw [this]
        exact hd (.inl h184)
      generalize BinLog.auto env { l with base := l.base.learnTarget m } m = l1 at *
      unfold BinLog.takeBlock
      split
      · split
        · obtain ⟨p1, p2, p3⟩ := binProcess_arm (l := { l1 with base :=
              { l1.base with startTimer := false, aliveTimer := env.aliveOk } }) hs (m.block env)
          exact hauto.same p2 p3 (by simp only [BinLog.count]; exact iff_of_true p1 hopen)
        · exact hauto.same rfl rfl Iff.rfl
      · obtain ⟨p1, p2, p3⟩ := binProcess_arm (l := l1) hs (m.block env)
        exact hauto.same p2 p3 (by simp only [BinLog.count]; exact iff_of_true p1 hopen)

/-- Timers exist only while a file is open. -/
def TimersOk (b : LogBase) : Prop := b.startTimer = true ∨ b.aliveTimer = true → b.file ≠ none

theorem TimersOk.start {env : LogEnv} {b : LogBase} (h : TimersOk b) : TimersOk (b.start env).1 := by
  unfold LogBase.start
  split
  · exact h
  · rename_i hf
    have hn : b.file = none := by
      cases hb : b.file with
      | none => rfl
      | some c => rw [hb] at hf; exact absurd rfl hf
    split
    · intro _; simp
    · intro hc
      rcases hc with hc | hc
      · cases hc
      · exact absurd hn (h (.inr hc))

theorem TimersOk.stop {b : LogBase} : TimersOk b.stop := by
  intro hc
  rcases hc with hc | hc <;> cases hc

theorem TimersOk.learn {b : LogBase} (m : Msg) (h : TimersOk b) : TimersOk (b.learnTarget m) := by
  unfold LogBase.learnTarget
  split <;> exact h

theorem TimersOk.binStart {env : LogEnv} {l : BinLog} (h : TimersOk l.base) : TimersOk (l.start env).1.base := by
  have := h.start (env := env)
  unfold BinLog.start
  split
  all_goals
    rename_i b e
    rw [e] at this
    exact this

theorem TimersOk.binStop {l : BinLog} (h : TimersOk l.base) : TimersOk l.stop.base := by
  unfold BinLog.stop
  split
  · exact h
  · exact TimersOk.stop

theorem TimersOk.binAuto {env : LogEnv} {l : BinLog} (m : Msg) (h : TimersOk l.base) :
    TimersOk (l.auto env m).base := by
  unfold BinLog.auto
  split
  · exact h
  · have := h.binStart (env := env)
    split
    all_goals
      rename_i l' e
      rw [e] at this
      exact this
  · exact h.binStop

theorem TimersOk.binMsg {env : LogEnv} {l : BinLog} (m : Msg) (hs : StartsOk env) (h : TimersOk l.base) :
    TimersOk (l.writeMsg env m).base := by
  have h1 : TimersOk (BinLog.auto env { l with base := l.base.learnTarget m } m).base :=
    TimersOk.binAuto m (h.learn m)
  unfold BinLog.writeMsg
  simp only
  split
  · exact h1
  · split
    · exact h1
    · unfold BinLog.takeBlock
      split
      · split
        · exact fun _ => (binProcess_arm hs _).1
        · exact h1
      · exact fun _ => (binProcess_arm hs _).1

theorem binRun_arm {env : LogEnv} (hs : StartsOk env) (evs : List ULogEv) (hstop : ULogEv.stop ∉ evs)
    (hm : ∀ m ∈ messages evs, HbWhole m) (st : ArmSt) (l : BinLog) (hd : DataWhileArmed st (messages evs))
    (h : ArmInv st l.base) (ht : TimersOk l.base) : ArmInv (st.msgs (messages evs)) (l.run env evs).base := by
  induction evs generalizing st l with
  | nil => exact h
  | cons ev evs ih =>
    have hstop' : ULogEv.stop ∉ evs := fun hc => hstop (List.mem_cons_of_mem _ hc)
    cases ev with
    | msg m =>
      have hm' : ∀ x ∈ messages evs, HbWhole x := fun x hx => hm x (List.mem_cons_of_mem m hx)
      exact ih hstop' hm' (st.msg m) (l.writeMsg env m) hd.2
        (binStep_arm m hs (hm m (List.mem_cons_self ..)) hd.1 h) (ht.binMsg m hs)
    | startTimeout =>
      have h1 : ArmInv st (l.startTimeout).base ∧ TimersOk (l.startTimeout).base := by
        unfold BinLog.startTimeout
        split
        · exact ⟨h.same rfl rfl Iff.rfl, ht⟩
        · exact ⟨h, ht⟩
      exact ih hstop' hm st _ hd h1.1 h1.2
    | aliveTimeout =>
      have h1 : ArmInv st (l.aliveTimeout env).base ∧ TimersOk (l.aliveTimeout env).base := by
        unfold BinLog.aliveTimeout
        split
        · rename_i ha
          have hopen := ht (.inr ha)
          simp only
          split
          · obtain ⟨r1, r2, r3⟩ := binRestart_arm (l := l) hs
            exact ⟨h.same r2 r3 (iff_of_true r1 hopen), fun _ => r1⟩
          · exact ⟨h.same rfl rfl Iff.rfl, ht⟩
        · exact ⟨h, ht⟩
      exact ih hstop' hm st _ hd h1.1 h1.2
    | stop => exact absurd (List.mem_cons_self ..) hstop

/-! ### ULog -/

theorem ulogStart_arm {env : LogEnv} {u : ULog} (hs : StartsOk env) (hf : u.base.file = none) :
    ∃ u', u.start env = (u', true) ∧ u'.base.file = some [] ∧ u'.base.mode = u.base.mode ∧
      u'.base.target = u.base.target := by
  obtain ⟨b', e, e1, e2, e3⟩ := start_ok hs hf
  refine ⟨{ u with base := b', waitHdr := true, waitFirst := false, expSeq := 0, pend := [], idx := 0, part := [] },
    ?_, e1, e2, e3⟩
  unfold ULog.start
  rw [e]

/-- Flushing keeps mode, target, timers and whether a file is open. -/
theorem FlushRel.arm {u v : ULog} (h : FlushRel u v) : v.base.mode = u.base.mode ∧ v.base.target = u.base.target ∧
    v.base.startTimer = u.base.startTimer ∧ v.base.aliveTimer = u.base.aliveTimer := by
  obtain ⟨f, n, e⟩ := h.base
  rw [e]
  exact ⟨rfl, rfl, rfl, rfl⟩

theorem write_open (env : LogEnv) (b : LogBase) (x : List UInt8) :
    (b.write env x).1.file ≠ none ↔ b.file ≠ none := by
  unfold LogBase.write
  cases hf : b.file with
  | none => rw [hf]
  | some c => cases env.wr b.nwrite <;> simp

theorem flushPart_open (env : LogEnv) (fuel : Nat) (b : LogBase) (p : List UInt8) :
    (flushPart env fuel b p).1.file ≠ none ↔ b.file ≠ none := by
  induction fuel generalizing b p with
  | zero => cases p <;> exact Iff.rfl
  | succ fuel ih =>
    cases p with
    | nil => exact Iff.rfl
    | cons x p =>
      have hw := write_open env b (x :: p)
      simp only [flushPart]
      split
      all_goals
        rename_i b' e
        rw [e] at hw
        first
          | exact hw
          | exact (ih _ _).trans hw

theorem flushBuf_open (env : LogEnv) (fuel : Nat) (u u' : ULog) (r : Bool)
    (h : flushBuf env fuel u = some (u', r)) : u'.base.file ≠ none ↔ u.base.file ≠ none := by
  induction fuel generalizing u with
  | zero => cases h; exact Iff.rfl
  | succ fuel ih =>
    simp only [flushBuf] at h
    split at h
    · cases h; exact Iff.rfl
    · split at h
      · cases h; exact Iff.rfl
      · have hw := write_open env u.base (u.pend.take (fullSize u.pend))
        split at h
        · rename_i b e
          rw [e] at hw; cases h; exact hw
        · rename_i b e
          rw [e] at hw; cases h; exact hw
        · rename_i b k e
          rw [e] at hw
          split at h
          · split at h
            · cases h
            · exact (ih _ h).trans hw
          · split at h
            · cases h; exact hw
            · split at h
              · cases h; exact hw
              · cases h; exact hw

theorem flush_open {env : LogEnv} {u u' : ULog} {r : Bool} (h : u.flush env = some (u', r)) :
    u'.base.file ≠ none ↔ u.base.file ≠ none := by
  unfold ULog.flush at h
  have hp := flushPart_open env u.part.length u.base u.part
  split at h
  · rename_i b p e
    rw [e] at hp
    exact (flushBuf_open env _ _ _ _ h).trans hp
  · rename_i b p e
    rw [e] at hp
    cases h; exact hp
  · rename_i b p e
    rw [e] at hp
    cases h; exact hp

/-- Mode, target, timers and the openness of the file are the same. -/
structure ArmSame (b b' : LogBase) : Prop where
  mode : b'.mode = b.mode
  target : b'.target = b.target
  start : b'.startTimer = b.startTimer
  alive : b'.aliveTimer = b.aliveTimer
  file : b'.file ≠ none ↔ b.file ≠ none

theorem ArmSame.refl (b : LogBase) : ArmSame b b := ⟨rfl, rfl, rfl, rfl, Iff.rfl⟩

theorem ArmSame.trans {a b c : LogBase} (h : ArmSame a b) (h' : ArmSame b c) : ArmSame a c :=
  ⟨h'.mode.trans h.mode, h'.target.trans h.target, h'.start.trans h.start, h'.alive.trans h.alive,
    h'.file.trans h.file⟩

theorem flush_same {env : LogEnv} {u u' : ULog} {r : Bool} (h : u.flush env = some (u', r)) :
    ArmSame u.base u'.base := by
  obtain ⟨h1, h2, h3, h4⟩ := (flush_spec env u u' r h).arm
  exact ⟨h1, h2, h3, h4, flush_open h⟩

theorem append_same {env : LogEnv} {u u' : ULog} {p q : Pkt} {drops : Bool}
    (h : u.append env p drops = some (u', q)) : ArmSame u.base u'.base := by
  unfold ULog.append at h
  have hstore : ∀ {v v' : ULog} {p q : Pkt}, v.store env p = some (v', q) → ArmSame v.base v'.base := by
    intro v v' p q h
    rw [store_eq] at h
    split at h
    · cases h; exact ArmSame.refl _
    · split at h
      · cases h; exact ArmSame.refl _
      · split at h
        · cases h
        · rename_i w r e
          cases h
          have h0 := flush_same e
          exact ⟨h0.mode, h0.target, h0.start, h0.alive, h0.file⟩
  have hroom : ∀ (v : ULog) n, (v.makeRoom n).base = v.base := by
    intro v n
    unfold ULog.makeRoom
    simp only
    split <;> split <;> rfl
  split at h
  · cases h
  · rename_i v hv
    have h1 : ArmSame u.base v.base := by
      unfold ULog.afterLoss at hv
      split at hv
      · split at hv
        · cases hv
        · rename_i w r e
          cases hv
          have h0 := flush_same e
          exact ⟨h0.mode, h0.target, h0.start, h0.alive, h0.file⟩
      · cases hv; exact ArmSame.refl _
    have h2 := hstore h
    rw [hroom] at h2
    exact h1.trans h2

theorem ulogStop_arm {env : LogEnv} {u v : ULog} (h : u.stop env = some v) :
    v.base.file = none ∧ v.base.mode = u.base.mode ∧ v.base.target = u.base.target ∧
      (TimersOk u.base → TimersOk v.base) := by
  rcases stop_spec env u v h with ⟨hf, rfl⟩ | ⟨w, c, _, hr, rfl⟩
  · exact ⟨hf, rfl, rfl, id⟩
  · obtain ⟨h1, h2, _⟩ := hr.arm
    exact ⟨rfl, h1, h2, fun _ => TimersOk.stop⟩

theorem ulogRestart_arm {env : LogEnv} {u v : ULog} (hs : StartsOk env) (h : u.restart env = some v) :
    v.base.file ≠ none ∧ v.base.mode = u.base.mode ∧ v.base.target = u.base.target := by
  unfold ULog.restart at h
  split at h
  · cases h
  · rename_i w hw
    obtain ⟨h1, h2, h3, _⟩ := ulogStop_arm hw
    obtain ⟨u', e, e1, e2, e3⟩ := ulogStart_arm hs h1
    rw [e] at h
    cases h
    exact ⟨by rw [e1]; simp, e2.trans h2, e3.trans h3⟩

theorem ulogProcess_arm {env : LogEnv} {u v : ULog} {p q : Pkt} (hs : StartsOk env)
    (h : u.process env p = some (v, q)) (hf : u.base.file ≠ none) :
    v.base.file ≠ none ∧ v.base.mode = u.base.mode ∧ v.base.target = u.base.target := by
  unfold ULog.process at h
  split at h
  · cases h; exact ⟨hf, rfl, rfl⟩
  · rename_i drops exp _
    simp only at h
    split at h
    · split at h
      · cases hr : ULog.restart env { u with expSeq := exp } with
        | none => rw [hr] at h; cases h
        | some w =>
          rw [hr] at h
          cases h
          obtain ⟨r1, r2, r3⟩ := ulogRestart_arm hs hr
          exact ⟨r1, r2, r3⟩
      · have := append_same h
        exact ⟨this.file.mpr hf, this.mode, this.target⟩
    · have := append_same h
      exact ⟨this.file.mpr hf, this.mode, this.target⟩

theorem ulogStep_arm {env : LogEnv} {st : ArmSt} {u v : ULog} {d : List UInt8} (m : Msg) (hs : StartsOk env)
    (hm : HbWhole m) (hd : LogData m → st.armed = true) (h : ArmInv st u.base) (ht : TimersOk u.base)
    (hr : u.writeMsg env m = some (v, d)) : ArmInv (st.msg m) v.base ∧ TimersOk v.base := by
  unfold ULog.writeMsg at hr
  cases ha : ULog.auto env { u with base := u.base.learnTarget m } m with
  | none => rw [ha] at hr; cases hr
  | some u1 =>
    rw [ha] at hr
    simp only at hr
    have hauto : ArmInv (st.msg m) u1.base ∧ TimersOk u1.base := by
      obtain ⟨h1, h2, h3, h4⟩ := autoAct_arm (env := env) h hm
      unfold ULog.auto at ha
      rcases h4 with ⟨hact, har⟩ | ⟨hact, hf, har⟩ | ⟨hact, hf, har⟩
      · rw [hact] at ha
        cases ha
        exact ⟨⟨h1, h2, by rw [har]; exact (by rw [h3] : _ ↔ _).trans h.file⟩, ht.learn m⟩
      · rw [hact] at ha
        obtain ⟨u', e, e1, e2, e3⟩ := ulogStart_arm (u := { u with base := u.base.learnTarget m }) hs (h3.trans hf)
        simp only [e] at ha
        cases ha
        exact ⟨⟨e2.trans h1, e3.trans h2, by rw [e1, har]; simp⟩, fun _ => by rw [e1]; simp⟩
      · rw [hact] at ha
        obtain ⟨s1, s2, s3, s4⟩ := ulogStop_arm ha
        exact ⟨⟨s2.trans h1, s3.trans h2, by rw [s1, har]; simp⟩, s4 (ht.learn m)⟩
    obtain ⟨hinv, htim⟩ := hauto
    split at hr
    · cases hr; exact ⟨hinv, htim⟩
    · split at hr
      · cases hr; exact ⟨hinv, htim⟩
      · split at hr
        · cases hr
          unfold ULog.commandAck
          split
          · exact ⟨hinv, htim⟩
          · rename_i hc
            have hst : u1.base.startTimer = true := by
              cases hb : u1.base.startTimer with
              | true => rfl
              | false => exact absurd (.inl (by rw [hb]; rfl)) hc
            split
            · exact ⟨hinv.same rfl rfl Iff.rfl, fun _ => htim (.inl hst)⟩
            · exact ⟨hinv.same rfl rfl Iff.rfl, htim⟩
        · rename_i hid _ h77
          have hdata : LogData m := by
            by_cases h1 : m.msgId = 267
            · exact .inr (.inr h1)
            · by_cases h2 : m.msgId = 266
              · exact .inr (.inl h2)
              · exact absurd ⟨h77, h1, h2⟩ hid
          have hopen : u1.base.file ≠ none := by
            rw [hinv.file]
            have : (st.msg m).armed = st.armed := by
              unfold ArmSt.msg
              simp only
              rw [if_neg (fun hc => by
                rcases hdata with hx | hx | hx <;> rw [hc.1.1] at hx <;> cases hx)]
            rw [this]
            exact hd hdata
          have hack : ArmSame u1.base (u1.acknowledge env m).base := by
            unfold ULog.acknowledge
            simp only
            split <;> exact ⟨rfl, rfl, rfl, rfl, Iff.rfl⟩
          cases hp : (u1.acknowledge env m).process env (m.pkt env) with
          | none => rw [hp] at hr; cases hr
          | some r =>
            obtain ⟨w, q⟩ := r
            rw [hp] at hr
            cases hr
            obtain ⟨p1, p2, p3⟩ := ulogProcess_arm hs hp (hack.file.mpr hopen)
            exact ⟨hinv.same (p2.trans hack.mode) (p3.trans hack.target)
              (by simp only [ULog.count]; exact iff_of_true p1 hopen), fun _ => p1⟩

theorem ulogRun_arm {env : LogEnv} (hs : StartsOk env) (evs : List ULogEv) (hstop : ULogEv.stop ∉ evs)
    (hm : ∀ m ∈ messages evs, HbWhole m) (st : ArmSt) (u v : ULog) (hd : DataWhileArmed st (messages evs))
    (h : ArmInv st u.base) (ht : TimersOk u.base) (hr : u.run env evs = some v) :
    ArmInv (st.msgs (messages evs)) v.base := by
  induction evs generalizing st u with
  | nil => cases hr; exact h
  | cons ev evs ih =>
    have hstop' : ULogEv.stop ∉ evs := fun hc => hstop (List.mem_cons_of_mem _ hc)
    simp only [ULog.run] at hr
    cases hstep : u.step env ev with
    | none => rw [hstep] at hr; cases hr
    | some w =>
      rw [hstep] at hr
      simp only at hr
      cases ev with
      | msg m =>
        have hm' : ∀ x ∈ messages evs, HbWhole x := fun x hx => hm x (List.mem_cons_of_mem m hx)
        simp only [ULog.step] at hstep
        cases hwm : u.writeMsg env m with
        | none => rw [hwm] at hstep; cases hstep
        | some r =>
          rw [hwm] at hstep
          cases hstep
          obtain ⟨h1, h2⟩ := ulogStep_arm m hs (hm m (List.mem_cons_self ..)) hd.1 h ht
            (show u.writeMsg env m = some (r.1, r.2) from hwm)
          exact ih hstop' hm' (st.msg m) r.1 hd.2 h1 h2 hr
      | startTimeout =>
        simp only [ULog.step] at hstep
        cases hstep
        have h1 : ArmInv st (u.startTimeout).base ∧ TimersOk (u.startTimeout).base := by
          unfold ULog.startTimeout
          split
          · exact ⟨h.same rfl rfl Iff.rfl, ht⟩
          · exact ⟨h, ht⟩
        exact ih hstop' hm st _ hd h1.1 h1.2 hr
      | aliveTimeout =>
        simp only [ULog.step] at hstep
        have h1 : ArmInv st w.base ∧ TimersOk w.base := by
          unfold ULog.aliveTimeout at hstep
          split at hstep
          · rename_i ha
            have hopen := ht (.inr ha)
            simp only at hstep
            split at hstep
            · cases hrs : u.restart env with
              | none => rw [hrs] at hstep; cases hstep
              | some x =>
                rw [hrs] at hstep
                cases hstep
                obtain ⟨r1, r2, r3⟩ := ulogRestart_arm hs hrs
                exact ⟨h.same r2 r3 (iff_of_true r1 hopen), fun _ => r1⟩
            · cases hstep
              exact ⟨h.same rfl rfl Iff.rfl, ht⟩
          · cases hstep
            exact ⟨h, ht⟩
        exact ih hstop' hm st _ hd h1.1 h1.2 hr
      | stop => exact absurd (List.mem_cons_self ..) hstop

end Verif
