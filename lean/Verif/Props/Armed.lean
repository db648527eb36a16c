/-
C42: log files and the armed state of the logged autopilot.
-/
import Verif.Lemmas.Armed
import Verif.Props.TLog
import Verif.Spec.BinLogSamples
import Verif.Spec.Samples

namespace Verif

open Verif.Spec

/-! In while-armed mode, a log file is open iff the last heartbeat of the logged autopilot said
armed, and none is created while it is disarmed. -/

/-- C42 fails for the ArduPilot log: a log block that arrives while the vehicle is disarmed creates
a log file (`lseek` on the closed file fails, which restarts the log). -/
theorem C42_violated : ∃ evs : List ULogEv,
    ((BinLog.init (some 1) .whileArmed).run Sample.binEnv evs).base.file = some [] ∧
    (({ sys := some 1 } : ArmSt).msgs (messages evs)).armed = false :=
  ⟨[.msg (Sample.logHb 1 1 3 0), .msg (Sample.binMsg 0 [1, 2])], by decide +kernel, by decide +kernel⟩

/-- C42 fails for the PX4 log likewise: log data that do not start with a ULog header restart the
log. -/
theorem C42_violated_ulog : ∃ (evs : List ULogEv) (u : ULog),
    (ULog.init (some 1) .whileArmed).run Sample.binEnv evs = some u ∧ u.base.file = some [] ∧
    (({ sys := some 1 } : ArmSt).msgs (messages evs)).armed = false :=
  ⟨[.msg (Sample.logHb 1 1 12 0), .msg (Sample.ulogMsg 0 20 0 [1, 2])],
    ((ULog.init (some 1) .whileArmed).run Sample.binEnv
      [.msg (Sample.logHb 1 1 12 0), .msg (Sample.ulogMsg 0 20 0 [1, 2])]).get (by decide +kernel),
    by rw [Option.some_get], by decide +kernel, by decide +kernel⟩

/-- A heartbeat whose trailing zero bytes, `base_mode` among them, were not transmitted. -/
def Sample.hbTrimmed : Msg :=
  { data := [0xFD, 6, 0, 0, 0, 1, 1, 0, 0, 0] ++ [0, 0, 0, 0, 2, 3] ++ [0x34 ||| 0x80, 0x12]
    msgId := 0, targetSys := -1, targetComp := -1, srcSys := 1, srcComp := 1, payloadLen := 6
    payloadOfs := some 10 }

/-- C42 fails for heartbeats with `base_mode` trimmed: the flag is read from the checksum. -/
theorem C42_violated_trimmed :
    (tlogRun Sample.binEnv (tlogInit (some 1) .whileArmed) [⟨0, Sample.hbTrimmed⟩]).file ≠ none ∧
    (({ sys := some 1 } : ArmSt).msgs [Sample.hbTrimmed]).armed = false := by
  decide +kernel

/-- C42 fails after one failed attempt to create a file: the mode becomes "disabled" and no later
arming opens a file, whatever happens. -/
theorem C42_violated_disabled (env : LogEnv) (b : LogBase) (evs : List TLogEv) (hm : b.mode = .disabled)
    (hf : b.file = none) : (tlogRun env b evs).file = none := by
  have : (tlogRun env b evs).mode = .disabled ∧ (tlogRun env b evs).file = none := by
    induction evs generalizing b with
    | nil => exact ⟨hm, hf⟩
    | cons ev evs ih =>
      have h1 : (b.learnTarget ev.msg).mode = .disabled ∧ (b.learnTarget ev.msg).file = none := by
        unfold LogBase.learnTarget
        split <;> exact ⟨hm, hf⟩
      have h2 : tlogAuto env (b.learnTarget ev.msg) ev.msg = b.learnTarget ev.msg := by
        have : (b.learnTarget ev.msg).autoAct env ev.msg = .nothing := by
          unfold LogBase.autoAct
          rw [h1.1]
          split <;> rfl
        unfold tlogAuto
        rw [this]
      have h3 : tlogWriteMsg env b ev.now ev.msg = b.learnTarget ev.msg := by
        unfold tlogWriteMsg
        rw [h2]
        exact tlog_nowrites _ _ _ h1.2
      have := ih (b.learnTarget ev.msg) h1.1 h1.2
      rw [← h3] at this
      exact this
  exact this.2

/-- One failed start, then a heartbeat that says armed with nothing failing any more. -/
example : (tlogRun { Sample.binEnv with startOk := fun i => i != 0 } (tlogInit (some 1) .whileArmed)
    [⟨0, Sample.logHb 1 1 3 128⟩]).mode = .disabled := by decide +kernel

/-- C42 fails likewise, seen from outside: if the first file could not be created, no message ever leads to a file again, however often
the vehicle is armed and whether or not later files could be created. -/
theorem C42_violated_failed (env : LogEnv) (target : Option UInt8) (mode : LogMode) (evs : List TLogEv) (h0 : env.startOk 0 = false) :
    (tlogRun env (tlogInit target mode) evs).file = none := by
  suffices H : ∀ (evs : List TLogEv) (b : LogBase), b.file = none → b.nstart = 0 ∨ b.mode = .disabled → (tlogRun env b evs).file = none from
    H evs _ rfl (Or.inl rfl)
  intro evs
  induction evs with
  | nil => intro b hf _; exact hf
  | cons ev evs ih =>
    intro b hf hb
    have hl : (b.learnTarget ev.msg).file = none ∧
        ((b.learnTarget ev.msg).nstart = 0 ∨ (b.learnTarget ev.msg).mode = .disabled) := by
      unfold LogBase.learnTarget
      split <;> exact ⟨hf, hb⟩
    generalize hb' : b.learnTarget ev.msg = b' at hl
    have ha : (tlogAuto env b' ev.msg).file = none ∧
        ((tlogAuto env b' ev.msg).nstart = 0 ∨ (tlogAuto env b' ev.msg).mode = .disabled) := by
      unfold tlogAuto
      cases hact : b'.autoAct env ev.msg with
      | nothing => exact hl
      | start =>
        rcases hl.2 with hn | hm
        · have : b'.start env = ({ b' with startTimer := false, nstart := b'.nstart + 1 }, false) := by
            unfold LogBase.start
            rw [hl.1, hn, h0]
            rfl
          simp only [this]
          exact ⟨hl.1, Or.inr trivial⟩
        · unfold LogBase.autoAct at hact
          rw [hm] at hact
          split at hact <;> cases hact
      | stop =>
        show (tlogStop b').file = none ∧ _
        unfold tlogStop
        rw [if_pos hl.1]
        exact hl
    have hw : tlogWriteMsg env b ev.now ev.msg = tlogAuto env b' ev.msg := by
      unfold tlogWriteMsg
      rw [hb']
      exact tlog_nowrites _ _ _ ha.1
    show (tlogRun env (tlogWriteMsg env b ev.now ev.msg) evs).file = none
    rw [hw]
    exact ih _ ha.1 ha.2

/-- Armed again and again, with only the first file failing: the autopilot says armed, no file is open. -/
example : let env := { Sample.binEnv with startOk := fun i => i != 0 }
    let hbs := [Sample.logHb 1 1 3 128, Sample.logHb 1 1 3 0, Sample.logHb 1 1 3 128]
    env.startOk 0 = false ∧ env.startOk 1 = true ∧ (({ sys := some 1 } : ArmSt).msgs hbs).armed = true ∧
    (tlogRun env (tlogInit (some 1) .whileArmed) (hbs.map fun m => ⟨0, m⟩)).file = none ∧
    (tlogRun Sample.binEnv (tlogInit (some 1) .whileArmed) (hbs.map fun m => ⟨0, m⟩)).file ≠ none := by decide +kernel

theorem armInv_init (target : Option UInt8) : ArmInv ⟨target, false⟩ { target := target, mode := .whileArmed } :=
  ⟨rfl, rfl, by simp⟩

theorem timersOk_init (target : Option UInt8) : TimersOk { target := target, mode := .whileArmed } := by
  intro h
  rcases h with h | h <;> cases h

/-- **C42** for the telemetry log, partial: if files can be created and heartbeats transmit their
`base_mode`, then after every history of messages of all systems a file is open iff the last
heartbeat of the logged autopilot said armed.  Missing: trimmed heartbeats, failed starts. -/
theorem C42_tlog_partial (env : LogEnv) (target : Option UInt8) (evs : List TLogEv) (hs : StartsOk env)
    (hm : ∀ ev ∈ evs, HbWhole ev.msg) :
    (tlogRun env (tlogInit target .whileArmed) evs).file ≠ none ↔
      (({ sys := target } : ArmSt).msgs (evs.map (·.msg))).armed = true := by
  have : ∀ (st : ArmSt) (b : LogBase), ArmInv st b → ArmInv (st.msgs (evs.map (·.msg))) (tlogRun env b evs) := by
    induction evs with
    | nil => intro st b h; exact h
    | cons ev evs ih =>
      intro st b h
      exact ih (fun e he => hm e (List.mem_cons_of_mem _ he)) (st.msg ev.msg) _
        (tlogStep_arm ev hs (hm ev (List.mem_cons_self ..)) h)
  exact (this _ _ (armInv_init target)).file

example : HbWhole (Sample.logHb 1 1 3 128) ∧ StartsOk Sample.binEnv := by
  refine ⟨fun _ => by decide, fun _ => rfl⟩

example : ((({ sys := none } : ArmSt).msgs [Sample.logHb 9 2 3 128, Sample.logHb 1 1 3 128, Sample.logHb 7 1 3 0]).sys,
    (({ sys := none } : ArmSt).msgs [Sample.logHb 9 2 3 128, Sample.logHb 1 1 3 128, Sample.logHb 7 1 3 0]).armed)
    = (some 1, true) := by decide +kernel

/-- **C42** for the ArduPilot log, partial: additionally log data arrive only while the vehicle is
armed.  Missing: log data while disarmed (`C42_violated`), trimmed heartbeats, failed starts. -/
theorem C42_binlog_partial (env : LogEnv) (target : Option UInt8) (evs : List ULogEv) (hs : StartsOk env)
    (hstop : ULogEv.stop ∉ evs) (hm : ∀ m ∈ messages evs, HbWhole m)
    (hd : DataWhileArmed ⟨target, false⟩ (messages evs)) :
    ((BinLog.init target .whileArmed).run env evs).base.file ≠ none ↔
      (({ sys := target } : ArmSt).msgs (messages evs)).armed = true :=
  (binRun_arm hs evs hstop hm _ (BinLog.init target .whileArmed) hd (armInv_init target) (timersOk_init target)).file

/-- **C42** for the PX4 log, partial: as for the ArduPilot log, for histories in which the endpoint
does not hang (`C52_returns_partial`). -/
theorem C42_ulog_partial (env : LogEnv) (target : Option UInt8) (evs : List ULogEv) (u : ULog) (hs : StartsOk env)
    (hstop : ULogEv.stop ∉ evs) (hm : ∀ m ∈ messages evs, HbWhole m)
    (hd : DataWhileArmed ⟨target, false⟩ (messages evs))
    (hr : (ULog.init target .whileArmed).run env evs = some u) :
    u.base.file ≠ none ↔ (({ sys := target } : ArmSt).msgs (messages evs)).armed = true :=
  (ulogRun_arm hs evs hstop hm _ (ULog.init target .whileArmed) u hd (armInv_init target) (timersOk_init target)
    hr).file

/-- A history meeting the hypotheses: armed, data, timer ticks, disarmed. -/
def Sample.armEvs : List ULogEv :=
  [.msg (Sample.logHb 1 1 3 128), .startTimeout, .msg (Sample.binMsg 0 [1, 2]), .aliveTimeout, .aliveTimeout,
   .msg (Sample.logHb 2 1 3 0), .msg (Sample.logHb 1 1 3 0)]

example : ULogEv.stop ∉ Sample.armEvs ∧ (∀ m ∈ messages Sample.armEvs, HbWhole m) ∧
    DataWhileArmed ⟨none, false⟩ (messages Sample.armEvs) := by
  refine ⟨by decide, ?_, ?_⟩
  · intro m hm
    simp only [messages, Sample.armEvs, List.filterMap_cons, List.filterMap_nil, List.mem_cons, List.not_mem_nil,
      or_false] at hm
    rcases hm with rfl | rfl | rfl | rfl
    · exact fun _ => by decide
    · exact fun h => by cases h
    · exact fun _ => by decide
    · exact fun _ => by decide
  · refine ⟨fun h => absurd h (by decide), fun _ => ?_, fun h => absurd h (by decide), fun h => absurd h (by decide), trivial⟩
    decide +kernel

example : ((BinLog.init none .whileArmed).run Sample.binEnv (Sample.armEvs.take 6)).base.file ≠ none ∧
    ((BinLog.init none .whileArmed).run Sample.binEnv Sample.armEvs).base.file = none := by
  decide +kernel

/-- **C42** (reading; also C45, C53): of every frame, MAVLink 1 or 2, signed or not, the bytes called the payload of the message are
the payload of the frame, and all of them are in its data. -/
theorem C42_payload (tbl : MsgTable) (f : Frame) (hf : f.WF) (k : Nat) :
    payloadByte (f.toMsg tbl).1 k = f.payload.getD k 0 ∧
    headerLen (f.toMsg tbl).1 + (f.toMsg tbl).1.payloadLen.toNat ≤ (f.toMsg tbl).1.data.length ∧
    ∀ env, k < f.payload.length → (f.toMsg tbl).1.rawByte env k = f.payload.getD k 0 := by
  have hl : (f.toMsg tbl).1.payloadLen.toNat = f.payload.length := by
    simp only [Frame.toMsg, UInt8.toNat_ofNat']
    exact Nat.mod_eq_of_lt hf.1
  obtain ⟨pre, hp1, hp2⟩ : ∃ pre : List UInt8, pre.length = headerLen (f.toMsg tbl).1 ∧
      (f.toMsg tbl).1.data = pre ++ (f.payload ++ f.crcLo :: f.crcHi :: f.signature) := by
    cases hv : f.v2 with
    | true =>
      exact ⟨[0xFD, UInt8.ofNat f.payload.length, f.incompat, f.compat, f.seq, f.sys, f.comp,
        UInt8.ofNat f.msgid, UInt8.ofNat (f.msgid / 256), UInt8.ofNat (f.msgid / 65536)],
        by simp [headerLen, Frame.toMsg, Frame.encode, hv], by simp [Frame.toMsg, Frame.encode, Frame.body, hv]⟩
    | false =>
      exact ⟨[0xFE, UInt8.ofNat f.payload.length, f.seq, f.sys, f.comp, UInt8.ofNat f.msgid],
        by simp [headerLen, Frame.toMsg, Frame.encode, hv], by simp [Frame.toMsg, Frame.encode, Frame.body, hv]⟩
  have hget : k < f.payload.length → (f.toMsg tbl).1.data[headerLen (f.toMsg tbl).1 + k]? = f.payload[k]? := by
    intro hk
    rw [hp2, ← hp1, List.getElem?_append_right (by omega), Nat.add_sub_cancel_left, List.getElem?_append_left hk]
  refine ⟨?_, ?_, ?_⟩
  · unfold payloadByte
    rw [hl]
    split
    · rename_i hk
      rw [List.getD_eq_getElem?_getD, hget hk, List.getD_eq_getElem?_getD]
    · rename_i hk
      rw [List.getD_eq_getElem?_getD, List.getElem?_eq_none (by omega)]
      rfl
  · rw [hl, hp2, ← hp1]
    simp
  · intro env hk
    unfold Msg.rawByte
    simp only [hdrLen_eq]
    rw [hget hk, List.getElem?_eq_getElem hk, List.getD_eq_getElem?_getD, List.getElem?_eq_getElem hk]
    rfl

example : Sample.hb1.WF ∧ Sample.hb2.WF ∧ payloadByte (Sample.hb1.toMsg Sample.tbl).1 6 = 81 ∧
    payloadByte (Sample.hb2.toMsg Sample.tbl).1 6 = 81 := by
  refine ⟨by simp [Frame.WF, Sample.hb1], by simp [Frame.WF, Sample.hb2], by decide +kernel, by decide +kernel⟩

end Verif
