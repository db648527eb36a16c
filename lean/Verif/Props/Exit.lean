import Verif.Spec.Exit

/-
C100 termination signals, C101 exit status, C102 logs at exit.
-/

namespace Verif

open Spec

theorem ExitSt.exec_append (s : ExitSt) (a b : List ExitEv) : s.exec (a ++ b) = (s.exec a).exec b := by
  simp [ExitSt.exec, List.foldl_append]

theorem ExitSt.exec_cons (s : ExitSt) (a : ExitEv) (b : List ExitEv) : s.exec (a :: b) = (s.step a).exec b := rfl

/-- Steps to the end when the flag is set and the program does not wait. -/
def stepsLeft : LoopPc → Nat
  | .check => 2
  | .handling evs => evs.length + 3
  | .cleanup => 1
  | _ => 0

theorem runs_to_end (n : Nat) : ∀ (s : ExitSt), s.exit = true → s.pc ≠ .before → s.pc ≠ .waiting →
    stepsLeft s.pc = n → (s.exec (List.replicate n .run)).pc = .returned := by
  induction n with
  | zero =>
    intro s he hb hw hn
    obtain ⟨pc, ex, ret⟩ := s
    cases pc <;> simp_all [stepsLeft, ExitSt.exec]
  | succ n ih =>
    intro s he hb hw hn
    obtain ⟨pc, ex, ret⟩ := s
    simp only at he hb hw hn
    subst he
    rw [List.replicate_succ, ExitSt.exec_cons]
    cases pc with
    | check => exact ih _ rfl (by simp [ExitSt.step]) (by simp [ExitSt.step]) (by simp [ExitSt.step, stepsLeft] at hn ⊢; omega)
    | before => exact absurd rfl hb
    | waiting => exact absurd rfl hw
    | cleanup => exact ih _ rfl (by simp [ExitSt.step]) (by simp [ExitSt.step]) (by simp [ExitSt.step, stepsLeft] at hn ⊢; omega)
    | returned => simp [stepsLeft] at hn
    | handling evs =>
      cases evs with
      | nil => exact ih _ rfl (by simp [ExitSt.step]) (by simp [ExitSt.step]) (by simp [ExitSt.step, stepsLeft] at hn ⊢; omega)
      | cons e es =>
        refine ih _ ?_ ?_ ?_ ?_ <;> cases e <;> simp [ExitSt.step, ExitSt.request, stepsLeft] at hn ⊢ <;> omega

/-- C100 (part): a termination signal that does not arrive just between the test of the flag and `epoll_wait` makes the program
finish the current batch of at most eight events and end, without waiting for anything.  Missing: that moment, where it
is false (`C100_violated`). -/
theorem C100_signal_partial (es : List ExitEv) (h : (({} : ExitSt).exec es).pc ≠ .before) :
    ∃ n, n ≤ 11 ∧ ((({} : ExitSt).exec (es ++ [.signal])).exec (List.replicate n .run)).pc = .returned := by
  have hlen : ∀ (es : List ExitEv) (s : ExitSt), (∀ evs, s.pc = .handling evs → evs.length ≤ 8) →
      ∀ evs, (s.exec es).pc = .handling evs → evs.length ≤ 8 := by
    intro es
    induction es with
    | nil => intro s hs; exact hs
    | cons e es ih =>
      intro s hs
      rw [ExitSt.exec_cons]
      apply ih
      obtain ⟨pc, ex, ret⟩ := s
      intro evs hv
      cases e with
      | signal =>
        simp only [ExitSt.step, ExitSt.request] at hv
        split at hv
        · exact hs _ hv
        · split at hv
          · simp at hv
          · exact hs _ hv
      | run =>
        cases pc with
        | check => simp only [ExitSt.step] at hv; split at hv <;> simp at hv
        | handling l =>
          cases l with
          | nil => simp [ExitSt.step] at hv
          | cons a l =>
            have := hs _ rfl
            cases a <;> simp [ExitSt.step, ExitSt.request] at hv this <;> subst hv <;> omega
        | before => simp [ExitSt.step] at hv
        | waiting => simp [ExitSt.step] at hv
        | cleanup => simp [ExitSt.step] at hv
        | returned => simp [ExitSt.step] at hv
      | wake l =>
        simp only [ExitSt.step] at hv
        split at hv
        · rename_i hc
          simp only [LoopPc.handling.injEq] at hv
          exact hv ▸ hc.2.2
        · exact hs _ hv
      | waitError =>
        simp only [ExitSt.step] at hv
        split at hv
        · simp at hv
        · exact hs _ hv
  rw [ExitSt.exec_append]
  have hl := hlen es {} (by simp)
  generalize ({} : ExitSt).exec es = s at h hl
  obtain ⟨pc, ex, ret⟩ := s
  simp only at h hl
  rw [ExitSt.exec_cons]
  show ∃ n, n ≤ 11 ∧ ((ExitSt.step ⟨pc, ex, ret⟩ .signal).exec _).pc = .returned
  by_cases hr : pc = .returned
  · exact ⟨0, by omega, by simp [ExitSt.step, hr, ExitSt.exec]⟩
  · have hst : ∃ pc', ExitSt.step ⟨pc, ex, ret⟩ .signal = ⟨pc', true, 0⟩ ∧ pc' ≠ .before ∧ pc' ≠ .waiting ∧
        stepsLeft pc' ≤ 11 := by
      cases pc with
      | handling l =>
        exact ⟨_, by simp [ExitSt.step, ExitSt.request]; rfl, by simp, by simp, by
          have := hl l rfl; simp [stepsLeft]; omega⟩
      | check => exact ⟨_, by simp [ExitSt.step, ExitSt.request]; rfl, by simp, by simp, by simp [stepsLeft]⟩
      | waiting => exact ⟨_, by simp [ExitSt.step, ExitSt.request]; rfl, by simp, by simp, by simp [stepsLeft]⟩
      | cleanup => exact ⟨_, by simp [ExitSt.step, ExitSt.request]; rfl, by simp, by simp, by simp [stepsLeft]⟩
      | before => exact absurd rfl h
      | returned => exact absurd rfl hr
    obtain ⟨pc', he, h1, h2, h3⟩ := hst
    exact ⟨stepsLeft pc', h3, by rw [he]; exact runs_to_end _ _ rfl h1 h2 rfl⟩

/-- In every case the program ends after the next event at the latest. -/
theorem C100_next_event_partial (s : ExitSt) (h : s.exit = true) (hw : s.pc = .waiting) (evs : List Bool)
    (he : evs ≠ []) (h8 : evs.length ≤ 8) : ∃ n, (s.exec (.wake evs :: List.replicate n .run)).pc = .returned := by
  refine ⟨evs.length + 3, ?_⟩
  rw [ExitSt.exec_cons]
  have e : s.step (.wake evs) = { s with pc := .handling evs } := by simp [ExitSt.step, hw, he, h8]
  rw [e]
  exact runs_to_end _ _ h (by simp) (by simp) rfl

namespace Sample

/-- The program waits, gets two events, and a signal while it handles the first. -/
def signalHistory : List ExitEv := [.run, .run, .wake [false, false], .run]

/-- The signal arrives after the test of the flag. -/
def lateSignal : List ExitEv := [.run, .signal, .run]

end Sample

example : (({} : ExitSt).exec Sample.signalHistory).pc = .handling [false] ∧
    (({} : ExitSt).exec (Sample.signalHistory ++ .signal :: List.replicate 4 .run)).pc = .returned := by decide

/-- C100 is false: a signal between the test of the flag and `epoll_wait` leaves the program waiting, until some event
arrives. -/
theorem C100_violated :
    (({} : ExitSt).exec Sample.lateSignal).exit = true ∧
    ∀ n, ((({} : ExitSt).exec Sample.lateSignal).exec (List.replicate n .run)).pc = .waiting := by
  have e : ({} : ExitSt).exec Sample.lateSignal = { pc := .waiting, exit := true, ret := 0 } := by decide
  refine ⟨by rw [e], fun n => ?_⟩
  rw [e]
  induction n with
  | zero => rfl
  | succ n ih => rw [List.replicate_succ, ExitSt.exec_cons]; exact ih

/-
C101: exit status.
-/

/-- Without critical error so far. -/
def NoCritical (s : ExitSt) : Prop := s.ret = 0 ∧ ∀ evs, s.pc = .handling evs → true ∉ evs

theorem noCritical_exec (es : List ExitEv) (h : ¬ CriticalIn es) : ∀ (s : ExitSt), NoCritical s →
    NoCritical (s.exec es) := by
  induction es with
  | nil => intro s hs; exact hs
  | cons e es ih =>
    intro s hs
    rw [ExitSt.exec_cons]
    apply ih fun ⟨evs, h1, h2⟩ => h ⟨evs, by simp [h1], h2⟩
    obtain ⟨pc, ex, ret⟩ := s
    obtain ⟨h1, h2⟩ := hs
    simp only at h1 h2
    subst h1
    cases e with
    | signal =>
      simp only [ExitSt.step, ExitSt.request]
      split
      · exact ⟨rfl, h2⟩
      · split
        · exact ⟨rfl, by simp⟩
        · exact ⟨rfl, h2⟩
    | run =>
      cases pc with
      | check => refine ⟨rfl, fun evs hv => ?_⟩; simp only [ExitSt.step] at hv; split at hv <;> simp at hv
      | handling l =>
        cases l with
        | nil => exact ⟨rfl, by simp [ExitSt.step]⟩
        | cons a l =>
          have := h2 _ rfl
          cases a with
          | true => simp at this
          | false =>
            refine ⟨rfl, fun evs hv => ?_⟩
            simp only [ExitSt.step, Bool.false_eq_true, if_false, LoopPc.handling.injEq] at hv
            subst hv
            simpa using this
      | before => exact ⟨rfl, by simp [ExitSt.step]⟩
      | waiting => exact ⟨rfl, by simp [ExitSt.step]⟩
      | cleanup => exact ⟨rfl, by simp [ExitSt.step]⟩
      | returned => exact ⟨rfl, by simp [ExitSt.step]⟩
    | wake l =>
      simp only [ExitSt.step]
      split
      · refine ⟨rfl, fun evs hv hm => h ⟨l, by simp, ?_⟩⟩
        simp only [LoopPc.handling.injEq] at hv
        exact hv ▸ hm
      · exact ⟨rfl, h2⟩
    | waitError =>
      simp only [ExitSt.step]
      split
      · exact ⟨rfl, by simp⟩
      · exact ⟨rfl, h2⟩

/-- C101 (part): if no critical descriptor had an error, the exit status is 0. -/
theorem C101_success (es : List ExitEv) (h : ¬ CriticalIn es) : (({} : ExitSt).exec es).status = 0 := by
  have := noCritical_exec es h {} ⟨rfl, by simp⟩
  simp [ExitSt.status, this.1]

/-- What holds without signals: the program ends only after a critical error, and then fails. -/
def QuietInv (s : ExitSt) : Prop :=
  (s.exit = true ↔ s.ret = 1) ∧ (s.ret = 0 ∨ s.ret = 1) ∧ (s.pc = .cleanup ∨ s.pc = .returned → s.exit = true)

theorem quiet_exec (es : List ExitEv) (h : .signal ∉ es) : ∀ (s : ExitSt), QuietInv s → QuietInv (s.exec es) := by
  induction es with
  | nil => intro s hs; exact hs
  | cons e es ih =>
    intro s hs
    rw [ExitSt.exec_cons]
    apply ih (fun h' => h (by simp [h']))
    obtain ⟨pc, ex, ret⟩ := s
    obtain ⟨h1, h2, h3⟩ := hs
    simp only at h1 h2 h3
    cases e with
    | signal => simp at h
    | run =>
      cases pc with
      | check => cases ex <;> simp_all [QuietInv, ExitSt.step]
      | handling l =>
        cases l with
        | nil => simp_all [QuietInv, ExitSt.step]
        | cons a l => cases a <;> simp_all [QuietInv, ExitSt.step, ExitSt.request]
      | before => simp_all [QuietInv, ExitSt.step]
      | waiting => simp_all [QuietInv, ExitSt.step]
      | cleanup => simp_all [QuietInv, ExitSt.step]
      | returned => simp_all [QuietInv, ExitSt.step]
    | wake l =>
      simp only [ExitSt.step]
      split
      · exact ⟨h1, h2, by simp⟩
      · exact ⟨h1, h2, h3⟩
    | waitError =>
      simp only [ExitSt.step]
      split
      · exact ⟨h1, h2, by simp⟩
      · exact ⟨h1, h2, h3⟩

/-- C101 (part): without signals the program ends only after an error of a critical descriptor, with a failure status.
Missing: errors followed by a signal, where it is false (`C101_violated`). -/
theorem C101_failure_partial (es : List ExitEv) (h : .signal ∉ es) (hr : (({} : ExitSt).exec es).pc = .returned) :
    CriticalIn es ∧ (({} : ExitSt).exec es).status = 1 := by
  have hq := quiet_exec es h {} ⟨by simp, by simp, by simp⟩
  have h1 := hq.1.1 (hq.2.2 (Or.inr hr))
  have hs : (({} : ExitSt).exec es).status = 1 := by simp [ExitSt.status, h1]
  refine ⟨Classical.byContradiction fun hc => ?_, hs⟩
  rw [C101_success es hc] at hs
  exact absurd hs (by decide)

theorem failing_exec (es : List ExitEv) (h : .signal ∉ es) : ∀ (s : ExitSt), s.ret = 1 → (s.exec es).ret = 1 := by
  induction es with
  | nil => intro s hs; exact hs
  | cons e es ih =>
    intro s hs
    rw [ExitSt.exec_cons]
    apply ih (fun h' => h (by simp [h']))
    obtain ⟨pc, ex, ret⟩ := s
    simp only at hs
    subst hs
    cases e with
    | signal => simp at h
    | run =>
      cases pc with
      | handling l =>
        cases l with
        | nil => rfl
        | cons a l => cases a <;> rfl
      | _ => rfl
    | wake l => simp only [ExitSt.step]; split <;> rfl
    | waitError => simp only [ExitSt.step]; split <;> rfl

/-- C101 (part): whatever happened before, signals included, an error of a critical descriptor makes the program fail unless a signal
arrives later; and a signal makes it succeed unless an error of a critical descriptor is handled later. -/
theorem C101_last_partial (es1 es2 : List ExitEv) :
    ((∃ evs, (({} : ExitSt).exec es1).pc = .handling (true :: evs)) → .signal ∉ es2 →
      (({} : ExitSt).exec (es1 ++ .run :: es2)).status = 1) ∧
    ((({} : ExitSt).exec es1).pc ≠ .returned → (∀ evs, (({} : ExitSt).exec es1).pc = .handling evs → true ∉ evs) →
      ¬ CriticalIn es2 → (({} : ExitSt).exec (es1 ++ .signal :: es2)).status = 0) := by
  have happ : ∀ e, ({} : ExitSt).exec (es1 ++ e :: es2) = ((({} : ExitSt).exec es1).step e).exec es2 := by
    intro e; simp [ExitSt.exec, List.foldl_append]
  constructor
  · rintro ⟨evs, hp⟩ hn
    rw [happ]
    have : ((({} : ExitSt).exec es1).step .run).ret = 1 := by
      simp only [ExitSt.step, hp, if_true, ExitSt.request]
    simp [ExitSt.status, failing_exec es2 hn _ this]
  · intro hr hp hc
    rw [happ]
    have : NoCritical ((({} : ExitSt).exec es1).step .signal) := by
      generalize ({} : ExitSt).exec es1 = s at hr hp
      obtain ⟨pc, ex, ret⟩ := s
      simp only at hr hp
      simp only [ExitSt.step, if_neg hr, ExitSt.request]
      split
      · exact ⟨rfl, by simp⟩
      · exact ⟨rfl, hp⟩
    simp [ExitSt.status, (noCritical_exec es2 hc _ this).1]

example : (({} : ExitSt).exec [.signal, .run, .run]).pc = .returned ∧
    (({} : ExitSt).exec [.run, .run, .wake [true, false]]).pc = .handling (true :: [false]) ∧
    (({} : ExitSt).exec ([.run, .run, .wake [true, false]] ++ .run :: [.run, .run, .run, .run])).status = 1 ∧
    (({} : ExitSt).exec ([.run, .run, .wake [true, false], .run] ++ .signal :: [.run, .run, .run, .run])).status = 0 := by
  decide

example : ((({} : ExitSt).exec [.run, .run, .wake [false, true], .run, .run, .run, .run, .run]).pc,
    (({} : ExitSt).exec [.run, .run, .wake [false, true], .run, .run, .run, .run, .run]).status) = (.returned, 1) ∧
    ¬ CriticalIn Sample.signalHistory := by
  refine ⟨by decide, ?_⟩
  rintro ⟨evs, h1, h2⟩
  simp [Sample.signalHistory] at h1
  subst h1
  simp at h2

/-- C101 is false: a signal after the error of a critical descriptor, for example while the log is being finished, makes
the program end with status 0. -/
theorem C101_violated :
    let es : List ExitEv := [.run, .run, .wake [true], .run, .run, .run, .signal, .run]
    CriticalIn es ∧ (({} : ExitSt).exec es).pc = .returned ∧ (({} : ExitSt).exec es).status = 0 :=
  ⟨⟨[true], by simp, by simp⟩, by decide, by decide⟩

/-
C102: logs at exit.
-/

theorem ULog.stop_file (env : LogEnv) (u u' : ULog) (h : u.stop env = some u') : u'.base.file = none := by
  unfold ULog.stop at h
  split at h
  · simp only [Option.some.injEq] at h
    subst h
    assumption
  · split at h
    · exact nomatch h
    · simp only [Option.some.injEq] at h
      subst h
      rfl

theorem BinLog.stop_file (l : BinLog) : l.stop.base.file = none := by
  unfold BinLog.stop
  split
  · assumption
  · rfl

/-- C102 (part): after the end of the main loop the flight-stack log has no unfinished file, in whatever state it was, if
stopping it returns.  Missing: the telemetry log, where it is false (`C102_violated`). -/
theorem C102_flight_partial (env : LogEnv) (l : Logger) (hl : ∀ b, l ≠ .tlog b) (tlog : Option Logger)
    (l' t' : Option Logger) (h : exitLogs env (some l) tlog = some (l', t')) : ∃ x, l' = some x ∧ LogFinished x := by
  simp only [exitLogs, Option.map_eq_some_iff, Prod.mk.injEq] at h
  obtain ⟨x, hx, rfl, rfl⟩ := h
  refine ⟨x, rfl, ?_⟩
  cases l with
  | tlog b => exact absurd rfl (hl b)
  | ulog u =>
    simp only [Logger.call, LogCall.event, ULog.step, Option.map_eq_some_iff] at hx
    obtain ⟨u', hu, rfl⟩ := hx
    exact ULog.stop_file env u u' hu
  | bin b =>
    simp only [Logger.call, LogCall.event, BinLog.step, Option.some.injEq] at hx
    subst hx
    exact BinLog.stop_file b
  | auto a =>
    simp only [Logger.call, LogCall.event, AutoLog.step, Option.map_eq_some_iff] at hx
    obtain ⟨a', ha, rfl⟩ := hx
    split at ha
    · rename_i hn
      simp only [Option.some.injEq] at ha
      subst ha
      simp [LogFinished, hn]
    · simp only [ULog.step, Option.map_eq_some_iff] at ha
      obtain ⟨u', hu, rfl⟩ := ha
      exact ULog.stop_file env _ u' hu
    · simp only [BinLog.step, Option.some.injEq] at ha
      subst ha
      exact BinLog.stop_file _

/-- C102 (part): if an ArduPilot log was open its content becomes a finished log and the autopilot is told to stop. -/
theorem C102_bin_partial (env : LogEnv) (b : BinLog) (c : List UInt8) (hf : b.base.file = some c)
    (tlog : Option Logger) : ∃ b', exitLogs env (some (.bin b)) tlog = some (some (.bin b'), tlog) ∧
      b'.base.done = b.base.done ++ [c] ∧ b'.base.out = b.base.out ++ [.blockStop] := by
  refine ⟨b.stop, rfl, ?_, ?_⟩ <;> simp [BinLog.stop, hf, LogBase.stop, LogBase.send]

namespace Sample

/-- A system where every write succeeds. -/
def exitEnv : LogEnv :=
  { startOk := fun _ => true, wr := fun _ => .n 4096, stale := fun _ => 0, aliveOk := true, fuel := 5,
    tbl := fun _ => none, encode := fun _ => [] }

/-- A PX4 log with a partial message in the buffer, an ArduPilot log and a telemetry log, all open. -/
def openULog : ULog := { base := { target := some 1, mode := .always, file := some [1, 2] }, part := [3, 4] }
def openBin : BinLog := { base := { target := some 1, mode := .always, file := some [1, 2] }, lastAcked := 7 }
def openTLog : LogBase := { target := some 1, mode := .always, file := some [1, 2] }

end Sample

example : ((exitLogs Sample.exitEnv (some (.ulog Sample.openULog)) none).bind (·.1)).map
      (fun l => (l.base.map (·.done), l.base.map (·.out))) = some (some [[1, 2, 3, 4]], some [.cmdStop]) ∧
    Sample.openBin.base.file = some [1, 2] := by decide

/-- C102 is false: nothing finishes the telemetry log at exit. -/
theorem C102_violated (env : LogEnv) (flight : Option Logger) (b : LogBase) (l' t' : Option Logger)
    (hb : b.file ≠ none) (h : exitLogs env flight (some (.tlog b)) = some (l', t')) :
    ∃ x, t' = some x ∧ ¬ LogFinished x := by
  refine ⟨.tlog b, ?_, hb⟩
  cases flight with
  | none => simp only [exitLogs, Option.some.injEq, Prod.mk.injEq] at h; exact h.2.symm
  | some l =>
    simp only [exitLogs, Option.map_eq_some_iff, Prod.mk.injEq] at h
    obtain ⟨x, _, _, h⟩ := h
    exact h.symm

example : exitLogs Sample.exitEnv (some (.bin Sample.openBin)) (some (.tlog Sample.openTLog)) ≠ none ∧
    Sample.openTLog.file ≠ none := by decide

end Verif
