/-
C53, C67, C68: choice of the flight-stack logger, and whose data it logs.
-/
import Verif.Model.AutoLog
import Verif.Props.Armed

namespace Verif

open Verif.Spec

namespace Spec

/-- Flight stacks that have a logger. -/
inductive Stack where
  | px4
  | ardupilot
deriving DecidableEq, Repr

/-- The selected system and the choice made. -/
structure AutoSt where
  sys : Option UInt8
  choice : Option Stack := none
deriving DecidableEq, Repr

/-- What the `autopilot` field (byte 5) of a heartbeat says. -/
def stackOf (m : Msg) : Option Stack :=
  if payloadByte m 5 = 12 then some .px4 else if payloadByte m 5 = 3 then some .ardupilot else none

/-- Unless configured, the system whose autopilot (component 1) is heard first is selected; the
first heartbeat from it that names a known flight stack decides. -/
def AutoSt.msg (st : AutoSt) (m : Msg) : AutoSt :=
  if st.choice ≠ none then st
  else
    let sys := if st.sys = none ∧ AutopilotHb m then some m.srcSys else st.sys
    if m.msgId = 0 ∧ sys = some m.srcSys then ⟨sys, stackOf m⟩ else ⟨sys, none⟩

def AutoSt.msgs (st : AutoSt) (ms : List Msg) : AutoSt := ms.foldl AutoSt.msg st

end Spec

/-- The flight stack a logger is for. -/
def FlightLog.stack : FlightLog → Stack
  | .ulog _ => .px4
  | .bin _ => .ardupilot

/-- Which logger exists. -/
def AutoLog.stack (a : AutoLog) : Option Stack :=
  a.logger.map FlightLog.stack

theorem rawByte_payload {env : LogEnv} {m : Msg} {k : Nat} (hk : k < m.payloadLen.toNat)
    (hp : headerLen m + m.payloadLen.toNat ≤ m.data.length) : m.rawByte env k = payloadByte m k := by
  unfold Msg.rawByte payloadByte
  simp only [hdrLen_eq]
  rw [if_pos hk, List.getElem?_eq_getElem (by omega), List.getD_eq_getElem?_getD, List.getElem?_eq_getElem (by omega)]
  rfl

/-- The state follows the specification; until the choice is made the targets agree. -/
structure AutoInv (st : AutoSt) (a : AutoLog) : Prop where
  choice : a.stack = st.choice
  sys : st.choice = none → a.target = st.sys

theorem autoMsg_inv {env : LogEnv} {st : AutoSt} {a a' : AutoLog} {d : List UInt8} (m : Msg) (hm : HbWhole m)
    (h : AutoInv st a) (hr : a.writeMsg env m = some (a', d)) : AutoInv (st.msg m) a' := by
  unfold AutoLog.writeMsg at hr
  cases hl : a.logger with
  | some l =>
    rw [hl] at hr
    simp only at hr
    cases hw : l.writeMsg env m with
    | none => rw [hw] at hr; cases hr
    | some r =>
      rw [hw] at hr
      cases hr
      have hst : a.stack = some l.stack := by
        unfold AutoLog.stack
        rw [hl]
        rfl
      have hne : st.choice ≠ none := by
        rw [← h.choice, hst]
        simp
      have hmsg : st.msg m = st := by
        unfold AutoSt.msg
        rw [if_pos hne]
      rw [hmsg]
      refine ⟨?_, fun hc => absurd hc hne⟩
      rw [← h.choice, hst]
      cases l with
      | ulog u =>
        simp only [FlightLog.writeMsg] at hw
        cases hu : u.writeMsg env m with
        | none => rw [hu] at hw; cases hw
        | some x => rw [hu] at hw; cases hw; rfl
      | bin l => simp only [FlightLog.writeMsg] at hw; cases hw; rfl
  | none =>
    rw [hl] at hr
    simp only at hr
    have hc : st.choice = none := by
      rw [← h.choice]
      unfold AutoLog.stack
      rw [hl]
      rfl
    have ht := h.sys hc
    have hlearn : (a.learn m).target = (if st.sys = none ∧ AutopilotHb m then some m.srcSys else st.sys) ∧
        (a.learn m).logger = none := by
      unfold AutoLog.learn AutopilotHb
      rw [ht]
      by_cases hc : st.sys = none ∧ m.msgId = 0 ∧ m.srcComp = 1
      · rw [if_pos hc, if_pos hc]; exact ⟨rfl, hl⟩
      · rw [if_neg hc, if_neg hc]; exact ⟨ht, hl⟩
    have hmsg : st.msg m =
        if m.msgId = 0 ∧ (a.learn m).target = some m.srcSys then ⟨(a.learn m).target, stackOf m⟩
        else ⟨(a.learn m).target, none⟩ := by
      unfold AutoSt.msg
      rw [if_neg (by rw [hc]; simp), hlearn.1]
    rw [hmsg]
    by_cases hd : m.msgId = 0 ∧ (a.learn m).target = some m.srcSys
    · rw [if_pos hd]
      rw [if_neg (by rintro (h1 | h1); exact h1 hd.1; exact h1 hd.2)] at hr
      cases hr
      refine ⟨?_, fun _ => rfl⟩
      obtain ⟨h1, h2⟩ := hm hd.1
      show (AutoLog.stack { a.learn m with logger := (a.learn m).choose (m.rawByte env 5) }) = stackOf m
      rw [rawByte_payload (by omega) h2]
      unfold AutoLog.stack AutoLog.choose stackOf
      by_cases h12 : payloadByte m 5 = 12
      · simp only [if_pos h12]; rfl
      · simp only [if_neg h12]
        by_cases h3 : payloadByte m 5 = 3
        · simp only [if_pos h3]; rfl
        · simp only [if_neg h3]; rfl
    · rw [if_neg hd]
      rw [if_pos (by
        by_cases h0 : m.msgId = 0
        · exact .inr (fun hc => hd ⟨h0, hc⟩)
        · exact .inl h0)] at hr
      cases hr
      refine ⟨?_, fun _ => rfl⟩
      unfold AutoLog.stack
      rw [hlearn.2]
      rfl

theorem autoStep_inv {env : LogEnv} {st : AutoSt} {a a' : AutoLog} (ev : ULogEv)
    (hm : ∀ m, ev = .msg m → HbWhole m) (h : AutoInv st a) (hr : a.step env ev = some a') :
    AutoInv (match ev with | .msg m => st.msg m | _ => st) a' := by
  have hother : ∀ ev : ULogEv, (match a.logger with
      | none => some a
      | some (.ulog u) => (u.step env ev).map fun u => { a with logger := some (.ulog u) }
      | some (.bin l) => some { a with logger := some (.bin (l.step env ev)) }) = some a' → AutoInv st a' := by
    intro ev hr
    cases hl : a.logger with
    | none => rw [hl] at hr; cases hr; exact h
    | some l =>
      rw [hl] at hr
      cases l with
      | ulog u =>
        simp only at hr
        cases hu : u.step env ev with
        | none => rw [hu] at hr; cases hr
        | some x =>
          rw [hu] at hr
          cases hr
          refine ⟨?_, h.sys⟩
          rw [← h.choice]
          simp only [AutoLog.stack, hl]; rfl
      | bin l =>
        cases hr
        refine ⟨?_, h.sys⟩
        rw [← h.choice]
        simp only [AutoLog.stack, hl]; rfl
  cases ev with
  | msg m =>
    simp only [AutoLog.step] at hr
    cases hw : a.writeMsg env m with
    | none => rw [hw] at hr; cases hr
    | some r =>
      rw [hw] at hr
      cases hr
      exact autoMsg_inv m (hm m rfl) h (show a.writeMsg env m = some (r.1, r.2) from hw)
  | startTimeout => exact hother _ hr
  | aliveTimeout => exact hother _ hr
  | stop => exact hother _ hr

/-- **C53**: after every history of messages, timer ticks and stops, the PX4 logger is in use iff
the first decisive heartbeat of the selected system said PX4, the ArduPilot logger iff it said
ArduPilot, none iff there was no such heartbeat.  Partial: every heartbeat is transmitted with all
the bytes the code looks at; otherwise `C53_violated`. -/
theorem C53_choice_partial (env : LogEnv) (conf : Option UInt8) (mode : LogMode) (evs : List ULogEv) (a : AutoLog)
    (hm : ∀ m ∈ messages evs, HbWhole m) (hr : (AutoLog.init conf mode).run env evs = some a) :
    a.stack = (({ sys := conf } : AutoSt).msgs (messages evs)).choice := by
  have : ∀ (st : AutoSt) (b : AutoLog), AutoInv st b → b.run env evs = some a →
      AutoInv (st.msgs (messages evs)) a := by
    clear hr
    induction evs with
    | nil => intro st b h hr; cases hr; exact h
    | cons ev evs ih =>
      intro st b h hr
      simp only [AutoLog.run] at hr
      cases hs : b.step env ev with
      | none => rw [hs] at hr; cases hr
      | some b' =>
        rw [hs] at hr
        cases ev with
        | msg m =>
          have h1 := autoStep_inv (.msg m) (fun m' e => by cases e; exact hm m (List.mem_cons_self ..)) h hs
          exact ih (fun x hx => hm x (List.mem_cons_of_mem m hx)) (st.msg m) b' h1 hr
        | startTimeout => exact ih hm st b' (autoStep_inv .startTimeout (fun m e => by cases e) h hs) hr
        | aliveTimeout => exact ih hm st b' (autoStep_inv .aliveTimeout (fun m e => by cases e) h hs) hr
        | stop => exact ih hm st b' (autoStep_inv .stop (fun m e => by cases e) h hs) hr
  exact (this _ _ ⟨rfl, fun _ => rfl⟩ hr).choice

/-- **C53** (the choice never changes): what was chosen after a part of the history is what is in
use after all of it. -/
theorem C53_never_changes (st : AutoSt) (ms : List Msg) (s : Stack) (h : st.choice = some s) :
    (st.msgs ms).choice = some s := by
  induction ms generalizing st with
  | nil => exact h
  | cons m ms ih =>
    refine ih (st.msg m) ?_
    unfold AutoSt.msg
    rw [if_pos (by rw [h]; simp)]
    exact h

/-- Another system, another component, an unknown stack, then the decision, then contradiction. -/
def Sample.autoEvs : List ULogEv :=
  [.msg (Sample.logHb 9 2 12 0), .stop, .msg (Sample.logHb 1 1 0 0), .msg (Sample.logHb 9 1 12 0),
   .msg (Sample.logHb 1 1 3 0), .msg (Sample.logHb 1 1 12 0)]

example : (∀ m ∈ messages Sample.autoEvs, HbWhole m) ∧
    (({ sys := none } : AutoSt).msgs (messages Sample.autoEvs)).choice = some .ardupilot ∧
    ((AutoLog.init none .always).run Sample.binEnv Sample.autoEvs).isSome = true := by
  refine ⟨?_, by decide +kernel, by decide +kernel⟩
  intro m hm
  simp only [messages, Sample.autoEvs, List.filterMap_cons, List.filterMap_nil, List.mem_cons, List.not_mem_nil,
    or_false] at hm
  rcases hm with rfl | rfl | rfl | rfl | rfl <;> exact fun _ => by decide

example : (({ sys := some 1, choice := some .px4 } : AutoSt).msgs [Sample.logHb 1 1 3 0]).choice = some .px4 := by
  decide +kernel

/-- A heartbeat of an unknown kind of autopilot (field 0) with its trailing zeros trimmed; its
checksum starts with 12. -/
def Sample.hbNoStack : Msg :=
  { data := [0xFD, 5, 0, 0, 0, 1, 1, 0, 0, 0] ++ [0, 0, 0, 0, 2] ++ [12, 0x12]
    msgId := 0, targetSys := -1, targetComp := -1, srcSys := 1, srcComp := 1, payloadLen := 5
    payloadOfs := some 10 }

/-- C53 fails for trimmed heartbeats: the flight stack is read from the checksum, and the wrong
choice is final. -/
theorem C53_violated : ∃ (evs : List ULogEv) (a : AutoLog),
    (AutoLog.init none .always).run Sample.binEnv evs = some a ∧
    (({ sys := none } : AutoSt).msgs (messages evs)).choice = some .ardupilot ∧ a.stack = some .px4 :=
  ⟨[.msg Sample.hbNoStack, .msg (Sample.logHb 1 1 3 0)],
    ((AutoLog.init none .always).run Sample.binEnv [.msg Sample.hbNoStack, .msg (Sample.logHb 1 1 3 0)]).get
      (by decide +kernel),
    by rw [Option.some_get], by decide +kernel, by decide +kernel⟩

/-! ### C67: the logger that was chosen logs the system that was selected. -/

/-- The system the logger in use logs. -/
def AutoLog.logs (a : AutoLog) : Option UInt8 :=
  match a.logger with
  | none => none
  | some (.ulog u) => u.base.target
  | some (.bin l) => l.base.target

/-- C67 fails: system 1 is selected and decides; the new logger starts without a system and takes
the next autopilot it hears, system 7. -/
theorem C67_violated : ∃ (evs : List ULogEv) (a : AutoLog),
    (AutoLog.init none .always).run Sample.binEnv evs = some a ∧
    (({ sys := none } : AutoSt).msgs (messages evs)).sys = some 1 ∧ a.stack = some .ardupilot ∧ a.logs = some 7 :=
  ⟨[.msg (Sample.logHb 1 1 3 0), .msg (Sample.logHb 7 1 12 0), .msg (Sample.logHb 1 1 3 0)],
    ((AutoLog.init none .always).run Sample.binEnv
      [.msg (Sample.logHb 1 1 3 0), .msg (Sample.logHb 7 1 12 0), .msg (Sample.logHb 1 1 3 0)]).get (by decide +kernel),
    by rw [Option.some_get], by decide +kernel, by decide +kernel, by decide +kernel⟩

/-- Once a BinLog has a target it keeps it. -/
theorem binStep_target {env : LogEnv} {l : BinLog} {t : UInt8} (ev : ULogEv) (h : l.base.target = some t) :
    (l.step env ev).base.target = some t := by
  have hstart : ∀ l : BinLog, (l.start env).1.base.target = l.base.target := by
    intro l
    unfold BinLog.start LogBase.start
    cases l.base.file.isSome with
    | true => rfl
    | false => cases env.startOk l.base.nstart <;> rfl
  have hstop : ∀ l : BinLog, l.stop.base.target = l.base.target := by
    intro l
    unfold BinLog.stop
    split <;> rfl
  have hrestart : ∀ l : BinLog, (l.restart env).base.target = l.base.target := fun l =>
    (hstart _).trans (hstop l)
  have hproc : ∀ (l : BinLog) p, (l.process env p).base.target = l.base.target := by
    intro l p
    unfold BinLog.process
    split
    · exact hrestart l
    · split
      · simp only
        split
        · unfold BinLog.sendAck
          split <;> rfl
        · rfl
      · rfl
      · exact hrestart _
  cases ev with
  | msg m =>
    have h1 : (l.base.learnTarget m).target = some t := by
      unfold LogBase.learnTarget
      rw [if_neg (by rw [h]; simp)]
      exact h
    have h2 : (BinLog.auto env { l with base := l.base.learnTarget m } m).base.target = some t := by
      unfold BinLog.auto
      split
      · exact h1
      · have := hstart { l with base := l.base.learnTarget m }
        split
        all_goals
          rename_i l' e
          rw [e] at this
          exact this.trans h1
      · exact (hstop _).trans h1
    show (l.writeMsg env m).base.target = some t
    unfold BinLog.writeMsg
    simp only
    split
    · exact h2
    · split
      · exact h2
      · unfold BinLog.takeBlock
        split
        · split
          · exact (hproc _ _).trans h2
          · exact h2
        · exact (hproc _ _).trans h2
  | startTimeout =>
    show l.startTimeout.base.target = some t
    unfold BinLog.startTimeout
    split <;> exact h
  | aliveTimeout =>
    show (l.aliveTimeout env).base.target = some t
    unfold BinLog.aliveTimeout
    split
    · simp only
      split
      · exact (hrestart l).trans h
      · exact h
    · exact h
  | stop => exact (hstop l).trans h

theorem ulogStart_target (env : LogEnv) (u : ULog) : (u.start env).1.base.target = u.base.target := by
  unfold ULog.start LogBase.start
  cases u.base.file.isSome with
  | true => rfl
  | false => cases env.startOk u.base.nstart <;> rfl

theorem ulogRestart_target {env : LogEnv} {u v : ULog} (h : u.restart env = some v) :
    v.base.target = u.base.target := by
  unfold ULog.restart at h
  split at h
  · cases h
  · rename_i w hw
    cases h
    exact (ulogStart_target env w).trans (ulogStop_arm hw).2.2.1

/-- Once a ULog has a target it keeps it. -/
theorem ulogStep_target {env : LogEnv} {u v : ULog} {t : UInt8} (ev : ULogEv) (h : u.base.target = some t)
    (hr : u.step env ev = some v) : v.base.target = some t := by
  have hproc : ∀ {u v : ULog} {p q : Pkt}, u.process env p = some (v, q) → v.base.target = u.base.target := by
    intro u v p q h
    unfold ULog.process at h
    split at h
    · cases h; rfl
    · simp only at h
      split at h
      · split at h
        · rename_i drops exp _ _ _
          cases hr : ULog.restart env { u with expSeq := exp } with
          | none => rw [hr] at h; cases h
          | some w => rw [hr] at h; cases h; exact (ulogRestart_target hr).trans rfl
        · exact (append_same h).target
      · exact (append_same h).target
  cases ev with
  | msg m =>
    have h1 : (u.base.learnTarget m).target = some t := by
      unfold LogBase.learnTarget
      rw [if_neg (by rw [h]; simp)]
      exact h
    simp only [ULog.step] at hr
    cases hw : u.writeMsg env m with
    | none => rw [hw] at hr; cases hr
    | some r =>
      rw [hw] at hr
      cases hr
      unfold ULog.writeMsg at hw
      cases ha : ULog.auto env { u with base := u.base.learnTarget m } m with
      | none => rw [ha] at hw; cases hw
      | some u1 =>
        rw [ha] at hw
        simp only at hw
        have h2 : u1.base.target = some t := by
          unfold ULog.auto at ha
          split at ha
          · cases ha; exact h1
          · have := ulogStart_target env { u with base := u.base.learnTarget m }
            split at ha
            all_goals
              rename_i l' e
              rw [e] at this
              cases ha
              exact this.trans h1
          · exact (ulogStop_arm ha).2.2.1.trans h1
        split at hw
        · cases hw; exact h2
        · split at hw
          · cases hw; exact h2
          · split at hw
            · cases hw
              unfold ULog.commandAck
              split
              · exact h2
              · split <;> exact h2
            · split at hw
              · cases hw
              · rename_i w q hp
                cases hw
                have hack : (u1.acknowledge env m).base.target = u1.base.target := by
                  unfold ULog.acknowledge
                  simp only
                  split <;> rfl
                exact ((hproc hp).trans hack).trans h2
  | startTimeout =>
    simp only [ULog.step] at hr
    cases hr
    unfold ULog.startTimeout
    split <;> exact h
  | aliveTimeout =>
    simp only [ULog.step, ULog.aliveTimeout] at hr
    split at hr
    · split at hr
      · cases hrs : u.restart env with
        | none => rw [hrs] at hr; cases hr
        | some x => rw [hrs] at hr; cases hr; exact (ulogRestart_target hrs).trans h
      · cases hr; exact h
    · cases hr; exact h
  | stop =>
    simp only [ULog.step] at hr
    exact (ulogStop_arm hr).2.2.1.trans h

/-- **C67**, partial: if the system to log is configured (`LogSystemId`), the logger in use logs
it, after every history.  Missing: no configured system (`C67_violated`). -/
theorem C67_configured_partial (env : LogEnv) (t : UInt8) (mode : LogMode) (evs : List ULogEv) (a : AutoLog)
    (hr : (AutoLog.init (some t) mode).run env evs = some a) (hl : a.logger ≠ none) : a.logs = some t := by
  have : ∀ b : AutoLog, (b.conf = some t ∧ (b.logger ≠ none → b.logs = some t)) → b.run env evs = some a →
      (a.logger ≠ none → a.logs = some t) := by
    clear hr
    induction evs with
    | nil => intro b h hr; cases hr; exact h.2
    | cons ev evs ih =>
      intro b h hr
      simp only [AutoLog.run] at hr
      cases hs : b.step env ev with
      | none => rw [hs] at hr; cases hr
      | some b' =>
        rw [hs] at hr
        refine ih b' ?_ hr
        clear ih hr
        have hother : ∀ ev : ULogEv, b.logger ≠ none → (match b.logger with
            | none => some b
            | some (.ulog u) => (u.step env ev).map fun u => { b with logger := some (.ulog u) }
            | some (.bin l) => some { b with logger := some (.bin (l.step env ev)) }) = some b' →
            b'.conf = some t ∧ (b'.logger ≠ none → b'.logs = some t) := by
          intro ev hne hr
          cases hl : b.logger with
          | none => exact absurd hl hne
          | some l =>
            have hlogs := h.2 hne
            unfold AutoLog.logs at hlogs
            rw [hl] at hlogs hr
            cases l with
            | ulog u =>
              simp only at hr hlogs
              cases hu : u.step env ev with
              | none => rw [hu] at hr; cases hr
              | some x =>
                rw [hu] at hr
                cases hr
                exact ⟨h.1, fun _ => ulogStep_target ev hlogs hu⟩
            | bin l =>
              cases hr
              exact ⟨h.1, fun _ => binStep_target ev hlogs⟩
        cases hb : b.logger with
        | some l =>
          have hne : b.logger ≠ none := by rw [hb]; simp
          cases ev with
          | msg m =>
            refine hother (.msg m) hne ?_
            rw [hb]
            simp only [AutoLog.step, AutoLog.writeMsg, hb] at hs
            cases l with
            | ulog u =>
              simp only [FlightLog.writeMsg] at hs
              simp only [ULog.step]
              cases hu : u.writeMsg env m with
              | none => rw [hu] at hs; cases hs
              | some x => rw [hu] at hs; cases hs; rfl
            | bin l => simp only [FlightLog.writeMsg] at hs; cases hs; rfl
          | startTimeout => exact hother _ hne hs
          | aliveTimeout => exact hother _ hne hs
          | stop => exact hother _ hne hs
        | none =>
          cases ev with
          | msg m =>
            simp only [AutoLog.step, AutoLog.writeMsg, hb] at hs
            have hlearn : (b.learn m).conf = some t ∧ (b.learn m).logger = none := by
              unfold AutoLog.learn
              split <;> exact ⟨h.1, hb⟩
            split at hs
            · cases hs
              exact ⟨hlearn.1, fun hc => absurd hlearn.2 hc⟩
            · cases hs
              refine ⟨hlearn.1, fun _ => ?_⟩
              unfold AutoLog.logs AutoLog.choose
              by_cases h12 : m.rawByte env 5 = 12
              · simp only [if_pos h12]; exact hlearn.1
              · simp only [if_neg h12]
                by_cases h3 : m.rawByte env 5 = 3
                · simp only [if_pos h3]; exact hlearn.1
                · rename_i hc
                  simp only [AutoLog.choose, if_neg h12, if_neg h3] at hc
                  exact absurd rfl hc
          | startTimeout =>
            simp only [AutoLog.step, hb] at hs; cases hs; exact h
          | aliveTimeout =>
            simp only [AutoLog.step, hb] at hs; cases hs; exact h
          | stop =>
            simp only [AutoLog.step, hb] at hs; cases hs; exact h
  exact this _ ⟨rfl, fun hc => absurd rfl hc⟩ hr hl

example : ((AutoLog.init (some 1) .always).run Sample.binEnv
    [.msg (Sample.logHb 1 1 3 0), .msg (Sample.logHb 7 1 12 0)]).map (fun a => (a.stack, a.logs)) =
    some (some .ardupilot, some 1) := by decide +kernel

/-! ### C68: log data are taken from the logged system only. -/

/-- C68 fails: while system 1 is logged, a block sent by system 9 replaces block 0 of system 1 and
is acknowledged (to system 1). -/
theorem C68_violated : ∃ m : Msg, m.srcSys = 9 ∧ m.msgId = 184 ∧
    let l := (BinLog.init (some 1) .always).run Sample.binEnv
      [.msg (Sample.logHb 1 1 3 0), .msg (Sample.binMsg 0 [1, 2]), .msg m]
    l.base.target = some 1 ∧ l.base.file = some ([6, 6, 6] ++ List.replicate 197 0) ∧ acks l.base.out = [0, 0] :=
  ⟨{ Sample.binMsg 0 [6, 6, 6] with srcSys := 9 }, rfl, rfl, by decide +kernel⟩

/-- **C68**, partial: messages of other systems that carry no log data leave the log of a known
system alone: same files, no output, same acknowledgement state.  Missing: log data from other
systems (`C68_violated`). -/
theorem C68_other_partial (env : LogEnv) (l : BinLog) (m : Msg) (t : UInt8) (c : List UInt8)
    (ht : l.base.target = some t) (hsrc : m.srcSys ≠ t) (hd : ¬ LogData m) (hf : l.base.file = some c) :
    l.writeMsg env m = l := by
  have h1 : l.base.learnTarget m = l.base := by
    unfold LogBase.learnTarget
    rw [if_neg (by rw [ht]; simp)]
  have h2 : l.base.autoAct env m = .nothing := by
    unfold LogBase.autoAct
    rw [if_neg (by rw [ht]; simp)]
    split
    · rw [if_neg (by rw [hf]; simp)]
    · rw [if_neg (by rw [ht]; rintro ⟨_, h, _⟩; exact hsrc (Option.some.inj h).symm)]
    · rfl
  have h3 : l.auto env m = l := by
    unfold BinLog.auto
    rw [h2]
  unfold BinLog.writeMsg
  simp only
  rw [if_pos (fun hc => hd (.inl hc)), h1]
  exact h3

example : ({ base := { target := some 1, mode := .whileArmed, file := some [5] } } : BinLog).writeMsg Sample.binEnv
    (Sample.logHb 7 1 3 0) = { base := { target := some 1, mode := .whileArmed, file := some [5] } } := by
  decide +kernel

end Verif
