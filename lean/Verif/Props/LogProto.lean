/-
C76-C79: start requests, the liveness check, acknowledgement of PX4 log data, and the first block
of an ArduPilot log.
-/
import Verif.Lemmas.BinFirst
import Verif.Props.BinLog

namespace Verif

open Verif.Spec

theorem binRun_runAll (env : LogEnv) (l : BinLog) (evs : List ULogEv) :
    runAll (fun l ev => some (l.step env ev)) l evs = some (l.run env evs) := by
  induction evs generalizing l with
  | nil => rfl
  | cons ev evs ih =>
    show runAll _ (l.step env ev) evs = _
    rw [ih]
    rfl

theorem ulogRun_runAll (env : LogEnv) (u : ULog) (evs : List ULogEv) :
    runAll (fun u ev => u.step env ev) u evs = u.run env evs := by
  induction evs generalizing u with
  | nil => rfl
  | cons ev evs ih =>
    simp only [runAll, List.foldlM_cons, ULog.run]
    cases u.step env ev with
    | none => rfl
    | some v => exact ih v

theorem timerInv_init (target : Option UInt8) (mode : LogMode) :
    TimerInv { target := target, mode := mode } := ⟨(nomatch ·), (nomatch ·), (nomatch ·)⟩

theorem mem_messages {evs : List ULogEv} {m : Msg} : m ∈ messages evs ↔ ULogEv.msg m ∈ evs := by
  unfold messages
  rw [List.mem_filterMap]
  constructor
  · rintro ⟨ev, h, e⟩
    cases ev with
    | msg x => cases e; exact h
    | startTimeout => cases e
    | aliveTimeout => cases e
    | stop => cases e
  · intro h
    exact ⟨_, h, rfl⟩

theorem binBegins_msg {env : LogEnv} {m : Msg} (h : BlockWhole m) : binBegins env (.msg m) ↔ FirstBlock m := by
  unfold binBegins FirstBlock
  constructor
  · rintro ⟨h1, h2⟩; rw [block_eq (h h1)] at h2; exact ⟨h1, h2⟩
  · rintro ⟨h1, h2⟩
    refine ⟨h1, ?_⟩
    rw [block_eq (h h1)]
    exact h2

/-- A request to start the stream goes out at the next tick of the start timer. -/
def binRequests (l : BinLog) : Prop := l.startTimeout.base.out = l.base.out ++ [.blockStart]

theorem binRequests_iff (l : BinLog) : binRequests l ↔ l.base.startTimer = true := by
  unfold binRequests BinLog.startTimeout
  constructor
  · intro h
    cases ht : l.base.startTimer with
    | true => rfl
    | false =>
      rw [ht] at h
      have := congrArg List.length h
      simp at this
  · intro h
    rw [if_pos h]
    rfl

/-- C76 (ArduPilot log): at each tick either exactly one start request is sent or nothing happens.
A request is sent only if a log file is open and block 0 has not arrived since it was opened; it is
sent if a log file is open and block 0 has not arrived since, nor with the message that opened it. -/
theorem C76_binlog (env : LogEnv) (target : Option UInt8) (mode : LogMode) (evs : List ULogEv)
    (ht : env.tbl 184 ≠ none) (hw : ∀ m ∈ messages evs, BlockWhole m) (l : BinLog)
    (hl : l = (BinLog.init target mode).run env evs) :
    (binRequests l ∨ l.startTimeout = l) ∧
    (binRequests l → isOpen l.base ∧ ∀ pre m post, evs = pre ++ .msg m :: post →
      opened ((BinLog.init target mode).run env pre).base = opened l.base → ¬ FirstBlock m) ∧
    (isOpen l.base → (∀ pre m post, evs = pre ++ .msg m :: post →
      opened ((BinLog.init target mode).run env (pre ++ [.msg m])).base = opened l.base → ¬ FirstBlock m) →
      binRequests l) := by
  have key := waiting_history (fun l ev => some (l.step env ev)) BinLog.base (binBegins env)
    (BinLog.init target mode) (timerInv_init target mode) rfl
    (fun s s' ev hi hs => by cases hs; exact binStepW ht hi ev) evs l
    (by rw [binRun_runAll, hl])
  obtain ⟨k1, _, k3, k4⟩ := key
  have hmsg : ∀ pre e post, evs = pre ++ e :: post → binBegins env e → ∃ m, e = .msg m ∧ FirstBlock m := by
    intro pre e post hs hb
    cases e with
    | msg m =>
      have hmem : m ∈ messages evs := mem_messages.mpr (by rw [hs]; simp)
      exact ⟨m, rfl, (binBegins_msg (hw m hmem)).mp hb⟩
    | startTimeout => cases hb
    | aliveTimeout => cases hb
    | stop => cases hb
  refine ⟨?_, ?_, ?_⟩
  · by_cases hst : l.base.startTimer = true
    · exact .inl ((binRequests_iff l).mpr hst)
    · right; unfold BinLog.startTimeout; rw [if_neg hst]
  · intro hr
    have hst := (binRequests_iff l).mp hr
    refine ⟨k1.startOpen hst, ?_⟩
    intro pre m post hs ho hf
    have hmem : m ∈ messages evs := mem_messages.mpr (by rw [hs]; simp)
    exact k3 hst pre (.msg m) post _ hs (binRun_runAll ..) ho ((binBegins_msg (hw m hmem)).mpr hf)
  · intro hop hno
    rw [binRequests_iff]
    refine k4 hop ?_
    intro pre e post t hs hrun ho hb
    obtain ⟨m, rfl, hf⟩ := hmsg pre e post hs hb
    rw [binRun_runAll] at hrun
    cases hrun
    exact hno pre m post hs ho hf

/-- Requests before block 0, none afterwards, and requests again after a restart by the liveness
check. -/
example :
    (∀ m ∈ messages Sample.binHist, BlockWhole m) ∧
    binRequests ((BinLog.init (some 1) .always).run Sample.binEnv [.msg (Sample.logHb 1 1 3 128)]) ∧
    ¬ binRequests ((BinLog.init (some 1) .always).run Sample.binEnv Sample.binHist) ∧
    binRequests ((BinLog.init (some 1) .always).run Sample.binEnv
      (Sample.binHist ++ [.aliveTimeout, .aliveTimeout])) := by
  refine ⟨fun m hm h => sample_wholeBlocks m (mem_messages.mp hm) h, ?_, ?_, ?_⟩
  · rw [binRequests_iff]; decide +kernel
  · rw [binRequests_iff]; decide +kernel
  · rw [binRequests_iff]; decide +kernel

theorem cmdByte_eq {env : LogEnv} {m : Msg} (h77 : m.msgId = 77) (h : AckWhole m) {k : Nat} (hk : k < 3) :
    m.cmdByte env k = payloadByte m k := by
  obtain ⟨h1, h2⟩ := h h77
  unfold Msg.cmdByte payloadByte
  by_cases hlt : k < m.payloadLen.toNat
  · rw [if_pos hlt, if_pos hlt]
    unfold Msg.rawByte
    simp only [hdrLen_eq]
    rw [List.getElem?_eq_getElem (by omega), List.getD_eq_getElem?_getD, List.getElem?_eq_getElem (by omega)]
    rfl
  · rw [if_neg hlt, if_neg hlt]
    rcases h2 with h2 | h2
    · rw [if_pos h2]
    · omega

theorem ulogBegins_msg {env : LogEnv} {m : Msg} (h : AckWhole m) : ulogBegins env (.msg m) ↔ StartAccepted m := by
  unfold ulogBegins StartAccepted ackCommand
  constructor
  · rintro ⟨h1, h2, h3⟩
    rw [cmdByte_eq h1 h (by omega), cmdByte_eq h1 h (by omega)] at h2
    rw [cmdByte_eq h1 h (by omega)] at h3
    exact ⟨h1, h2, h3⟩
  · rintro ⟨h1, h2, h3⟩
    refine ⟨h1, ?_, ?_⟩
    · rw [cmdByte_eq h1 h (by omega), cmdByte_eq h1 h (by omega)]
      exact h2
    · rw [cmdByte_eq h1 h (by omega)]
      exact h3

/-- A request to start the stream goes out at the next tick of the start timer. -/
def ulogRequests (u : ULog) : Prop := u.startTimeout.base.out = u.base.out ++ [.cmdStart]

theorem ulogRequests_iff (u : ULog) : ulogRequests u ↔ u.base.startTimer = true := by
  unfold ulogRequests ULog.startTimeout
  constructor
  · intro h
    cases ht : u.base.startTimer with
    | true => rfl
    | false =>
      rw [ht] at h
      have := congrArg List.length h
      simp at this
  · intro h
    rw [if_pos h]
    rfl

/-- C76 (PX4 log): the same with the acceptance of the start command in the place of block 0. -/
theorem C76_ulog (env : LogEnv) (target : Option UInt8) (mode : LogMode) (evs : List ULogEv)
    (h77 : env.tbl 77 ≠ none) (h266 : env.tbl 266 ≠ none) (h267 : env.tbl 267 ≠ none)
    (hw : ∀ m ∈ messages evs, AckWhole m) (u : ULog) (hu : (ULog.init target mode).run env evs = some u) :
    (ulogRequests u ∨ u.startTimeout = u) ∧
    (ulogRequests u → isOpen u.base ∧ ∀ pre m post t, evs = pre ++ .msg m :: post →
      (ULog.init target mode).run env pre = some t → opened t.base = opened u.base → ¬ StartAccepted m) ∧
    (isOpen u.base → (∀ pre m post t, evs = pre ++ .msg m :: post →
      (ULog.init target mode).run env (pre ++ [.msg m]) = some t → opened t.base = opened u.base →
      ¬ StartAccepted m) → ulogRequests u) := by
  have key := waiting_history (fun u ev => u.step env ev) ULog.base (ulogBegins env)
    (ULog.init target mode) (timerInv_init target mode) rfl
    (fun s s' ev hi hs => (ulogStepW h77 h266 h267 hi ev hs).1) evs u
    (by rw [ulogRun_runAll, hu])
  obtain ⟨k1, _, k3, k4⟩ := key
  refine ⟨?_, ?_, ?_⟩
  · by_cases hst : u.base.startTimer = true
    · exact .inl ((ulogRequests_iff u).mpr hst)
    · right; unfold ULog.startTimeout; rw [if_neg hst]
  · intro hr
    have hst := (ulogRequests_iff u).mp hr
    refine ⟨k1.startOpen hst, ?_⟩
    intro pre m post t hs hrun ho hf
    have hmem : m ∈ messages evs := mem_messages.mpr (by rw [hs]; simp)
    exact k3 hst pre (.msg m) post t hs (by rw [ulogRun_runAll]; exact hrun) ho
      ((ulogBegins_msg (hw m hmem)).mpr hf)
  · intro hop hno
    rw [ulogRequests_iff]
    refine k4 hop ?_
    intro pre e post t hs hrun ho hb
    rw [ulogRun_runAll] at hrun
    cases e with
    | msg m =>
      have hmem : m ∈ messages evs := mem_messages.mpr (by rw [hs]; simp)
      exact hno pre m post t hs hrun ho ((ulogBegins_msg (hw m hmem)).mp hb)
    | startTimeout => cases hb
    | aliveTimeout => cases hb
    | stop => cases hb

/-- A COMMAND_ACK for the start command with result `r` (MAVLink 1, 3 bytes). -/
def Sample.startAck (r : UInt8) : Msg :=
  { data := [0xFE, 3, 0, 1, 1, 77, 0xCE, 0x09, r, 0x34, 0x12]
    msgId := 77, targetSys := -1, targetComp := -1, srcSys := 1, srcComp := 1, payloadLen := 3
    payloadOfs := some 6 }

/-- A rejected start keeps the requests going, an accepted one ends them. -/
example :
    (∀ m ∈ [Sample.logHb 1 1 12 128, Sample.startAck 4, Sample.startAck 0], AckWhole m) ∧
    StartAccepted (Sample.startAck 0) ∧
    ((ULog.init (some 1) .always).run Sample.logEnv
      [.msg (Sample.logHb 1 1 12 128), .startTimeout, .msg (Sample.startAck 4)]).map (·.base.startTimer)
      = some true ∧
    ((ULog.init (some 1) .always).run Sample.logEnv
      [.msg (Sample.logHb 1 1 12 128), .startTimeout, .msg (Sample.startAck 4), .msg (Sample.startAck 0)]).map
        (fun u => (u.base.startTimer, u.base.out)) = some (false, [.cmdStart]) := by
  refine ⟨?_, ⟨rfl, by decide +kernel, by decide +kernel⟩, by decide +kernel, by decide +kernel⟩
  intro m hm
  simp only [List.mem_cons, List.not_mem_nil, or_false] at hm
  rcases hm with rfl | rfl | rfl
  · intro h; cases h
  · exact fun _ => ⟨by decide, .inr (by decide)⟩
  · exact fun _ => ⟨by decide, .inr (by decide)⟩

/-! ### C77: the liveness check -/

/-- The log was closed, the autopilot told to stop, and a new log opened if possible. -/
structure Restarted (env : LogEnv) (stopMsg : LogOut) (b b' : LogBase) : Prop where
  was : isOpen b
  closed : b'.done.length = b.done.length + 1
  told : b'.out = b.out ++ [stopMsg]
  opens : b'.file = if env.startOk b.nstart then some [] else none

/-- Nothing happened to the log. -/
structure LeftAlone (b b' : LogBase) : Prop where
  file : b'.file = b.file
  done : b'.done = b.done
  told : b'.out = b.out

/-- The state from which a liveness period is counted: the beginning, or the end of a check. -/
def BinPeriod (env : LogEnv) (target : Option UInt8) (mode : LogMode) (t : BinLog) : Prop :=
  t = BinLog.init target mode ∨
  ∃ pre, ((BinLog.init target mode).run env pre).base.aliveTimer = true ∧
    t = ((BinLog.init target mode).run env pre).aliveTimeout env

theorem binInv (env : LogEnv) (target : Option UInt8) (mode : LogMode) (ht : env.tbl 184 ≠ none)
    (evs : List ULogEv) : TimerInv ((BinLog.init target mode).run env evs).base :=
  (waiting_history (fun l ev => some (l.step env ev)) BinLog.base (binBegins env)
    (BinLog.init target mode) (timerInv_init target mode) rfl
    (fun s s' ev hi hs => by cases hs; exact binStepW ht hi ev) evs _ (binRun_runAll ..)).1

theorem wr_ne {a : UInt32} {c : Nat} (h1 : 1 ≤ c) (h2 : c < 4294967296) : a ≠ a + UInt32.ofNat c := by
  intro h
  have := congrArg UInt32.toNat h
  simp only [UInt32.toNat_add, UInt32.toNat_ofNat'] at this
  have := a.toNat_lt
  omega

/-- C77 (ArduPilot log): at a liveness check, the log is restarted if no block message has arrived
since the last check, and left alone if one has (and fewer than 2^32 events happened in between). -/
theorem C77_binlog (env : LogEnv) (target : Option UInt8) (mode : LogMode) (ht : env.tbl 184 ≠ none)
    (t : BinLog) (hp : BinPeriod env target mode t) (mid : List ULogEv) (hmid : ULogEv.aliveTimeout ∉ mid)
    (v : BinLog) (hv : v = t.run env mid) (hal : v.base.aliveTimer = true) :
    ((∀ m ∈ messages mid, m.msgId ≠ 184) → Restarted env .blockStop v.base (v.aliveTimeout env).base) ∧
    ((∃ m ∈ messages mid, m.msgId = 184) → mid.length < 4294967296 →
      LeftAlone v.base (v.aliveTimeout env).base) := by
  have hit : TimerInv t.base ∧ t.base.toTotal = t.base.wrTotal := by
    rcases hp with rfl | ⟨pre, ha, rfl⟩
    · exact ⟨timerInv_init target mode, rfl⟩
    · have hi := binInv env target mode ht pre
      obtain ⟨c, n, h1, h2, h3⟩ := binAliveMv (env := env) hi
      have hi' := h1.inv hi
      rw [h2]
      exact ⟨⟨hi'.startOpen, hi'.aliveOpen, hi'.one⟩, h3 ha⟩
  obtain ⟨hi, hto⟩ := hit
  obtain ⟨k1, k2, c, k3, k4, k5, k6⟩ := quiet_period (fun l ev => some (l.step env ev)) BinLog.base
    (binBegins env) binData (fun _ => False)
    (fun s s' ev hi hev hs => by cases hs; exact binStepT ht hi ev hev) t hi mid hmid v
    (by rw [binRun_runAll, hv])
  have hdata : ∀ e ∈ mid, binData e → ∃ m ∈ messages mid, m.msgId = 184 := by
    intro e he hd
    cases e with
    | msg m => exact ⟨m, mem_messages.mpr he, hd⟩
    | startTimeout => cases hd
    | aliveTimeout => cases hd
    | stop => cases hd
  have hop := k1.aliveOpen hal
  have hne : v.base.file ≠ none := by
    cases hf : v.base.file with
    | none => rw [hf] at hop; cases hop
    | some x => simp
  constructor
  · intro hno
    have hc : c = 0 := k5 (fun e he => ⟨fun hd => by
      obtain ⟨m, hm, h184⟩ := hdata e he hd
      exact hno m hm h184, fun h => h⟩)
    subst hc
    have heq : v.base.toTotal = v.base.wrTotal := by
      rw [k2, k4, hto]
      simp
    unfold BinLog.aliveTimeout
    rw [if_pos hal]
    simp only
    rw [if_pos heq]
    refine ⟨hop, ?_, binRestart_out env v hne, ?_⟩
    all_goals
      obtain ⟨x, hf⟩ := Option.ne_none_iff_exists'.mp hne
      by_cases hs : env.startOk v.base.nstart = true <;>
        simp [BinLog.restart, BinLog.stop, BinLog.start, LogBase.start, LogBase.stop, LogBase.send, hf, hs]
  · intro ⟨m, hm, h184⟩ hlen
    have hc : 1 ≤ c := k6 hal ⟨.msg m, mem_messages.mp hm, h184⟩
    have hneq : v.base.toTotal ≠ v.base.wrTotal := by
      rw [k2, k4, hto]
      exact wr_ne hc (by omega)
    unfold BinLog.aliveTimeout
    rw [if_pos hal]
    simp only
    rw [if_neg hneq]
    exact ⟨rfl, rfl, rfl⟩

/-- A log that gets blocks survives the check, one that does not is restarted by the next. -/
example :
    let t := BinLog.init (some 1) .always
    let s := t.run Sample.binEnv Sample.binHist
    BinPeriod Sample.binEnv (some 1) .always t ∧ s.base.aliveTimer = true ∧
    BinPeriod Sample.binEnv (some 1) .always (s.aliveTimeout Sample.binEnv) ∧
    (s.aliveTimeout Sample.binEnv).base.done = [] ∧
    (((s.aliveTimeout Sample.binEnv).run Sample.binEnv [.msg (Sample.logHb 1 1 3 128)]).aliveTimeout
      Sample.binEnv).base.done.length = 1 :=
  ⟨.inl rfl, by decide +kernel, .inr ⟨_, by decide +kernel, rfl⟩, by decide +kernel, by decide +kernel⟩

/-- The same for the PX4 log. -/
def ULogPeriod (env : LogEnv) (target : Option UInt8) (mode : LogMode) (t : ULog) : Prop :=
  t = ULog.init target mode ∨
  ∃ pre s, (ULog.init target mode).run env pre = some s ∧ s.base.aliveTimer = true ∧ s.aliveTimeout env = some t

theorem ulogStop_facts {env : LogEnv} {u v : ULog} (hf : u.base.file ≠ none) (h : u.stop env = some v) :
    v.base.done.length = u.base.done.length + 1 ∧ v.base.out = u.base.out ++ [.cmdStop] ∧
      v.base.file = none ∧ v.base.nstart = u.base.nstart := by
  unfold ULog.stop at h
  rw [if_neg hf] at h
  cases hs : stopLoop env env.fuel { u with base := u.base.send .cmdStop, pend := [] } with
  | none => rw [hs] at h; cases h
  | some w =>
    rw [hs] at h
    cases h
    have ho := (stopLoop_open _ hs).mpr hf
    obtain ⟨f, n, e⟩ := (stopLoop_spec env _ _ _ hs).base
    simp only [LogBase.stop]
    cases hw : w.base.file with
    | none => exact absurd hw ho
    | some x =>
      simp only
      rw [e]
      exact ⟨by simp [LogBase.send], rfl, trivial, rfl⟩

theorem ulogInv (env : LogEnv) (target : Option UInt8) (mode : LogMode) (h77 : env.tbl 77 ≠ none)
    (h266 : env.tbl 266 ≠ none) (h267 : env.tbl 267 ≠ none) (evs : List ULogEv) (u : ULog)
    (h : (ULog.init target mode).run env evs = some u) : TimerInv u.base :=
  (waiting_history (fun u ev => u.step env ev) ULog.base (ulogBegins env)
    (ULog.init target mode) (timerInv_init target mode) rfl
    (fun s s' ev hi hs => (ulogStepW h77 h266 h267 hi ev hs).1) evs u (by rw [ulogRun_runAll, h])).1

/-- C77 (PX4 log): at a liveness check that returns, the log is restarted if neither log data nor an
answer to the start command has arrived since the last check, and left alone if log data have. -/
theorem C77_ulog (env : LogEnv) (target : Option UInt8) (mode : LogMode) (h77 : env.tbl 77 ≠ none)
    (h266 : env.tbl 266 ≠ none) (h267 : env.tbl 267 ≠ none)
    (t : ULog) (hp : ULogPeriod env target mode t) (mid : List ULogEv) (hmid : ULogEv.aliveTimeout ∉ mid)
    (hw : ∀ m ∈ messages mid, AckWhole m) (v v' : ULog) (hv : t.run env mid = some v)
    (hal : v.base.aliveTimer = true) (hv' : v.aliveTimeout env = some v') :
    ((∀ m ∈ messages mid, ¬ ULogData m ∧ ¬ StartAnswer m) → Restarted env .cmdStop v.base v'.base) ∧
    ((∃ m ∈ messages mid, ULogData m) → mid.length < 4294967296 → LeftAlone v.base v'.base) := by
  have hit : TimerInv t.base ∧ t.base.toTotal = t.base.wrTotal := by
    rcases hp with rfl | ⟨pre, s, hs, ha, hst⟩
    · exact ⟨timerInv_init target mode, rfl⟩
    · have hi := ulogInv env target mode h77 h266 h267 pre s hs
      obtain ⟨c, n, h1, h2, h3⟩ := ulogAliveMv (env := env) hi hst
      have hi' := h1.inv hi
      rw [h2]
      exact ⟨⟨hi'.startOpen, hi'.aliveOpen, hi'.one⟩, h3 ha⟩
  obtain ⟨hi, hto⟩ := hit
  obtain ⟨k1, k2, c, k3, k4, k5, k6⟩ := quiet_period (fun u ev => u.step env ev) ULog.base
    (ulogBegins env) ulogDataEv (ulogAnswer env)
    (fun s s' ev hi hev hs => (ulogStepT h77 h266 h267 hi ev hev hs).1) t hi mid hmid v
    (by rw [ulogRun_runAll, hv])
  have hop := k1.aliveOpen hal
  have hne : v.base.file ≠ none := by
    cases hf : v.base.file with
    | none => rw [hf] at hop; cases hop
    | some x => simp
  unfold ULog.aliveTimeout at hv'
  rw [if_pos hal] at hv'
  simp only at hv'
  constructor
  · intro hno
    have hc : c = 0 := k5 (fun e he => by
      cases e with
      | msg m =>
        have hm := mem_messages.mpr he
        refine ⟨(hno m hm).1, ?_⟩
        rintro ⟨a, b⟩
        rw [cmdByte_eq a (hw m hm) (by omega), cmdByte_eq a (hw m hm) (by omega)] at b
        exact (hno m hm).2 ⟨a, b⟩
      | startTimeout => exact ⟨fun h => h, fun h => h⟩
      | aliveTimeout => exact ⟨fun h => h, fun h => h⟩
      | stop => exact ⟨fun h => h, fun h => h⟩)
    subst hc
    have heq : v.base.toTotal = v.base.wrTotal := by
      rw [k2, k4, hto]
      simp
    rw [if_pos heq] at hv'
    cases hr : v.restart env with
    | none => rw [hr] at hv'; cases hv'
    | some x =>
      rw [hr] at hv'
      cases hv'
      unfold ULog.restart at hr
      cases hs : v.stop env with
      | none => rw [hs] at hr; cases hr
      | some w =>
        rw [hs] at hr
        cases hr
        obtain ⟨s1, s2, s3, s4⟩ := ulogStop_facts hne hs
        by_cases hk : env.startOk w.base.nstart = true
        · have : (w.start env).1.base =
              { w.base with file := some [], startTimer := true, nstart := w.base.nstart + 1 } := by
            simp [ULog.start, LogBase.start, s3, hk]
          refine ⟨hop, ?_, ?_, ?_⟩ <;> simp only [this]
          · exact s1
          · exact s2
          · rw [← s4, if_pos hk]
        · have : (w.start env).1.base = { w.base with startTimer := false, nstart := w.base.nstart + 1 } := by
            simp [ULog.start, LogBase.start, s3, hk]
          refine ⟨hop, ?_, ?_, ?_⟩ <;> simp only [this]
          · exact s1
          · exact s2
          · rw [← s4, if_neg hk]; exact s3
  · intro ⟨m, hm, hd⟩ hlen
    have hc : 1 ≤ c := k6 hal ⟨.msg m, mem_messages.mp hm, hd⟩
    have hneq : v.base.toTotal ≠ v.base.wrTotal := by
      rw [k2, k4, hto]
      exact wr_ne hc (by omega)
    rw [if_neg hneq] at hv'
    cases hv'
    exact ⟨rfl, rfl, rfl⟩

/-- The first check after the stream began leaves the log alone, the next one restarts it. -/
example :
    let evs : List ULogEv := [.msg (Sample.logHb 1 1 12 128), .msg (Sample.startAck 0)]
    (((ULog.init (some 1) .always).run Sample.logEnv evs).map (·.base.aliveTimer)) = some true ∧
    (((ULog.init (some 1) .always).run Sample.logEnv (evs ++ [.aliveTimeout])).map (·.base.out)) = some [] ∧
    (((ULog.init (some 1) .always).run Sample.logEnv (evs ++ [.aliveTimeout, .aliveTimeout])).map
      (fun u => (u.base.out, u.base.done.length))) = some ([.cmdStop], 1) :=
  ⟨by decide +kernel, by decide +kernel, by decide +kernel⟩

/-! ### C78: acknowledgement of PX4 log data -/

/-- The acknowledgements of a history that begins in any state. -/
theorem ulogAcks_run {env : LogEnv} (h77 : env.tbl 77 ≠ none) (h266 : env.tbl 266 ≠ none) (h267 : env.tbl 267 ≠ none)
    (evs : List ULogEv) (s v : ULog) (hi : TimerInv s.base) (hn : ∀ m ∈ messages evs, NumberPresent m)
    (hr : s.run env evs = some v) :
    ulogAcks v.base.out = ulogAcks s.base.out ++ numbersToAck evs ∧ TimerInv v.base := by
  have hack : ∀ e ∈ evs, ulogAckOf env e = numbersToAck [e] := by
    intro e he
    cases e with
    | msg m =>
      have hp := hn m (mem_messages.mpr he)
      simp only [ulogAckOf, numbersToAck, messages, List.filterMap_cons, List.filterMap_nil]
      by_cases h : m.msgId = 267
      · obtain ⟨h1, h2⟩ := hp h
        rw [if_pos h, if_pos h]
        have hb : ∀ k, k < 2 → m.rawByte env k = payloadByte m k := by
          intro k hk
          unfold Msg.rawByte payloadByte
          simp only [hdrLen_eq]
          rw [if_pos (by omega), List.getElem?_eq_getElem (by omega), List.getD_eq_getElem?_getD,
            List.getElem?_eq_getElem (by omega)]
          rfl
        rw [hb 0 (by omega), hb 1 (by omega)]
        congr 1
        unfold ulogNumber
        apply UInt16.toNat_inj.mp
        have e1 : (256 : UInt16).toNat = 256 := rfl
        have a0 := (payloadByte m 0).toNat_lt
        have a1 := (payloadByte m 1).toNat_lt
        simp only [UInt16.toNat_add, UInt16.toNat_mul, UInt8.toNat_toUInt16, e1, UInt16.toNat_ofNat']
        omega
      · rw [if_neg h, if_neg h]
    | startTimeout => rfl
    | aliveTimeout => rfl
    | stop => rfl
  have hgen : ∀ (evs : List ULogEv) (s v : ULog), TimerInv s.base → (∀ e ∈ evs, ulogAckOf env e = numbersToAck [e]) →
      s.run env evs = some v →
      ulogAcks v.base.out = ulogAcks s.base.out ++ numbersToAck evs ∧ TimerInv v.base := by
    intro evs
    induction evs with
    | nil => intro s v hi _ h; cases h; exact ⟨(List.append_nil _).symm, hi⟩
    | cons e evs ih =>
      intro s v hi hq h
      simp only [ULog.run] at h
      cases hs : s.step env e with
      | none => rw [hs] at h; cases h
      | some w =>
        rw [hs] at h
        obtain ⟨h1, h2⟩ := ulogStepW h77 h266 h267 hi e hs
        obtain ⟨g1, g2⟩ := ih w v h1.inv (fun x hx => hq x (List.mem_cons_of_mem _ hx)) h
        refine ⟨?_, g2⟩
        rw [g1, h2, hq e (List.mem_cons_self ..), List.append_assoc]
        congr 1
        simp only [numbersToAck, messages]
        rw [← List.filterMap_append, ← List.filterMap_append]
        rfl
  exact hgen evs s v hi hack hr

/-- C78: over any history, the numbers acknowledged are, in order, exactly the numbers of the
messages that ask for acknowledgement.  Missing from the full claim: messages whose number is not
transmitted because MAVLink 2 trimmed it (`C78_violated`). -/
theorem C78_acked_partial (env : LogEnv) (target : Option UInt8) (mode : LogMode) (evs : List ULogEv)
    (h77 : env.tbl 77 ≠ none) (h266 : env.tbl 266 ≠ none) (h267 : env.tbl 267 ≠ none)
    (hn : ∀ m ∈ messages evs, NumberPresent m) (u : ULog) (hu : (ULog.init target mode).run env evs = some u) :
    ulogAcks u.base.out = numbersToAck evs := by
  exact (ulogAcks_run h77 h266 h267 evs _ u (timerInv_init target mode) hn hu).1

/-- A LOGGING_DATA_ACKED message. -/
def Sample.ackedMsg (seq : UInt8) : Msg := { Sample.ulogMsg seq 16 255 Sample.ulogHdrBytes with msgId := 267 }

example : (∀ m ∈ [Sample.logHb 1 1 12 128, Sample.ackedMsg 0, Sample.ackedMsg 0, Sample.ackedMsg 7], NumberPresent m) ∧
    ((ULog.init (some 1) .always).run Sample.logEnv [.msg (Sample.logHb 1 1 12 128), .msg (Sample.ackedMsg 0),
      .msg (Sample.ackedMsg 0), .msg (Sample.ackedMsg 7)]).map (fun u => ulogAcks u.base.out) = some [0, 0, 7] := by
  refine ⟨?_, by decide +kernel⟩
  intro m hm
  simp only [List.mem_cons, List.not_mem_nil, or_false] at hm
  rcases hm with rfl | rfl | rfl | rfl
  · intro h; cases h
  · exact fun _ => ⟨by decide, by decide +kernel⟩
  · exact fun _ => ⟨by decide, by decide +kernel⟩
  · exact fun _ => ⟨by decide, by decide +kernel⟩

/-- An acknowledgeable message with number 5 and otherwise only zeros: MAVLink 2 transmits a single
byte of payload. -/
def Sample.trimmedAcked : Msg :=
  { data := [0xFD, 1, 0, 0, 0, 1, 1, 11, 1, 0] ++ [5] ++ [0x34, 0x12]
    msgId := 267, targetSys := 0, targetComp := 0, srcSys := 1, srcComp := 1, payloadLen := 1
    payloadOfs := some 10 }

/-- C78 is false: the high byte of a trimmed number is read from the checksum. -/
theorem C78_violated : ∃ (evs : List ULogEv) (u : ULog),
    (ULog.init (some 1) .always).run Sample.logEnv evs = some u ∧
    numbersToAck evs = [5] ∧ ulogAcks u.base.out = [0x3405] := by
  have h : ((ULog.init (some 1) .always).run Sample.logEnv [.msg Sample.trimmedAcked]).map
      (fun u => ulogAcks u.base.out) = some [0x3405] := by decide +kernel
  cases hr : (ULog.init (some 1) .always).run Sample.logEnv [.msg Sample.trimmedAcked] with
  | none => rw [hr] at h; cases h
  | some u =>
    rw [hr] at h
    exact ⟨_, u, hr, by decide +kernel, by simpa using h⟩

/-! ### C79: the first block -/

/-- C79: if writing to the log file never has to be tried again later, then in any history every
ArduPilot log file, closed or open, consists of writes of received blocks of which the first is of
block 0, and as long as the start is pending the open file is empty. -/
theorem C79_first_block (env : LogEnv) (target : Option UInt8) (mode : LogMode) (evs : List ULogEv)
    (ht : env.tbl 184 ≠ none) (hw : WholeBlocks evs) (hna : ∀ i, env.wr i ≠ .again) (l : BinLog)
    (hl : l = (BinLog.init target mode).run env evs) :
    ∃ (dn : List (List BlockWrite)) (op : List BlockWrite),
      l.base.done = dn.map laidOut ∧ (∀ c, l.base.file = some c → c = laidOut op) ∧
      WritesOf (received evs) (dn.flatten ++ op) ∧ (∀ ws ∈ dn, FirstOk ws) ∧ FirstOk op ∧
      (binRequests l → l.base.file = some []) := by
  obtain ⟨dn, op, h⟩ := (binHist1_init target mode).run hna evs (env := env)
  rw [← hl, flatMap_blockOfEv hw ht] at h
  refine ⟨dn, op, h.hist.done, ?_, by simpa using h.hist.from_, h.closed, h.current, ?_⟩
  · intro c hc
    rcases h.hist.file with ⟨hf, _⟩ | hf
    · rw [hf] at hc; cases hc
    · rw [hf] at hc; exact (Option.some.inj hc).symm
  · intro hr
    have hst := (binRequests_iff l).mp hr
    have hop := h.inv.startOpen hst
    have := h.pending hst
    subst this
    rcases h.hist.file with ⟨hf, _⟩ | hf
    · rw [hf] at hop; cases hop
    · rw [hf]; rfl

/-- Blocks before block 0 are not recorded. -/
example : (∀ i, Sample.binEnv.wr i ≠ .again) ∧ WholeBlocks Sample.binHist ∧
    ((BinLog.init (some 1) .always).run Sample.binEnv
      [.msg (Sample.logHb 1 1 3 128), .msg (Sample.binMsg 2 [7]), .msg (Sample.binMsg 0 [1, 2])]).base.file.map
        (fun c => (c.take 3, c.length)) = some ([1, 2, 0], 200) :=
  ⟨(fun _ h => nomatch h), sample_wholeBlocks, by decide +kernel⟩

/-- The hypothesis is needed: if writing block 0 has to be tried again, the program goes on with
the next block. -/
theorem C79_needs_no_again :
    let env := { Sample.binEnv with wr := fun i => if i = 0 then .again else .n 4096 }
    ((BinLog.init (some 1) .always).run env
      [.msg (Sample.logHb 1 1 3 128), .msg (Sample.binMsg 0 [1, 2]), .msg (Sample.binMsg 2 [7])]).base.file.map
        (fun c => (c.take 3, c.drop 400 |>.take 2)) = some ([0, 0, 0], [7, 0]) := by
  decide +kernel

end Verif
