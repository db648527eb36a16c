/-
C20, C21, C44 for the router with its actual log endpoints.
-/
import Verif.Lemmas.LogRouter
import Verif.Props.Routing
import Verif.Props.TLog

namespace Verif

open Verif.Spec

/-! ### C21 without hypothesis on the log endpoints -/

/-- **C21** for the ULog, BinLog, AutoLog and TLog endpoints as modelled: nothing they generate is
written to a log endpoint. -/
theorem C21_log_endpoints (env : Env LogSt) (le : Nat → LogEnv) (now : Nat → UInt64) (w : World LogSt)
    (hw : Reached (env.withLogs le now) w) (m : Msg) (depth : Nat) :
    ∃ new, (routeMsg (env.withLogs le now) depth false w m).out = w.out ++ new ∧
      ∀ s ∈ new, s.gen = true → ∀ e, w.eps[s.ep]? = some e → e.kind ≠ .log :=
  C21_not_to_log _ (withLogs_gen20 env le now) w hw m depth

/-- **C21** (no recursion) for the log endpoints as modelled. -/
theorem C21_log_endpoints_depth (env : Env LogSt) (le : Nat → LogEnv) (now : Nat → UInt64) (w : World LogSt)
    (hw : Reached (env.withLogs le now) w) (m : Msg) (d : Nat) :
    routeMsg (env.withLogs le now) (d + 2) false w m = routeMsg (env.withLogs le now) 2 false w m :=
  C21_depth _ (withLogs_gen20 env le now) w hw m d

/-! ### A sample router: a UART, a UDP endpoint, a PX4 log, a telemetry log, a later TCP client -/

namespace Sample

def lrEps : List Ep :=
  [{ kind := .uart }, { kind := .udp }, { kind := .log, learned := [sysComp 2 0] },
   { kind := .log, learned := [sysComp 2 0] }]

theorem lrEps_ok : ConfigOk lrEps := by unfold ConfigOk; decide

def lrEnv : Env LogSt :=
  Env.withLogs
    { tbl := binTbl, hashFn := fun bs => UInt64.ofNat (bs.foldl (fun a b => a * 256 + b.toNat) 0),
      clock := fun n => n, wres := fun _ => 1, log := fun _ s m => (s, [], m.data) }
    (fun _ => binEnv) (fun n => UInt64.ofNat (1000 * n))

/-- Log endpoint 2 is the PX4 log, 3 the telemetry log. -/
def lrLogs : Nat → LogSt := fun i =>
  if i = 2 then ⟨some (.ulog (ULog.init none .always)), 0⟩ else ⟨some (.tlog (tlogInit none .always)), 0⟩

def lr0 : World LogSt := start lrEps lrLogs

/-- After the connection of a TCP client. -/
def lr1 : World LogSt := ((routerStep lrEnv lr0 .accept).map Prod.fst).getD lr0

/-- After a heartbeat of autopilot 1/1 on the UART: both logs are open. -/
def lr2 : World LogSt := ((handleMsg lrEnv lr1 0 (logHb 1 1 12 0)).map Prod.fst).getD lr1

theorem lr1_reached : Reached lrEnv lr1 := by
  cases h : routerStep lrEnv lr0 .accept with
  | none => exact absurd (congrArg Option.isSome h) (by decide +kernel)
  | some r =>
    have : lr1 = r.1 := by unfold lr1; rw [h]; rfl
    rw [this]
    exact .event (.start lrEps_ok) (show routerStep lrEnv lr0 .accept = some (r.1, r.2) from h)

theorem lr2_reached : Reached lrEnv lr2 := by
  cases h : handleMsg lrEnv lr1 0 (logHb 1 1 12 0) with
  | none => exact absurd (congrArg Option.isSome h) (by decide +kernel)
  | some r =>
    have : lr2 = r.1 := by unfold lr2; rw [h]; rfl
    rw [this]
    exact .message lr1_reached (show handleMsg lrEnv lr1 0 (logHb 1 1 12 0) = some (r.1, r.2) from h)

/-- The first packet of a ULog stream, broadcast by 1/1. -/
def lrData : Msg := ulogMsg 0 21 16 (ulogHdrBytes ++ ulogMsgA)

/-- What the router does with it. -/
def lr3 : World LogSt := ((handleMsg lrEnv lr2 0 lrData).map Prod.fst).getD lr2

end Sample

example : Reached Sample.lrEnv Sample.lr2 ∧
    (directSince Sample.lr1 Sample.lr2).map Sent.ep = [1, 2, 3, 4] := ⟨Sample.lr2_reached, by decide +kernel⟩

/-! ### C20 -/

/-- C20 fails: the first packet of a ULog stream is handed unchanged to the UDP endpoint and the
PX4 log; the PX4 log removes the file header in the shared buffer, so that the telemetry log and the
TCP client get other bytes. -/
theorem C20_violated : ∃ (w w' : World LogSt) (m : Msg), Reached Sample.lrEnv w ∧
    handleMsg Sample.lrEnv w 0 m = some (w', true) ∧ m.targetSys = 0 ∧
    (directSince w w').map (fun s => (s.ep, decide (s.bytes = m.data))) =
      [(1, true), (2, true), (3, false), (4, false)] := by
  refine ⟨Sample.lr2, Sample.lr3, Sample.lrData, Sample.lr2_reached, ?_, rfl, by decide +kernel⟩
  cases h : handleMsg Sample.lrEnv Sample.lr2 0 Sample.lrData with
  | none => exact absurd (congrArg Option.isSome h) (by decide +kernel)
  | some r =>
    have h1 : Sample.lr3 = r.1 := by unfold Sample.lr3; rw [h]; rfl
    have h2 : r.2 = true := by
      have := congrArg (Option.map Prod.snd) h
      have h3 : (handleMsg Sample.lrEnv Sample.lr2 0 Sample.lrData).map Prod.snd = some true := by decide +kernel
      rw [h3] at this
      exact (Option.some.inj this).symm
    rw [h1, ← h2]

/-- **C20**, partial, for the log endpoints as modelled: every message except LOGGING_DATA and
LOGGING_DATA_ACKED is handed unmodified to every endpoint that takes it.  Missing: those two
(`C20_violated`). -/
theorem C20_log_endpoints_partial (env : Env LogSt) (le : Nat → LogEnv) (now : Nat → UInt64) (w : World LogSt)
    (m : Msg) (depth : Nat) (h1 : m.msgId ≠ 266) (h2 : m.msgId ≠ 267) :
    ∀ s ∈ directSince w (routeMsg (env.withLogs le now) (depth + 1) false w m), s.bytes = m.data :=
  C20_same_bytes_partial _ w m depth (fun i _ _ _ _ s => logWrite_data le now i s m h1 h2)

example : (directSince Sample.lr2 (routeMsg Sample.lrEnv 2 false Sample.lr2 (Sample.logHb 5 1 3 0))).map Sent.ep =
    [0, 1, 2, 3, 4] ∧ (Sample.logHb 5 1 3 0).msgId = 0 := ⟨by decide +kernel, rfl⟩

/-! ### C44 -/

/-- The state of a telemetry log endpoint. -/
def LogSt.tlog (s : LogSt) : Option LogBase :=
  match s.logger with
  | some (.tlog b) => some b
  | _ => none

/-- C44 fails: with an open telemetry log a message from 42/200 on UDP for 1/1 is routed to the
UART and is not recorded. -/
theorem C44_violated : ∃ (w w' : World LogSt) (m : Msg), Reached Sample.lrEnv w ∧ MsgOk m ∧
    handleMsg Sample.lrEnv w 1 m = some (w', true) ∧ (directSince w w').map Sent.ep = [0] ∧
    ((w.logs 3).tlog.map (·.file.isSome)) = some true ∧ w'.logs 3 = w.logs 3 := by
  have h3 : (handleMsg Sample.lrEnv Sample.lr2 1 Sample.mCmd).map Prod.snd = some true := by decide +kernel
  cases h : handleMsg Sample.lrEnv Sample.lr2 1 Sample.mCmd with
  | none => rw [h] at h3; cases h3
  | some r =>
    obtain ⟨w', b⟩ := r
    rw [h] at h3
    have hb : b = true := Option.some.inj h3
    subst hb
    have hd : ((handleMsg Sample.lrEnv Sample.lr2 1 Sample.mCmd).map
        fun r => ((directSince Sample.lr2 r.1).map Sent.ep, r.1.logs 3)) = some ([0], Sample.lr2.logs 3) := by
      decide +kernel
    rw [h] at hd
    have hd := Option.some.inj hd
    exact ⟨Sample.lr2, w', Sample.mCmd, Sample.lr2_reached, Sample.mCmd_ok, h, congrArg Prod.fst hd,
      by decide +kernel, congrArg Prod.snd hd⟩

/-- What the telemetry log endpoint takes: broadcasts and messages to all components of system 2
(its own id); with sniffer 2 everything.  In each case not from 2/0. -/
theorem C44_takes (sniffer : Nat) (e : Ep) (m : Msg) (hm : MsgOk m) (hl : e.learned = [sysComp 2 0])
    (hf : e.filters = {}) :
    ShouldSend sniffer e m ↔ ¬ (m.srcSys = 2 ∧ m.srcComp = 0) ∧
      (m.targetSys ≤ 0 ∨ (m.targetSys = 2 ∧ m.targetComp ≤ 0) ∨ sniffer % 256 = 2) := by
  have hk : ∀ s c, Knows e s c ↔ 256 * s + c = 512 := by
    intro s c
    unfold Knows
    rw [hl]
    simp only [List.mem_singleton, exists_eq_left, sysComp_toNat]
    exact eq_comm
  have hks : ∀ s, KnowsSys e s ↔ s = 2 := by
    intro s
    unfold KnowsSys
    constructor
    · rintro ⟨c, hc, h⟩
      rw [hk] at h
      omega
    · rintro rfl
      exact ⟨0, by decide, (hk 2 0).mpr rfl⟩
  have hfrom : FromHere e m ↔ m.srcSys = 2 ∧ m.srcComp = 0 := by
    unfold FromHere
    rw [hk]
    have h1 := m.srcSys.toNat_lt
    have h2 := m.srcComp.toNat_lt
    constructor
    · intro h
      exact ⟨UInt8.toNat_inj.mp (show m.srcSys.toNat = 2 by omega), UInt8.toNat_inj.mp (show m.srcComp.toNat = 0 by omega)⟩
    · rintro ⟨h1, h2⟩
      rw [h1, h2]
      rfl
  have hout : outOk e.filters m := by
    rw [hf]
    simp [outOk, passes]
  have haddr : Addressed e m ↔ m.targetSys ≤ 0 ∨ (m.targetSys = 2 ∧ m.targetComp ≤ 0) := by
    unfold Addressed
    rw [hks, hk]
    have := hm.tsys
    have := hm.tcomp
    constructor
    · rintro (h | ⟨h1, h2⟩ | ⟨h1, h2⟩)
      · exact .inl h
      · exact .inr ⟨by omega, h1⟩
      · omega
    · rintro (h | ⟨h1, h2⟩)
      · exact .inl h
      · exact .inr (.inl ⟨h2, by omega⟩)
  have hsn : Sniffs sniffer e ↔ sniffer % 256 = 2 := by
    unfold Sniffs
    rw [hks]
    omega
  unfold ShouldSend
  rw [hfrom, haddr, hsn]
  constructor
  · rintro ⟨h1, _, h | h⟩
    · exact ⟨h1, h.imp id .inl⟩
    · exact ⟨h1, .inr (.inr h)⟩
  · rintro ⟨h1, h | h | h⟩
    · exact ⟨h1, hout, .inl (.inl h)⟩
    · exact ⟨h1, hout, .inl (.inr h)⟩
    · exact ⟨h1, hout, .inr h⟩

example : MsgOk Sample.mHb ∧ ShouldSend 0 { kind := .log, learned := [sysComp 2 0] } Sample.mHb ∧
    ¬ ShouldSend 0 { kind := .log, learned := [sysComp 2 0] } Sample.mCmd :=
  ⟨Sample.mHb_ok, (C44_takes 0 _ _ Sample.mHb_ok rfl rfl).mpr (by decide),
    fun h => absurd ((C44_takes 0 _ _ Sample.mCmd_ok rfl rfl).mp h) (by decide)⟩

/-- **C44**, partial: in every reachable state, when a message passes and the telemetry log `j` is
open in "always" mode: if the routing rule names the log endpoint, exactly one record is appended,
with the current time and the frame that was handed over (the received one, except for
LOGGING_DATA); otherwise the log is untouched.  Missing: messages to particular systems
(`C44_violated`; `C44_takes` says exactly which are taken), short writes (`C43_violated`). -/
theorem C44_recorded_partial (env : Env LogSt) (le : Nat → LogEnv) (now : Nat → UInt64) (n : Nat)
    (w w' : World LogSt) (hw : Reached (env.withLogs le now) w) (i : Nat) (m : Msg) (hm : MsgOk m)
    (h : handleMsg (env.withLogs le now) w i m = some (w', true))
    (j : Nat) (e : Ep) (b : LogBase) (c : List UInt8) (hj : j ∈ w.active) (he : w'.eps[j]? = some e)
    (hk : e.kind = .log) (hb : (w.logs j).tlog = some b) (hmode : b.mode = .always) (hc : b.file = some c)
    (hwr : WritesUpTo n (le j)) (hn : 8 ≤ n)
    (hlen : ∀ s ∈ directSince w w', s.bytes.length ≤ n) :
    (¬ ShouldSend env.sniffer.toNat e m → w'.logs j = w.logs j) ∧
    (ShouldSend env.sniffer.toNat e m → ∃ data ts, { ep := j, bytes := data, gen := false } ∈ directSince w w' ∧
      (m.msgId ≠ 266 ∧ m.msgId ≠ 267 → data = m.data) ∧
      ts.length = 8 ∧ beVal ts = (now (w.logs j).tick).toNat ∧
      (w'.logs j).tlog.bind (·.file) = some (c ++ ts ++ data)) := by
  have hinv := reached_inv hw
  obtain ⟨w1, b1, h1, hinv', _, _, _, ht, _⟩ := handleMsg_spec (env.withLogs le now) w hinv i m
  rw [h] at h1
  cases h1
  obtain ⟨h', d, _, _, hw'⟩ := ht rfl
  have hw2 : ∀ x, w' = (if x = true then
        { (routeLoop (env.withLogs le now) (routeMsg (env.withLogs le now) 1 true) false w.active
            { w with eps := h', dedup := d, checks := w.checks + 1 } m true).1 with
          unknown := (routeLoop (env.withLogs le now) (routeMsg (env.withLogs le now) 1 true) false w.active
            { w with eps := h', dedup := d, checks := w.checks + 1 } m true).1.unknown + 1 }
      else (routeLoop (env.withLogs le now) (routeMsg (env.withLogs le now) 1 true) false w.active
            { w with eps := h', dedup := d, checks := w.checks + 1 } m true).1) ∨
      x ≠ (routeLoop (env.withLogs le now) (routeMsg (env.withLogs le now) 1 true) false w.active
            { w with eps := h', dedup := d, checks := w.checks + 1 } m true).2 := by
    intro x
    by_cases hx : x = (routeLoop (env.withLogs le now) (routeMsg (env.withLogs le now) 1 true) false w.active
            { w with eps := h', dedup := d, checks := w.checks + 1 } m true).2
    · left
      rw [hw', hx]
      rfl
    · exact .inr hx
  have hlogs : w'.logs = (routeLoop (env.withLogs le now) (routeMsg (env.withLogs le now) 1 true) false w.active
      { w with eps := h', dedup := d, checks := w.checks + 1 } m true).1.logs := by
    rcases hw2 _ with hx | hx
    · rw [hx]
      split <;> rfl
    · exact absurd rfl hx
  obtain ⟨nk, hkept, _⟩ := routeMsg_spec (env.withLogs le now) 1
    { w with eps := h', dedup := d, checks := w.checks + 1 } m
  have heps : w'.eps = h' := by rw [hw']; exact hkept.eps
  have hout : directSince w w' = directSince { w with eps := h', dedup := d, checks := w.checks + 1 } w' := rfl
  have hl20 : LogsKnow20 h' := by
    rw [← heps]
    exact hinv'.logs20
  have key := routeLoop_logs (env.withLogs le now) (withLogs_gen20 env le now) 1 j e w.active
    { w with eps := h', dedup := d, checks := w.checks + 1 } m true hinv.actNodup hl20 (by rw [← heps]; exact he) hk
  have hacc := acceptMsg_accepted env.sniffer e m hm
  constructor
  · intro hno
    rw [hlogs]
    exact key.1 (.inr (fun ha => hno (hacc.mp ha)))
  · intro hyes
    obtain ⟨data, new, g1, g2, g3⟩ := key.2 ⟨hj, hacc.mpr hyes⟩
    have hmem : { ep := j, bytes := data, gen := false } ∈ directSince w w' := by
      rw [hout]
      unfold directSince
      have : w'.out = w.out ++ new := by
        rcases hw2 _ with hx | hx
        · rw [hx]
          have := g2.out
          split
          · exact this
          · exact this
        · exact absurd rfl hx
      rw [this, List.drop_left, List.mem_filter]
      exact ⟨g3, rfl⟩
    have hlogger : (w.logs j).logger = some (.tlog b) := by
      unfold LogSt.tlog at hb
      split at hb
      · cases hb
        assumption
      · cases hb
    have hstep : (w'.logs j).tlog = some (tlogWriteMsg (le j) b.quiet (now (w.logs j).tick) { m with data := data }) := by
      rw [hlogs, g1]
      show (logWrite le now j (w.logs j) { m with data := data }).1.tlog = _
      unfold logWrite
      rw [hlogger]
      rfl
    have hopen : ∀ x : LogBase, x.mode = .always → x.file = some c → ∀ y : TLogEv,
        (tlogWriteMsg (le j) x y.now y.msg).file ≠ none := by
      intro x hxm hxf y
      have h1 : (x.learnTarget y.msg).mode = .always ∧ (x.learnTarget y.msg).file = some c := by
        unfold LogBase.learnTarget
        split <;> exact ⟨hxm, hxf⟩
      have h2 : tlogAuto (le j) (x.learnTarget y.msg) y.msg = x.learnTarget y.msg := by
        unfold tlogAuto
        have : (x.learnTarget y.msg).autoAct (le j) y.msg = .nothing := by
          unfold LogBase.autoAct
          split
          · rfl
          · rw [h1.1]
            simp only
            rw [if_neg (by rw [h1.2]; simp)]
        rw [this]
      have hwf : ∀ (z : LogBase) bs, z.file ≠ none → (z.write (le j) bs).1.file ≠ none := by
        intro z bs hz
        unfold LogBase.write
        split
        · rename_i hn
          exact absurd hn hz
        · split
          · simp
          · rename_i hs _ _
            rw [hs]; simp
          · rename_i hs _ _
            rw [hs]; simp
      unfold tlogWriteMsg
      simp only
      rw [h2]
      exact hwf _ _ (hwf _ _ (by rw [h1.2]; simp))
    rcases C43_step_partial (le j) n b.quiet ⟨now (w.logs j).tick, { m with data := data }⟩ hwr (by omega)
      (hlen _ hmem) with hx | ⟨c', ts, hx, ht1, ht2, hc'⟩
    · exact absurd hx (hopen b.quiet hmode hc _)
    · refine ⟨data, ts, hmem, ?_, ht1, ht2, ?_⟩
      · rintro ⟨hn1, hn2⟩
        have := C20_log_endpoints_partial env le now { w with eps := h', dedup := d, checks := w.checks + 1 } m 1
          hn1 hn2 { ep := j, bytes := data, gen := false } (by rw [← hw']; exact hmem)
        exact this
      · rw [hstep]
        rcases hc' with hc' | ⟨hc', _⟩
        · have : c = c' := by
            have h0 : b.quiet.file = some c := hc
            rw [h0] at hc'
            exact Option.some.inj hc'
          subst this
          exact hx
        · have h0 : b.quiet.file = some c := hc
          rw [h0] at hc'
          cases hc'

/-- The hypotheses hold in the sample router; a broadcast is recorded after the heartbeat. -/
example : 3 ∈ Sample.lr2.active ∧ (Sample.lr2.eps[3]?).map Ep.kind = some .log ∧
    (Sample.lr2.logs 3).tlog.map (fun b => (b.mode, b.file.map List.length)) = some (.always, some 29) ∧
    ((handleMsg Sample.lrEnv Sample.lr2 1 (Sample.logHb 42 200 8 0)).bind fun r =>
      ((r.1.logs 3).tlog.bind (·.file)).bind readTlog |>.map (·.length)) = some 2 :=
  ⟨by decide +kernel, by decide +kernel, by decide +kernel, by decide +kernel⟩

end Verif
