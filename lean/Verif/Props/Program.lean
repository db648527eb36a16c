/-
From the command line to the router: the states a running program reaches are the states the routing
theorems speak about, whatever the files and arguments it was started with.
-/
import Verif.Props.Start
import Verif.Props.LogRouter
import Verif.Props.LogCall

namespace Verif

open Spec

/-- The executions of a program that started: routing events one after the other. -/
theorem runRouter_reached {σ : Type} (env : Env σ) : ∀ (evs : List RouterEv) (w w' : World σ) (as : List Arrival),
    Reached env w → runRouter env w evs = some (w', as) → Reached env w'
  | [], w, w', as, hw, h => by
    simp only [runRouter, Option.some.injEq, Prod.mk.injEq] at h
    obtain ⟨rfl, _⟩ := h
    exact hw
  | ev :: evs, w, w', as, hw, h => by
    rw [runRouter] at h
    split at h
    · cases h
    · rename_i w1 as1 h1
      split at h
      · cases h
      · rename_i w2 as2 h2
        simp only [Option.some.injEq, Prod.mk.injEq] at h
        obtain ⟨rfl, _⟩ := h
        exact runRouter_reached env evs w1 w2 as2 (hw.event h1) h2

/-- Every state of a running program is one the routing theorems (stated for `Reached`) cover. -/
theorem program_reached {σ : Type} (h : Host) (argv : List (List UInt8)) (r : Running) (hr : mainStart h argv = .runs r)
    (env : Env σ) (logs : Nat → σ) (evs : List RouterEv) (w : World σ) (as : List Arrival)
    (hrun : runRouter env (start r.eps logs) evs = some (w, as)) : Reached env w := by
  obtain ⟨_, _, _, _, hc, _⟩ := C92_endpoints h argv r hr
  exact runRouter_reached env evs _ w as (.start hc) hrun

theorem foldl_gen_not_log (env : Env LogSt) (hgen : GenFrom20 env) (depth : Nat) : ∀ (gs : List Msg) (w : World LogSt),
    LogsKnow20 w.eps → (∀ g ∈ gs, g.srcSys = 2 ∧ g.srcComp = 0) →
    ∃ new, Kept w (gs.foldl (routeMsg env depth true) w) new ∧
      ∀ s ∈ new, s.gen = true ∧ ∀ e, w.eps[s.ep]? = some e → e.kind ≠ .log
  | [], w, _, _ => ⟨[], .refl w, by simp⟩
  | g :: gs, w, hl, hg => by
    obtain ⟨a, ka, ha⟩ := routeMsg_gen_not_log env hgen depth true w g hl (fun _ => hg g (List.mem_cons_self ..))
    obtain ⟨b, kb, hb⟩ := foldl_gen_not_log env hgen depth gs (routeMsg env depth true w g) (by rw [ka.eps]; exact hl)
      (fun x hx => hg x (List.mem_cons_of_mem _ hx))
    refine ⟨a ++ b, ka.trans kb, ?_⟩
    intro s hs
    rcases List.mem_append.1 hs with hs | hs
    · exact ⟨(ha s hs).1 rfl, (ha s hs).2 ((ha s hs).1 rfl)⟩
    · rw [← ka.eps]; exact hb s hs

/-- **C21** for what a log endpoint sends when one of its timers runs out or the program ends: everything written is
a generated message and goes to no log endpoint. -/
theorem C21_calls (env : Env LogSt) (le : Nat → LogEnv) (now : Nat → UInt64) (w : World LogSt)
    (hw : Reached (env.withLogs le now) w) (i : Nat) (c : LogCall) :
    ∃ new, (logCall (env.withLogs le now) w i c).out = w.out ++ new ∧
      ∀ s ∈ new, s.gen = true ∧ ∀ e, w.eps[s.ep]? = some e → e.kind ≠ .log := by
  unfold logCall
  split
  · obtain ⟨new, hk, hn⟩ := foldl_gen_not_log (env.withLogs le now) (withLogs_gen20 env le now) 2
      (logTimer le i c (w.logs i)).2
      { w with logs := fun j => if j = i then (logTimer le i c (w.logs i)).1 else w.logs j } (reached_inv hw).logs20
      (logTimer_gen20 le i c (w.logs i))
    exact ⟨new, hk.out, hn⟩
  · exact ⟨[], by simp, by simp⟩

/-- In the sample router the PX4 log sends its request when the start timer runs out; it goes to the UART. -/
example : Reached Sample.lrEnv Sample.lr2 ∧
    ((logCall Sample.lrEnv Sample.lr2 2 .start).out.drop Sample.lr2.out.length).map (fun s => (s.ep, s.gen)) =
      [(0, true)] := ⟨Sample.lr2_reached, by decide +kernel⟩

/-- **C21** for a program started with any files and arguments, at any time of any execution: what its log
endpoints send while a message `m` is routed, or when a timer runs out, goes to no log endpoint, and nesting ends there. -/
theorem C21_program (h : Host) (argv : List (List UInt8)) (r : Running) (hr : mainStart h argv = .runs r)
    (env : Env LogSt) (le : Nat → LogEnv) (now : Nat → UInt64) (logs : Nat → LogSt) (evs : List RouterEv)
    (w : World LogSt) (as : List Arrival) (hrun : runRouter (env.withLogs le now) (start r.eps logs) evs = some (w, as))
    (m : Msg) (d : Nat) (i : Nat) (c : LogCall) :
    (∃ new, (routeMsg (env.withLogs le now) d false w m).out = w.out ++ new ∧
      ∀ s ∈ new, s.gen = true → ∀ e, w.eps[s.ep]? = some e → e.kind ≠ .log) ∧
    routeMsg (env.withLogs le now) (d + 2) false w m = routeMsg (env.withLogs le now) 2 false w m ∧
    (∃ new, (logCall (env.withLogs le now) w i c).out = w.out ++ new ∧
      ∀ s ∈ new, s.gen = true ∧ ∀ e, w.eps[s.ep]? = some e → e.kind ≠ .log) := by
  have hw := program_reached h argv r hr (env.withLogs le now) logs evs w as hrun
  exact ⟨C21_log_endpoints env le now w hw m d, C21_log_endpoints_depth env le now w hw m d,
    C21_calls env le now w hw i c⟩

/-- A program with a UART, a PX4 log and a telemetry log, that received a frame. -/
def Sample.hostLogs : Host :=
  { file := fun _ => .content (ascii "[General]\nLog=/l\nMavlinkDialect=common\nLogTelemetry=true\n")
    isChr := fun d => d == ascii "/dev/ttyS0" }

/-- Its log endpoints. -/
def Sample.hostLogSt : Nat → LogSt := fun i =>
  if i = 1 then ⟨some (.ulog (ULog.init none .always)), 0⟩ else ⟨some (.tlog (tlogInit none .always)), 0⟩

/-- A heartbeat of autopilot 1/1 as received, with its checksum. -/
def Sample.hostHb : List UInt8 :=
  [0xFD, 9, 0, 0, 0, 1, 1, 0, 0, 0, 0, 0, 0, 0, 2, 12, 0, 4, 3, 0xb6, 0xbd]

/-- A running program of `C21_program`: after the heartbeat arrived on the UART, both logs had it and, when the start timer ran out, the command
to start the log was written to the UART only. -/
example : ∃ r w as, mainStart Sample.hostLogs [ascii "/dev/ttyS0:57600"] = .runs r ∧
    runRouter Sample.lrEnv (start r.eps Sample.hostLogSt) [.read 0 (.got Sample.hostHb), .logCall 1 .start] = some (w, as) ∧
    w.out.map (fun s => (s.ep, s.gen)) = [(1, false), (2, false), (0, true)] := by
  refine ⟨{ eps := [{ kind := .uart }, logEp, logEp], sniffer := 0, dedup := 0, server := some 5760,
            stats := false, log := { dir := ascii "/l", dialect := .common, telemetry := true } }, ?_⟩
  cases h : runRouter Sample.lrEnv (start [{ kind := .uart }, logEp, logEp] Sample.hostLogSt)
      [.read 0 (.got Sample.hostHb), .logCall 1 .start] with
  | none => exact absurd (congrArg Option.isSome h) (by decide +kernel)
  | some x =>
    refine ⟨x.1, x.2, by decide +kernel, rfl, ?_⟩
    have hd : (runRouter Sample.lrEnv (start [{ kind := .uart }, logEp, logEp] Sample.hostLogSt)
        [.read 0 (.got Sample.hostHb), .logCall 1 .start]).map (fun x => x.1.out.map (fun s => (s.ep, s.gen))) =
        some [(1, false), (2, false), (0, true)] := by decide +kernel
    rw [h] at hd
    exact Option.some.inj hd

end Verif
