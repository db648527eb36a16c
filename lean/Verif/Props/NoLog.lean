/- C116: what the endpoints are given does not depend on logging. -/
import Verif.Lemmas.NoLog
import Verif.Props.LogRouter

namespace Verif

open Verif.Spec

variable {σ τ : Type}

/-- **C116** (partial): for any configuration and any events, the router with its log endpoints and the router without them accept the
same messages, learn the same addresses and give them to the same endpoints in the same order; the bytes are the same too, if no
log endpoint edits the buffer of a message that arrived, and in any case for the first `K` endpoints if these are no log endpoints
(all configured links, `C92_links_first`).  The log endpoints and the results of writes may be
anything.  Missing: the bytes TCP clients get after an edit (`C116_violated`). -/
theorem C116_partial (env : Env σ) (env' : Env τ) (hn : SameNet env env') (eps : List Ep) (hc : ConfigOk eps)
    (logs : Nat → σ) (logs' : Nat → τ) (evs : List RouterEv) (K : Nat) (hK : ∀ i e, i < K → eps[i]? = some e → e.kind ≠ .log) :
    ∃ w w' as, runRouter env (start eps logs) evs = some (w, as) ∧
      runRouter env' (withoutLogs (start eps logs')) (evs.filter notLogCall) = some (w', as) ∧ w'.eps = w.eps ∧
      (delivered w').map Sent.ep = (delivered w).map Sent.ep ∧
      ((∀ a ∈ as, a.passed = true → Unedited env a.msg) → delivered w' = delivered w) ∧
      (delivered w').filter (fun s => s.ep < K) = (delivered w).filter (fun s => s.ep < K) := by
  have hb : ∀ i, i < K → isLogEp (start eps logs).eps i = false := by
    intro i hi
    show (((linkGroups eps)[i]?).map Ep.kind == some .log) = false
    rcases linkGroups_get eps i with ⟨h, _⟩ | ⟨e, e', h1, h2, h3, _⟩
    · rw [h]; rfl
    · have := hK i e hi h1
      rw [h2]
      simpa [h3] using this
  obtain ⟨w, w', as, h1, h2, h3⟩ := runRouter_same env env' hn evs (start eps logs) (withoutLogs (start eps logs')) K True
    (start_inv eps hc logs) ⟨rfl, rfl, rfl, rfl, hb, rfl, fun _ => rfl, rfl⟩
  have hv : delivered w' = vis w.eps w'.out := by unfold delivered vis; rw [h3.eps]
  exact ⟨w, w', as, h1, h2, h3.eps, by rw [hv]; exact h3.out.1.symm, fun hu => by rw [hv]; exact (h3.out.2.1 ⟨trivial, hu⟩).symm,
    by rw [hv]; exact h3.out.2.2.symm⟩

/-- **C116** (partial) for the ULog, BinLog, AutoLog and TLog endpoints as modelled: what is given to the other endpoints does not depend
on them as long as no LOGGING_DATA or LOGGING_DATA_ACKED arrives.  Missing: what TCP clients get of
these two (`C116_violated`). -/
theorem C116_log_endpoints_partial (env : Env LogSt) (le : Nat → LogEnv) (now : Nat → UInt64) (env' : Env τ) (hn : SameNet env env')
    (eps : List Ep) (hc : ConfigOk eps) (logs : Nat → LogSt) (logs' : Nat → τ) (evs : List RouterEv)
    (K : Nat) (hK : ∀ i e, i < K → eps[i]? = some e → e.kind ≠ .log) :
    ∃ w w' as, runRouter (env.withLogs le now) (start eps logs) evs = some (w, as) ∧
      runRouter env' (withoutLogs (start eps logs')) (evs.filter notLogCall) = some (w', as) ∧ w'.eps = w.eps ∧
      (delivered w').map Sent.ep = (delivered w).map Sent.ep ∧
      ((∀ a ∈ as, a.passed = true → a.msg.msgId ≠ 266 ∧ a.msg.msgId ≠ 267) → delivered w' = delivered w) ∧
      (delivered w').filter (fun s => s.ep < K) = (delivered w).filter (fun s => s.ep < K) := by
  obtain ⟨w, w', as, h1, h2, h3, h4, h5, h6⟩ := C116_partial (env.withLogs le now) env'
    ⟨hn.tbl, hn.hashFn, hn.clock, hn.sniffer, hn.dedupPeriod⟩ eps hc logs logs' evs K hK
  refine ⟨w, w', as, h1, h2, h3, h4, fun hu => h5 fun a ha hp i s => ?_, h6⟩
  exact logWrite_data le now i s a.msg (hu a ha hp).1 (hu a ha hp).2

namespace Sample

/-- The router without logs, whose writes fail. -/
def noLogEnv : Env Unit :=
  { tbl := lrEnv.tbl, hashFn := lrEnv.hashFn, clock := lrEnv.clock, wres := fun _ => -11, log := fun _ _ m => ((), [], m.data) }

theorem noLogEnv_same : SameNet lrEnv noLogEnv := ⟨rfl, rfl, rfl, rfl, rfl⟩

/-- A TCP client connects, heartbeats arrive on the UART and the UDP endpoint, timers of the PX4 log fire. -/
def noLogEvs : List RouterEv :=
  [.accept, .read 0 (.got hb2.encode), .logCall 2 .start, .logCall 2 .alive, .read 1 (.got hb1.encode), .aggregate]

/-- The first packet of a ULog stream as a frame. -/
def ulogFrame : Frame :=
  { v2 := true, seq := 0, sys := 1, comp := 1, msgid := 266, payload := (lrData.data.drop 10).take 255, crcLo := 50, crcHi := 192 }

/-- A heartbeat, then a ULog stream. -/
def noLogBad : List RouterEv := [.accept, .read 0 (.got hb2.encode), .read 0 (.got ulogFrame.encode)]

end Sample

/-- The PX4 log asks for the log in between (`gen`), the deliveries are the same. -/
example : ConfigOk Sample.lrEps ∧
    (runRouter Sample.lrEnv (start Sample.lrEps Sample.lrLogs) Sample.noLogEvs).map
      (fun r => ((delivered r.1).map Sent.ep, r.1.out.any (·.gen), r.2.map (fun a => (a.passed, a.msg.msgId)))) =
      some ([1, 4, 4], true, [(true, 0), (true, 0)]) ∧
    (runRouter Sample.noLogEnv (withoutLogs (start Sample.lrEps (fun _ => ()))) (Sample.noLogEvs.filter notLogCall)).map
      (fun r => ((delivered r.1).map Sent.bytes, r.1.out.length)) =
      some ([Sample.hb2.encode, Sample.hb2.encode, Sample.hb1.encode], 3) :=
  ⟨Sample.lrEps_ok, by decide +kernel, by decide +kernel⟩

/-- The first two endpoints of the sample are no log endpoints; the ULog stream reaches the second one unaltered. -/
example : (∀ i e, i < 2 → Sample.lrEps[i]? = some e → e.kind ≠ .log) ∧
    (runRouter Sample.lrEnv (start Sample.lrEps Sample.lrLogs) Sample.noLogBad).map
      (fun r => ((delivered r.1).filter (fun s => s.ep < 2)).map Sent.bytes) = some [Sample.hb2.encode, Sample.ulogFrame.encode] := by
  refine ⟨?_, by decide +kernel⟩
  intro i e hi he
  match i, hi with
  | 0, _ => cases he; decide
  | 1, _ => cases he; decide

/-- C116 fails: with the PX4 log the TCP client that connected later is given other bytes than without. -/
theorem C116_violated : ∃ (w : World LogSt) (w' : World Unit) (as : List Arrival), SameNet Sample.lrEnv Sample.noLogEnv ∧
    runRouter Sample.lrEnv (start Sample.lrEps Sample.lrLogs) Sample.noLogBad = some (w, as) ∧
    runRouter Sample.noLogEnv (withoutLogs (start Sample.lrEps (fun _ => ()))) (Sample.noLogBad.filter notLogCall) = some (w', as) ∧
    (delivered w).map Sent.ep = [1, 4, 1, 4] ∧ (delivered w').map Sent.ep = [1, 4, 1, 4] ∧
    (delivered w').map Sent.bytes = [Sample.hb2.encode, Sample.hb2.encode, Sample.ulogFrame.encode, Sample.ulogFrame.encode] ∧
    (delivered w).map Sent.bytes ≠ (delivered w').map Sent.bytes := by
  obtain ⟨w, w', as, h1, h2, h3, h4, _⟩ := C116_partial Sample.lrEnv Sample.noLogEnv Sample.noLogEnv_same Sample.lrEps
    Sample.lrEps_ok Sample.lrLogs (fun _ => ()) Sample.noLogBad 0 (fun _ _ h => absurd h (Nat.not_lt_zero _))
  have e1 : (runRouter Sample.noLogEnv (withoutLogs (start Sample.lrEps (fun _ => ()))) (Sample.noLogBad.filter notLogCall)).map
      (fun r => ((delivered r.1).map Sent.ep, (delivered r.1).map Sent.bytes)) = some ([1, 4, 1, 4],
      [Sample.hb2.encode, Sample.hb2.encode, Sample.ulogFrame.encode, Sample.ulogFrame.encode]) := by decide +kernel
  have e2 : (runRouter Sample.lrEnv (start Sample.lrEps Sample.lrLogs) Sample.noLogBad).map
      (fun r => decide ((delivered r.1).map Sent.bytes =
        [Sample.hb2.encode, Sample.hb2.encode, Sample.ulogFrame.encode, Sample.ulogFrame.encode])) = some false := by decide +kernel
  rw [h1] at e2
  rw [h2] at e1
  simp only [Option.map_some, Option.some.injEq, Prod.mk.injEq] at e1
  refine ⟨w, w', as, Sample.noLogEnv_same, h1, h2, h4.symm.trans e1.1, e1.1, e1.2, ?_⟩
  rw [e1.2]
  exact of_decide_eq_false (Option.some.inj e2)

end Verif
