/- C88: the bytes of messages that a log endpoint edits. -/
import Verif.Props.Complete
import Verif.Props.NoLog

namespace Verif

open Verif.Spec

/-- The table of the sample router lists messages under their own number. -/
theorem Sample.lrTable_ok : TableOk Sample.lrEnv.tbl := by
  intro id e h
  have h : Sample.binTbl id = some e := h
  unfold Sample.binTbl Sample.ulogTbl Sample.tbl at h
  repeat' split at h
  all_goals first | (cases h; first | rfl | (subst id; rfl)) | cases h

/-- **C88** is false of the code: of a client of the TCP server, which stands behind the PX4 log, it does not hold that it is
handed what arrived. Here it is to get the first packet of a log stream, and gets something else. -/
theorem C88_violated : ∃ (evs1 evs2 : List RouterEv) (w1 w2 : World LogSt) (as1 as2 : List Arrival) (j : Nat),
    ConfigOk Sample.lrEps ∧ runRouter Sample.lrEnv (start Sample.lrEps Sample.lrLogs) evs1 = some (w1, as1) ∧
    runRouter Sample.lrEnv w1 evs2 = some (w2, as2) ∧ j ∈ w1.active ∧ (∀ gone, RouterEv.hangups gone ∈ evs2 → j ∉ gone) ∧
    (expected 0 Sample.lrEps j as1 as2).map (fun a => a.msg.data) = [Sample.ulogFrame.encode] ∧
    (writesTo j w1 w2).map Sent.bytes ≠ [Sample.ulogFrame.encode] := by
  have ht : TableOk Sample.lrEnv.tbl := Sample.lrTable_ok
  cases h1 : runRouter Sample.lrEnv (start Sample.lrEps Sample.lrLogs) [.accept, .read 0 (.got Sample.hb2.encode)] with
  | none => exact absurd (congrArg Option.isSome h1) (by decide +kernel)
  | some r1 =>
    obtain ⟨w1, as1⟩ := r1
    have e1 : (runRouter Sample.lrEnv (start Sample.lrEps Sample.lrLogs) [.accept, .read 0 (.got Sample.hb2.encode)]).map
        (fun r => decide (4 ∈ r.1.active)) = some true := by decide +kernel
    have e2 : ((runRouter Sample.lrEnv (start Sample.lrEps Sample.lrLogs) [.accept, .read 0 (.got Sample.hb2.encode)]).bind
        (fun r => (runRouter Sample.lrEnv r.1 [.read 0 (.got Sample.ulogFrame.encode)]).map
          (fun q => (q.2.map (fun a => a.msg.data), (writesTo 4 r.1 q.1).length,
            decide ((writesTo 4 r.1 q.1).map Sent.bytes = [Sample.ulogFrame.encode]))))) =
          some ([Sample.ulogFrame.encode], 1, false) := by decide +kernel
    rw [h1] at e1 e2
    simp only [Option.map_some, Option.some.injEq, decide_eq_true_eq] at e1
    simp only [Option.bind_some] at e2
    cases h2 : runRouter Sample.lrEnv w1 [.read 0 (.got Sample.ulogFrame.encode)] with
    | none => rw [h2] at e2; cases e2
    | some r2 =>
      obtain ⟨w2, as2⟩ := r2
      rw [h2] at e2
      simp only [Option.map_some, Option.some.injEq, Prod.mk.injEq, decide_eq_false_iff_not] at e2
      obtain ⟨g1, g2, g3⟩ := e2
      have hg : ∀ gone, RouterEv.hangups gone ∈ [RouterEv.read 0 (.got Sample.ulogFrame.encode)] → 4 ∉ gone := by
        intro gone hm
        simp at hm
      refine ⟨_, _, w1, w2, as1, as2, 4, Sample.lrEps_ok, h1, h2, e1, hg, ?_, g3⟩
      have A := C88_complete_partial Sample.lrEnv ht Sample.lrEps Sample.lrEps_ok Sample.lrLogs _ _ w1 w2 as1 as2 h1 h2 4 e1 hg
      have hlen : (expected 0 Sample.lrEps 4 as1 as2).length = 1 := A.1.symm.trans g2
      match he : expected 0 Sample.lrEps 4 as1 as2, hlen with
      | [a], _ =>
        have ha := (expected_sub 0 Sample.lrEps 4 as2 as1 a (by rw [he]; simp)).1
        have := List.mem_map_of_mem (f := fun a : Arrival => a.msg.data) ha
        rw [g1, List.mem_singleton] at this
        simp only [List.map_cons, List.map_nil, this]

/-- `C88_links` and `C20_links_partial` apply to the UDP endpoint of the same router, which is handed the packet as it arrived. -/
example : LinkAt Sample.lrEps 1 ∧ Reached Sample.lrEnv Sample.lr2 ∧
    (∀ i < 1, ∀ e, Sample.lr2.eps[i]? = some e → e.kind ≠ .log) ∧
    (runRouter Sample.lrEnv (start Sample.lrEps Sample.lrLogs) Sample.noLogBad).map
      (fun r => (writesTo 1 (start Sample.lrEps Sample.lrLogs) r.1).map Sent.bytes) =
      some [Sample.hb2.encode, Sample.ulogFrame.encode] := by
  refine ⟨⟨by decide, ?_⟩, Sample.lr2_reached, ?_, by decide +kernel⟩
  · intro i hi e he
    have : i = 0 := by omega
    subst this
    cases he
    simp
  · intro i hi e he
    have : i = 0 := by omega
    subst this
    have h : Sample.lr2.eps[0]?.map Ep.kind = some .uart := by decide +kernel
    rw [he] at h
    simp only [Option.map_some, Option.some.injEq] at h
    rw [h]
    simp

end Verif
