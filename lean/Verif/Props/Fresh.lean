import Verif.Props.Client
import Verif.Props.Silent

/- Property C148: a newly connected client of the TCP server inherits nothing. -/

namespace Verif
open Spec

variable {σ : Type}

/-- Everything arrives at endpoints there are. -/
theorem arrived_at (env : Env σ) (eps : List Ep) (hc : ConfigOk eps) (logs : Nat → σ) (evs : List RouterEv) (w : World σ)
    (as : List Arrival) (h : runRouter env (start eps logs) evs = some (w, as)) : ∀ a ∈ as, a.ep < w.eps.length := by
  obtain ⟨_, bs, _, hv⟩ := runRouter_dedup env evs _ (start_inv eps hc logs) h
  intro a ha
  obtain ⟨k, hk⟩ := List.getElem?_of_mem ha
  obtain ⟨e, _, he, _⟩ := hv.get k a hk
  exact (List.getElem?_eq_some_iff.mp he).1

open Classical in
theorem expected_fresh (sn : Nat) {eps : List Ep} {j : Nat} (hj : eps.length ≤ j) :
    ∀ (as past : List Arrival), (∀ a ∈ past ++ as, a.passed = true → a.ep ≠ j) →
      expected sn eps j past as = as.filter (fun a => a.passed = true ∧ a.msg.targetSys ≤ 0)
  | [], _, _ => rfl
  | a :: as, past, hq => by
    have hn : eps[j]? = none := List.getElem?_eq_none_iff.mpr hj
    have hq' : ∀ x ∈ (past ++ [a]) ++ as, x.passed = true → x.ep ≠ j := fun x hx => hq x (by simpa using hx)
    have hu := unseen_quiet (eps := eps) (past := past ++ [a]) (j := j) (fun x hx => by rw [hn] at hx; cases hx)
      (fun x hx hp hpeer => by
        rcases hpeer with e | ⟨_, _, _, he, _⟩
        · exact hq' x (List.mem_append_left _ hx) hp e
        · rw [hn] at he; cases he)
    have hw : Wanted sn eps j (past ++ [a]) a.msg ↔ a.msg.targetSys ≤ 0 := by
      simp [Wanted, hu, hn]
    simp only [expected]
    rw [expected_fresh sn hj as (past ++ [a]) hq', List.filter_cons]
    by_cases hx : a.passed = true ∧ Wanted sn eps j (past ++ [a]) a.msg
    · rw [if_pos hx, if_pos (by simpa using ⟨hx.1, hw.mp hx.2⟩)]; rfl
    · rw [if_neg hx, if_neg (fun y => hx (by
        have y := of_decide_eq_true y
        exact ⟨y.1, hw.mpr y.2⟩))]; rfl

open Classical in
/-- **C148**: a client connects after any history. Until something is let in from it, it is handed exactly the messages let in elsewhere that have
no target or target system 0: each once, in order of arrival, as received unless log endpoints edit them. -/
theorem C148_fresh (env : Env σ) (ht : TableOk env.tbl) (eps : List Ep) (hc : ConfigOk eps) (logs : Nat → σ) (evs1 evs2 : List RouterEv)
    (w1 wa w2 : World σ) (as1 as2 : List Arrival) (h1 : runRouter env (start eps logs) evs1 = some (w1, as1))
    (ha : runRouter env w1 [.accept] = some (wa, [])) (h2 : runRouter env wa evs2 = some (w2, as2)) (j : Nat)
    (hj : j ∈ wa.active ∧ w1.eps[j]? = none)
    (hq : ∀ a ∈ as2, a.passed = true → a.ep ≠ j) (hedit : ∀ a ∈ as2, UneditedBefore env eps j a.msg)
    (hgone : ∀ gone, RouterEv.hangups gone ∈ evs2 → j ∉ gone) :
    (writesTo j wa w2).map Sent.bytes =
      (as2.filter (fun a => a.passed = true ∧ a.msg.targetSys ≤ 0)).map (fun a => a.msg.data) := by
  have hlen : w1.eps.length ≤ j := List.getElem?_eq_none_iff.mp hj.2
  have hgrow : eps.length ≤ w1.eps.length := by
    have := (runRouter_after env eps hc logs evs1 w1 as1 h1).hist.ext.len
    rwa [linkGroups, List.length_mapIdx] at this
  have e1 := accounts_bytes (C88_complete_partial env ht eps hc logs (evs1 ++ [.accept]) evs2 wa w2 (as1 ++ []) as2
    (runRouter_append evs1 h1 ha) h2 j hj.1 hgone) (P := UneditedBefore env eps j)
  rw [expected_fresh _ (Nat.le_trans hgrow hlen) as2 (as1 ++ [])] at e1
  · exact e1 (fun a ha => hedit a (List.mem_filter.mp ha).1)
  · intro a hx hp
    rw [List.append_nil] at hx
    rcases List.mem_append.mp hx with hx | hx
    · have := arrived_at env eps hc logs evs1 w1 as1 h1 a hx
      omega
    · exact hq a hx hp

open Classical in
/-- **C148** with the actual log endpoints: PX4 log data (LOGGING_DATA, LOGGING_DATA_ACKED) are all they edit. -/
theorem C148_fresh_logs (env : Env LogSt) (le : Nat → LogEnv) (now : Nat → UInt64) (ht : TableOk env.tbl) (eps : List Ep) (hc : ConfigOk eps)
    (logs : Nat → LogSt) (evs1 evs2 : List RouterEv) (w1 wa w2 : World LogSt) (as1 as2 : List Arrival)
    (h1 : runRouter (env.withLogs le now) (start eps logs) evs1 = some (w1, as1))
    (ha : runRouter (env.withLogs le now) w1 [.accept] = some (wa, [])) (h2 : runRouter (env.withLogs le now) wa evs2 = some (w2, as2))
    (j : Nat) (hj : j ∈ wa.active ∧ w1.eps[j]? = none) (hq : ∀ a ∈ as2, a.passed = true → a.ep ≠ j)
    (hpx4 : ∀ a ∈ as2, a.msg.msgId ≠ 266 ∧ a.msg.msgId ≠ 267) (hgone : ∀ gone, RouterEv.hangups gone ∈ evs2 → j ∉ gone) :
    (writesTo j wa w2).map Sent.bytes =
      (as2.filter (fun a => a.passed = true ∧ a.msg.targetSys ≤ 0)).map (fun a => a.msg.data) :=
  C148_fresh (env.withLogs le now) ht eps hc logs evs1 evs2 w1 wa w2 as1 as2 h1 ha h2 j hj hq
    (fun a ha i _ _ s => logWrite_data le now i s a.msg (hpx4 a ha).1 (hpx4 a ha).2) hgone

/-- The arrivals, the endpoints connected at the end, and what was handed to whom. -/
def Sample.served (evs : List RouterEv) : Option (List Arrival × List Nat × List (Nat × List UInt8)) :=
  (runRouter Sample.envQuiet (start Sample.epsServer fun _ => 0) evs).map fun r => (r.2, r.1.active, r.1.out.map fun o => (o.ep, o.bytes))

/-- System 1 was heard on a first client, endpoint 1, that has hung up. The next client, endpoint 2, is not handed the command to system 1 (which the
first client would have been handed), but the message without a target. -/
example : ConfigOk Sample.epsServer ∧
    Sample.served [.accept, .read 1 (.got Sample.hb2.encode), .hangups [1]] =
      some ([Sample.came 1 Sample.hb2], [0], [(0, Sample.hb2.encode)]) ∧
    Sample.served [.accept, .read 1 (.got Sample.hb2.encode), .hangups [1], .accept, .read 0 (.got Sample.cmdTo1.encode),
        .read 0 (.got Sample.unk42.encode)] =
      some ([Sample.came 1 Sample.hb2, Sample.came 0 Sample.cmdTo1, Sample.came 0 Sample.unk42], [0, 2],
        [(0, Sample.hb2.encode), (2, Sample.unk42.encode)]) ∧
    Sample.served [.accept, .read 1 (.got Sample.hb2.encode), .accept, .read 0 (.got Sample.cmdTo1.encode)] =
      some ([Sample.came 1 Sample.hb2, Sample.came 0 Sample.cmdTo1], [0, 1, 2],
        [(0, Sample.hb2.encode), (1, Sample.cmdTo1.encode)]) ∧
    (∀ m, UneditedBefore Sample.envQuiet Sample.epsServer 2 m) := by
  refine ⟨?_, by decide +kernel, by decide +kernel, by decide +kernel, fun m i _ _ s => rfl⟩
  intro e he
  simp only [Sample.epsServer, List.mem_cons, List.not_mem_nil, or_false] at he
  rcases he with rfl; simp

end Verif
