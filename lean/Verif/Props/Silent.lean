import Verif.Props.Serve

/- Property C145: a link on which nobody is heard is handed the broadcasts, and nothing else. -/

namespace Verif
open Spec

variable {σ : Type}

/-- Nobody is known on a link as long as nothing was let in on it and its group. -/
theorem unseen_quiet {eps : List Ep} {past : List Arrival} {j : Nat} (hk : ∀ e, eps[j]? = some e → e.kind ≠ .log)
    (hq : ∀ a ∈ past, a.passed = true → ¬ Peer eps a.ep j) (s c : Nat) : ¬ SeenAt eps past j s c := by
  rintro (⟨e, he, hl, _⟩ | ⟨a, ha, hp, _, _, hpeer⟩)
  · exact hk e he hl
  · exact hq a ha hp hpeer

open Classical in
theorem expected_quiet (sn : Nat) {eps : List Ep} {j : Nat} {e : Ep} (he : eps[j]? = some e) (hk : e.kind ≠ .log) :
    ∀ (as past : List Arrival), (∀ a ∈ past ++ as, a.passed = true → ¬ Peer eps a.ep j) →
      expected sn eps j past as = as.filter (fun a => a.passed = true ∧ a.msg.targetSys ≤ 0 ∧ outOk e.filters a.msg)
  | [], _, _ => rfl
  | a :: as, past, hq => by
    have hq' : ∀ x ∈ (past ++ [a]) ++ as, x.passed = true → ¬ Peer eps x.ep j := fun x hx => hq x (by simpa using hx)
    have hu := unseen_quiet (past := past ++ [a]) (fun x hx => by rw [he] at hx; cases hx; exact hk)
      (fun x hx => hq' x (by simp only [List.mem_append]; exact .inl (by simpa using hx)))
    have hw : Wanted sn eps j (past ++ [a]) a.msg ↔ a.msg.targetSys ≤ 0 ∧ outOk e.filters a.msg := by
      simp only [Wanted, hu, not_false_eq_true, true_and, exists_false, and_false, or_false]
      constructor
      · exact fun h => ⟨h.2, h.1 e he⟩
      · exact fun h => ⟨fun x hx => by rw [he] at hx; cases hx; exact h.2, h.1⟩
    simp only [expected]
    rw [expected_quiet sn he hk as (past ++ [a]) hq', List.filter_cons]
    by_cases hx : a.passed = true ∧ Wanted sn eps j (past ++ [a]) a.msg
    · rw [if_pos hx, if_pos (by simpa using ⟨hx.1, hw.mp hx.2⟩)]; rfl
    · rw [if_neg hx, if_neg (fun y => hx (by
        have y := of_decide_eq_true y
        exact ⟨y.1, hw.mpr y.2⟩))]; rfl

open Classical in
/-- **C145**: in any history in which nothing is let in on link `j` and the links of its group, that link is handed exactly the messages that
are let in elsewhere, have no target or target system 0, and pass its outgoing filters: each once, in order of arrival, as received. -/
theorem C145_silent (env : Env σ) (ht : TableOk env.tbl) (eps : List Ep) (hc : ConfigOk eps) (logs : Nat → σ) (evs : List RouterEv)
    (w : World σ) (as : List Arrival) (h : runRouter env (start eps logs) evs = some (w, as)) (j : Nat) (e : Ep) (he : eps[j]? = some e)
    (hk : e.kind ≠ .log) (hl : LinkAt eps j) (hq : ∀ a ∈ as, a.passed = true → ¬ Peer eps a.ep j)
    (hgone : ∀ gone, RouterEv.hangups gone ∈ evs → j ∉ gone) :
    (writesTo j (start eps logs) w).map Sent.bytes =
      (as.filter (fun a => a.passed = true ∧ a.msg.targetSys ≤ 0 ∧ outOk e.filters a.msg)).map (fun a => a.msg.data) := by
  rw [C88_links env ht eps hc logs [] evs _ w [] as rfl h j hl (List.mem_range.mpr hl.1) hgone,
    expected_quiet _ he hk as [] (by simpa using hq)]

/-- Link 1 only listens: it gets the heartbeat, not the command to 1/1. -/
example : ConfigOk Sample.epsTwo ∧
    (runRouter Sample.envDedup (start Sample.epsTwo fun _ => 0) Sample.evsMeet).map Prod.snd =
      some [Sample.came 0 Sample.hb2, Sample.came 2 Sample.cmdTo1] ∧
    (∀ a ∈ [Sample.came 0 Sample.hb2, Sample.came 2 Sample.cmdTo1], a.passed = true → ¬ Peer Sample.epsTwo a.ep 1) ∧
    (Sample.came 0 Sample.hb2).msg.targetSys ≤ 0 ∧ (Sample.came 2 Sample.cmdTo1).msg.targetSys = 1 ∧
    (Sample.handed Sample.envDedup Sample.epsTwo Sample.evsMeet).map Prod.snd =
      some [(1, Sample.hb2.encode), (2, Sample.hb2.encode), (0, Sample.cmdTo1.encode)] := by
  refine ⟨?_, by decide +kernel, ?_, by decide +kernel, by decide +kernel, by decide +kernel⟩
  · intro e he
    simp only [Sample.epsTwo, List.mem_cons, List.not_mem_nil, or_false] at he
    rcases he with rfl | rfl | rfl <;> simp
  · intro a ha _
    simp only [List.mem_cons, List.not_mem_nil, or_false] at ha
    rcases ha with rfl | rfl <;> simp [Peer, Sample.epsTwo, Sample.came]

end Verif
