/- Lemmas about the router with log endpoints. -/
import Verif.Model.LogRouter
import Verif.Lemmas.Router

namespace Verif

open Verif.Spec

variable {σ : Type}

theorem withLogs_gen20 (env : Env LogSt) (le : Nat → LogEnv) (now : Nat → UInt64) :
    GenFrom20 (env.withLogs le now) := by
  intro i s m g hg
  have hg : g ∈ (logWrite le now i s m).2.1 := hg
  unfold logWrite at hg
  split at hg
  · cases hg
  · split at hg
    · cases hg
    · unfold Logger.sent at hg
      split at hg
      · cases hg
      · obtain ⟨o, _, rfl⟩ := List.mem_map.mp hg
        exact ⟨rfl, rfl⟩

/-- Routing a message from 2/0 leaves the log endpoints alone. -/
theorem routeLoop_logs20 (env : Env σ) (route : World σ → Msg → World σ) (gen : Bool) :
    ∀ (is : List Nat) (w : World σ) (g : Msg) (u : Bool), LogsKnow20 w.eps → g.srcSys = 2 ∧ g.srcComp = 0 →
    (routeLoop env route gen is w g u).1.logs = w.logs ∧ (routeLoop env route gen is w g u).1.eps = w.eps := by
  intro is
  induction is with
  | nil => intro w g u _ _; exact ⟨rfl, rfl⟩
  | cons i is ih =>
    intro w g u hl hg
    unfold routeLoop
    cases he : w.eps[i]? with
    | none => exact ih w g u hl hg
    | some e =>
      simp only
      cases hacc : acceptMsg env.sniffer e g with
      | accepted =>
        simp only
        have hk : e.kind ≠ .log := by
          intro hk
          have := accept_from20 env.sniffer (hl e (List.mem_of_getElem? he) hk) hg
          rw [hacc] at this
          cases this
        have hw : (writeMsg env route gen w i g).1.logs = w.logs ∧ (writeMsg env route gen w i g).1.eps = w.eps ∧
            (writeMsg env route gen w i g).2 = g.data := by
          unfold writeMsg
          rw [he]
          simp only [Option.map_some]
          split
          · rename_i hc
            exact absurd (Option.some.inj hc) hk
          · exact ⟨rfl, rfl, rfl⟩
        obtain ⟨h1, h2⟩ := ih (writeMsg env route gen w i g).1 { g with data := (writeMsg env route gen w i g).2 } false
          (by rw [hw.2.1]; exact hl) hg
        exact ⟨h1.trans hw.1, h2.trans hw.2.1⟩
      | filtered => exact ih w g false hl hg
      | rejected => exact ih w g u hl hg

theorem routeMsg_logs20 (env : Env σ) (d : Nat) (gen : Bool) (w : World σ) (g : Msg) (hl : LogsKnow20 w.eps)
    (hg : g.srcSys = 2 ∧ g.srcComp = 0) :
    (routeMsg env d gen w g).logs = w.logs ∧ (routeMsg env d gen w g).eps = w.eps := by
  cases d with
  | zero => exact ⟨rfl, rfl⟩
  | succ d =>
    have := routeLoop_logs20 env (routeMsg env d true) gen w.active w g true hl hg
    unfold routeMsg
    simp only
    split
    · exact this
    · exact this

theorem foldl_logs20 (env : Env σ) (d : Nat) (gs : List Msg) (w : World σ) (hl : LogsKnow20 w.eps)
    (hg : ∀ g ∈ gs, g.srcSys = 2 ∧ g.srcComp = 0) :
    (gs.foldl (routeMsg env d true) w).logs = w.logs ∧ (gs.foldl (routeMsg env d true) w).eps = w.eps := by
  induction gs generalizing w with
  | nil => exact ⟨rfl, rfl⟩
  | cons g gs ih =>
    obtain ⟨h1, h2⟩ := routeMsg_logs20 env d true w g hl (hg g (List.mem_cons_self ..))
    obtain ⟨h3, h4⟩ := ih (routeMsg env d true w g) (by rw [h2]; exact hl)
      (fun x hx => hg x (List.mem_cons_of_mem _ hx))
    exact ⟨h3.trans h1, h4.trans h2⟩

/-- One write: only the log endpoint written to changes. -/
theorem writeMsg_logs (env : Env σ) (hgen : GenFrom20 env) (d : Nat) (w : World σ) (hl : LogsKnow20 w.eps)
    (i : Nat) (m : Msg) (j : Nat) :
    (writeMsg env (routeMsg env d true) false w i m).1.eps = w.eps ∧
    (writeMsg env (routeMsg env d true) false w i m).1.logs j =
      (if j = i ∧ (w.eps[i]?).map Ep.kind = some EpKind.log then (env.log i (w.logs i) m).1 else w.logs j) := by
  unfold writeMsg
  split
  · rename_i hk
    have := foldl_logs20 env d (env.log i (w.logs i) m).2.1
      { w with out := w.out ++ [{ ep := i, bytes := m.data, gen := false }]
               logs := fun j => if j = i then (env.log i (w.logs i) m).1 else w.logs j } hl (hgen i (w.logs i) m)
    refine ⟨this.2, ?_⟩
    show (List.foldl _ _ _ : World σ).logs j = _
    rw [this.1]
    by_cases hj : j = i
    · rw [if_pos ⟨hj, hk⟩]
      exact if_pos hj
    · rw [if_neg (fun h => hj h.1)]
      exact if_neg hj
  · rename_i hk
    exact ⟨rfl, (if_neg (fun h => hk h.2)).symm⟩

/-- A log endpoint is written to exactly once if the rule names it, and otherwise not at all. -/
theorem routeLoop_logs (env : Env σ) (hgen : GenFrom20 env) (d : Nat) (j : Nat) (e : Ep) :
    ∀ (is : List Nat) (w : World σ) (m : Msg) (u : Bool), is.Nodup → LogsKnow20 w.eps → w.eps[j]? = some e →
    e.kind = .log →
    ((j ∉ is ∨ acceptMsg env.sniffer e m ≠ .accepted) →
      (routeLoop env (routeMsg env d true) false is w m u).1.logs j = w.logs j) ∧
    ((j ∈ is ∧ acceptMsg env.sniffer e m = .accepted) →
      ∃ data new, (routeLoop env (routeMsg env d true) false is w m u).1.logs j =
          (env.log j (w.logs j) { m with data := data }).1 ∧
        Kept w (routeLoop env (routeMsg env d true) false is w m u).1 new ∧
        { ep := j, bytes := data, gen := false } ∈ new) := by
  intro is
  induction is with
  | nil => intro w m u _ _ _ _; exact ⟨fun _ => rfl, fun h => absurd h.1 (by simp)⟩
  | cons i is ih =>
    intro w m u hnd hl he hk
    have hnd' := (List.nodup_cons.mp hnd).2
    have hni := (List.nodup_cons.mp hnd).1
    have step : ∀ u', routeLoop env (routeMsg env d true) false (i :: is) w m u =
          routeLoop env (routeMsg env d true) false is w m u' → (i ≠ j ∨ acceptMsg env.sniffer e m ≠ .accepted) →
        ((j ∉ i :: is ∨ acceptMsg env.sniffer e m ≠ .accepted) →
          (routeLoop env (routeMsg env d true) false (i :: is) w m u).1.logs j = w.logs j) ∧
        ((j ∈ i :: is ∧ acceptMsg env.sniffer e m = .accepted) →
          ∃ data new, (routeLoop env (routeMsg env d true) false (i :: is) w m u).1.logs j =
              (env.log j (w.logs j) { m with data := data }).1 ∧
            Kept w (routeLoop env (routeMsg env d true) false (i :: is) w m u).1 new ∧
            { ep := j, bytes := data, gen := false } ∈ new) := by
      intro u' heq hij
      obtain ⟨h1, h2⟩ := ih w m u' hnd' hl he hk
      rw [heq]
      constructor
      · rintro (h | h)
        · exact h1 (.inl (fun hc => h (List.mem_cons_of_mem _ hc)))
        · exact h1 (.inr h)
      · rintro ⟨h, ha⟩
        rcases hij with hij | hij
        · rcases List.mem_cons.mp h with rfl | h
          · exact absurd rfl hij
          · exact h2 ⟨h, ha⟩
        · exact absurd ha hij
    cases hei : w.eps[i]? with
    | none =>
      refine step u (by conv => lhs; unfold routeLoop; rw [hei]) (.inl ?_)
      rintro rfl
      rw [hei] at he
      cases he
    | some ei =>
      have hsame : i = j → ei = e := by
        rintro rfl
        rw [hei] at he
        exact Option.some.inj he
      cases hacc : acceptMsg env.sniffer ei m with
      | filtered =>
        refine step false (by conv => lhs; unfold routeLoop; rw [hei]; simp only [hacc]) ?_
        by_cases hij : i = j
        · right
          rw [← hsame hij, hacc]
          simp
        · exact .inl hij
      | rejected =>
        refine step u (by conv => lhs; unfold routeLoop; rw [hei]; simp only [hacc]) ?_
        by_cases hij : i = j
        · right
          rw [← hsame hij, hacc]
          simp
        · exact .inl hij
      | accepted =>
        have hun : routeLoop env (routeMsg env d true) false (i :: is) w m u =
            routeLoop env (routeMsg env d true) false is (writeMsg env (routeMsg env d true) false w i m).1
              { m with data := (writeMsg env (routeMsg env d true) false w i m).2 } false := by
          conv => lhs; unfold routeLoop; rw [hei]; simp only [hacc]
        rw [hun]
        obtain ⟨hweps, hwlogs⟩ := writeMsg_logs env hgen d w hl i m j
        obtain ⟨nw, hkw, _⟩ := writeMsg_kept env (routeMsg_ok env d) false w i m
        have ihw := ih (writeMsg env (routeMsg env d true) false w i m).1
          { m with data := (writeMsg env (routeMsg env d true) false w i m).2 } false hnd'
          (by rw [hweps]; exact hl) (by rw [hweps]; exact he) hk
        have haccd : acceptMsg env.sniffer e { m with data := (writeMsg env (routeMsg env d true) false w i m).2 } =
            acceptMsg env.sniffer e m := acceptMsg_data ..
        rw [haccd] at ihw
        obtain ⟨h1, h2⟩ := ihw
        by_cases hij : i = j
        · subst hij
          rw [hsame rfl] at hacc
          refine ⟨fun h => ?_, fun _ => ?_⟩
          · rcases h with h | h
            · exact absurd (List.mem_cons_self ..) h
            · exact absurd hacc h
          · obtain ⟨nl, hkl, _⟩ := routeLoop_spec env (routeMsg_ok env d) false is
              (writeMsg env (routeMsg env d true) false w i m).1
              { m with data := (writeMsg env (routeMsg env d true) false w i m).2 } false
            refine ⟨m.data, _, ?_, hkw.trans hkl, by simp⟩
            rw [h1 (.inl hni), hwlogs, if_pos ⟨rfl, by rw [he]; exact congrArg some hk⟩]
        · have hlj : (writeMsg env (routeMsg env d true) false w i m).1.logs j = w.logs j := by
            rw [hwlogs, if_neg (fun h => hij h.1.symm)]
          refine ⟨fun h => ?_, fun h => ?_⟩
          · rw [← hlj]
            exact h1 (h.imp (fun h hc => h (List.mem_cons_of_mem _ hc)) id)
          · obtain ⟨data, new, g1, g2, g3⟩ := h2 ⟨(List.mem_cons.mp h.1).resolve_left (fun e => hij e.symm), h.2⟩
            rw [hlj] at g1
            exact ⟨data, _, g1, hkw.trans g2, List.mem_append_right _ g3⟩

/-- Log endpoints leave the buffer alone unless the message is a LOGGING_DATA message. -/
theorem logWrite_data (le : Nat → LogEnv) (now : Nat → UInt64) (i : Nat) (s : LogSt) (m : Msg)
    (h1 : m.msgId ≠ 266) (h2 : m.msgId ≠ 267) : (logWrite le now i s m).2.2 = m.data := by
  have hu : ∀ (env : LogEnv) (u u' : ULog) d, u.writeMsg env m = some (u', d) → d = m.data := by
    intro env u u' d h
    unfold ULog.writeMsg at h
    split at h
    · cases h
    · split at h
      · cases h; rfl
      · split at h
        · cases h; rfl
        · split at h
          · cases h; rfl
          · rename_i h3 _ h77
            exact absurd ⟨h77, h2, h1⟩ h3
  have hf : ∀ (env : LogEnv) (l l' : FlightLog) d, l.writeMsg env m = some (l', d) → d = m.data := by
    intro env l l' d h
    cases l with
    | ulog u =>
      simp only [FlightLog.writeMsg] at h
      cases hw : u.writeMsg env m with
      | none => rw [hw] at h; cases h
      | some r => rw [hw] at h; cases h; exact hu env u r.1 r.2 hw
    | bin l => simp only [FlightLog.writeMsg] at h; cases h; rfl
  unfold logWrite
  split
  · rfl
  · rename_i l _
    split
    · rfl
    · rename_i l' d hw
      show d = m.data
      generalize l.quiet = q at hw
      cases q with
      | ulog u =>
        simp only [Logger.writeMsg] at hw
        cases hx : u.writeMsg (le i) m with
        | none => rw [hx] at hw; cases hw
        | some r => rw [hx] at hw; cases hw; exact hu _ u r.1 r.2 hx
      | bin l => simp only [Logger.writeMsg] at hw; cases hw; rfl
      | tlog b => simp only [Logger.writeMsg] at hw; cases hw; rfl
      | auto a =>
        simp only [Logger.writeMsg] at hw
        cases hx : a.writeMsg (le i) m with
        | none => rw [hx] at hw; cases hw
        | some r =>
          rw [hx] at hw
          cases hw
          unfold AutoLog.writeMsg at hx
          split at hx
          · rename_i l _
            cases hy : l.writeMsg (le i) m with
            | none => rw [hy] at hx; cases hx
            | some z => rw [hy] at hx; cases hx; exact hf _ l z.1 z.2 hy
          · simp only at hx
            split at hx <;> (cases hx; rfl)

end Verif
