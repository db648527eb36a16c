/- Lemmas about the messages log endpoints send from timers. -/
import Verif.Props.Routing
import Verif.Lemmas.LogRouter

namespace Verif

open Verif.Spec

variable {σ : Type}

/-- A message from 2/0 is written, unchanged, to exactly the endpoints that accept it, in order. -/
theorem routeLoop_out20 (env : Env σ) (route : World σ → Msg → World σ) (gen : Bool) :
    ∀ (is : List Nat) (w : World σ) (g : Msg) (u : Bool), LogsKnow20 w.eps → g.srcSys = 2 ∧ g.srcComp = 0 →
    (routeLoop env route gen is w g u).1.out = w.out ++
      (is.filter (fun i => decisionAt env.sniffer w.eps g i == some .accepted)).map
        (fun i => { ep := i, bytes := g.data, gen := gen }) ∧
    (routeLoop env route gen is w g u).1.active = w.active := by
  intro is
  induction is with
  | nil => intro w g u _ _; exact ⟨(List.append_nil _).symm, rfl⟩
  | cons i is ih =>
    intro w g u hl hg
    unfold routeLoop
    cases he : w.eps[i]? with
    | none =>
      rw [List.filter_cons_of_neg (by simp [decisionAt, he])]
      exact ih w g u hl hg
    | some e =>
      simp only
      cases hacc : acceptMsg env.sniffer e g with
      | accepted =>
        simp only
        have hk : e.kind ≠ .log := by
          intro hk
          have := accept_from20 env.sniffer (hl e (List.mem_of_getElem? he) hk) hg
          rw [hacc] at this
          cases this
        have hw : (writeMsg env route gen w i g).1.out = w.out ++ [{ ep := i, bytes := g.data, gen := gen }] ∧
            (writeMsg env route gen w i g).1.eps = w.eps ∧ (writeMsg env route gen w i g).1.active = w.active ∧
            (writeMsg env route gen w i g).2 = g.data := by
          unfold writeMsg
          rw [he]
          simp only [Option.map_some]
          split
          · rename_i hc
            exact absurd (Option.some.inj hc) hk
          · exact ⟨rfl, rfl, rfl, rfl⟩
        obtain ⟨h1, h2⟩ := ih (writeMsg env route gen w i g).1 { g with data := (writeMsg env route gen w i g).2 } false
          (by rw [hw.2.1]; exact hl) hg
        rw [List.filter_cons_of_pos (by simp [decisionAt, he, hacc])]
        refine ⟨?_, h2.trans hw.2.2.1⟩
        rw [h1, hw.1, hw.2.1]
        simp only [hw.2.2.2, List.map_cons, List.append_assoc, List.singleton_append]
      | filtered =>
        rw [List.filter_cons_of_neg (by simp [decisionAt, he, hacc])]
        exact ih w g false hl hg
      | rejected =>
        rw [List.filter_cons_of_neg (by simp [decisionAt, he, hacc])]
        exact ih w g u hl hg

theorem routeMsg_out20 (env : Env σ) (d : Nat) (gen : Bool) (w : World σ) (g : Msg) (hl : LogsKnow20 w.eps)
    (hg : g.srcSys = 2 ∧ g.srcComp = 0) :
    (routeMsg env (d + 1) gen w g).out = w.out ++
      (w.active.filter (fun i => decisionAt env.sniffer w.eps g i == some .accepted)).map
        (fun i => { ep := i, bytes := g.data, gen := gen }) ∧
    (routeMsg env (d + 1) gen w g).active = w.active := by
  have := routeLoop_out20 env (routeMsg env d true) gen w.active w g true hl hg
  unfold routeMsg
  simp only
  split
  · exact this
  · exact this

theorem foldl_out20 (env : Env σ) (d : Nat) (gs : List Msg) (w : World σ) (hl : LogsKnow20 w.eps)
    (hg : ∀ g ∈ gs, g.srcSys = 2 ∧ g.srcComp = 0) :
    (gs.foldl (routeMsg env (d + 1) true) w).out = w.out ++ gs.flatMap (fun g =>
      (w.active.filter (fun i => decisionAt env.sniffer w.eps g i == some .accepted)).map
        (fun i => { ep := i, bytes := g.data, gen := true })) := by
  induction gs generalizing w with
  | nil => exact (List.append_nil _).symm
  | cons g gs ih =>
    obtain ⟨_, h2⟩ := routeMsg_logs20 env (d + 1) true w g hl (hg g (List.mem_cons_self ..))
    obtain ⟨h3, h4⟩ := routeMsg_out20 env d true w g hl (hg g (List.mem_cons_self ..))
    have h5 := ih (routeMsg env (d + 1) true w g) (by rw [h2]; exact hl)
      (fun x hx => hg x (List.mem_cons_of_mem _ hx))
    rw [List.foldl_cons, h5, h3, h4, h2, List.flatMap_cons, List.append_assoc]

/-- What log endpoints send from a call without message comes from 2/0. -/
theorem logTimer_gen20 (le : Nat → LogEnv) (i : Nat) (c : LogCall) (s : LogSt) :
    ∀ g ∈ (logTimer le i c s).2, g.srcSys = 2 ∧ g.srcComp = 0 := by
  intro g hg
  unfold logTimer at hg
  split at hg
  · cases hg
  · split at hg
    · cases hg
    · unfold Logger.sent at hg
      split at hg
      · cases hg
      · obtain ⟨o, _, rfl⟩ := List.mem_map.mp hg
        exact ⟨rfl, rfl⟩

theorem toMsg_ok (env : LogEnv) (t : Option UInt8) (o : LogOut) : MsgOk (o.toMsg env t) := by
  refine ⟨?_, ?_, ?_⟩
  · cases o <;> simp [LogOut.toMsg]
  · cases t with
    | none => simp [LogOut.toMsg]
    | some t =>
      have := t.toNat_lt
      simp only [LogOut.toMsg]
      omega
  · simp [LogOut.toMsg]

end Verif
