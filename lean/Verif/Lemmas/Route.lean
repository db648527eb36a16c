import Verif.Lemmas.Learn

/- Helper lemmas about `route_msg`. -/

namespace Verif

open Spec

variable {σ : Type}

/-- Routing changes neither endpoints nor the de-duplication memory, and only appends to the trace. -/
structure Kept (w w' : World σ) (new : List Sent) : Prop where
  eps : w'.eps = w.eps
  active : w'.active = w.active
  dedup : w'.dedup = w.dedup
  checks : w'.checks = w.checks
  out : w'.out = w.out ++ new

theorem Kept.refl (w : World σ) : Kept w w [] := ⟨rfl, rfl, rfl, rfl, by simp⟩

theorem Kept.trans {w w' w'' : World σ} {a b} (x : Kept w w' a) (y : Kept w' w'' b) : Kept w w'' (a ++ b) :=
  ⟨y.eps.trans x.eps, y.active.trans x.active, y.dedup.trans x.dedup, y.checks.trans x.checks,
   by rw [y.out, x.out, List.append_assoc]⟩

/-- A nested router only produces generated writes. -/
def RouteOk (route : World σ → Msg → World σ) : Prop :=
  ∀ w m, ∃ new, Kept w (route w m) new ∧ ∀ s ∈ new, s.gen = true

theorem foldl_routeOk {route : World σ → Msg → World σ} (hr : RouteOk route) : ∀ (gs : List Msg) (w : World σ),
    ∃ new, Kept w (gs.foldl route w) new ∧ ∀ s ∈ new, s.gen = true := by
  intro gs
  induction gs with
  | nil => intro w; exact ⟨[], .refl w, by simp⟩
  | cons g gs ih =>
    intro w
    obtain ⟨a, ha, ha'⟩ := hr w g
    obtain ⟨b, hb, hb'⟩ := ih (route w g)
    refine ⟨a ++ b, ha.trans hb, ?_⟩
    intro s hs
    rcases List.mem_append.mp hs with h | h
    · exact ha' s h
    · exact hb' s h

theorem writeMsg_kept (env : Env σ) {route : World σ → Msg → World σ} (hr : RouteOk route) (gen : Bool)
    (w : World σ) (i : Nat) (m : Msg) :
    ∃ new, Kept w (writeMsg env route gen w i m).1 ({ ep := i, bytes := m.data, gen := gen } :: new) ∧
      ∀ s ∈ new, s.gen = true := by
  unfold writeMsg
  split
  · obtain ⟨new, hk, hn⟩ := foldl_routeOk hr (env.log i (w.logs i) m).2.1
      { w with
        out := w.out ++ [{ ep := i, bytes := m.data, gen := gen }]
        logs := fun j => if j = i then (env.log i (w.logs i) m).1 else w.logs j }
    refine ⟨new, ?_, hn⟩
    have h0 : Kept w
        { w with
          out := w.out ++ [{ ep := i, bytes := m.data, gen := gen }]
          logs := fun j => if j = i then (env.log i (w.logs i) m).1 else w.logs j }
        [{ ep := i, bytes := m.data, gen := gen }] := ⟨rfl, rfl, rfl, rfl, rfl⟩
    exact h0.trans hk
  · exact ⟨[], ⟨rfl, rfl, rfl, rfl, rfl⟩, by simp⟩

/-- Decision of `accept_msg` for the endpoint with heap index `i`. -/
def decisionAt (sniffer : UInt16) (eps : List Ep) (m : Msg) (i : Nat) : Option Accept :=
  (eps[i]?).map (fun e => acceptMsg sniffer e m)

theorem decisionAt_data (sniffer : UInt16) (eps : List Ep) (m : Msg) (d : List UInt8) :
    decisionAt sniffer eps { m with data := d } = decisionAt sniffer eps m := rfl

theorem routeLoop_spec (env : Env σ) {route : World σ → Msg → World σ} (hr : RouteOk route) (gen : Bool) :
    ∀ (is : List Nat) (w : World σ) (m : Msg) (u : Bool),
    ∃ new, Kept w (routeLoop env route gen is w m u).1 new ∧
      (gen = true → ∀ s ∈ new, s.gen = true) ∧
      (gen = false → (new.filter (fun s => !s.gen)).map Sent.ep =
        is.filter (fun i => decisionAt env.sniffer w.eps m i == some .accepted)) ∧
      (routeLoop env route gen is w m u).2 = (u && is.all (fun i =>
        decisionAt env.sniffer w.eps m i != some .accepted && decisionAt env.sniffer w.eps m i != some .filtered)) := by
  intro is
  induction is with
  | nil => intro w m u; exact ⟨[], .refl w, by simp, by simp, by simp [routeLoop]⟩
  | cons i is ih =>
    intro w m u
    unfold routeLoop
    split
    · rename_i hnone
      obtain ⟨new, hk, h1, h2, h3⟩ := ih w m u
      have hd : decisionAt env.sniffer w.eps m i = none := by simp [decisionAt, hnone]
      exact ⟨new, hk, h1, fun hg => by simp [h2 hg, hd], by simp [h3, hd, bne]⟩
    · rename_i e he
      have hd : decisionAt env.sniffer w.eps m i = some (acceptMsg env.sniffer e m) := by
        simp [decisionAt, he]
      split
      · rename_i hacc
        obtain ⟨a, ha, ha'⟩ := writeMsg_kept env hr gen w i m
        cases hw : writeMsg env route gen w i m with
        | mk w' data =>
          rw [hw] at ha
          obtain ⟨b, hb, h1, h2, h3⟩ := ih w' { m with data := data } false
          refine ⟨_, ha.trans hb, ?_, ?_, ?_⟩
          · intro hg s hs
            rcases List.mem_append.mp hs with h | h
            · rcases List.mem_cons.mp h with rfl | h
              · exact hg
              · exact ha' s h
            · exact h1 hg s h
          · intro hg
            have hnil : a.filter (fun s => !s.gen) = [] := by
              rw [List.filter_eq_nil_iff]
              intro s hs
              simp [ha' s hs]
            subst hg
            rw [List.filter_append, List.map_append, h2 rfl, List.filter_cons_of_pos (by simp), hnil, ha.eps,
              decisionAt_data, List.filter_cons_of_pos (by rw [hd, hacc]; rfl)]
            rfl
          · rw [h3]
            simp [hd, hacc, bne]
      · rename_i hacc
        obtain ⟨new, hk, h1, h2, h3⟩ := ih w m false
        exact ⟨new, hk, h1, fun hg => by simp [h2 hg, hd, hacc], by simp [h3, hd, hacc, bne]; try rfl⟩
      · rename_i hacc
        obtain ⟨new, hk, h1, h2, h3⟩ := ih w m u
        exact ⟨new, hk, h1, fun hg => by simp [h2 hg, hd, hacc], by simp [h3, hd, hacc, bne]; try rfl⟩

theorem routeMsg_ok (env : Env σ) : ∀ depth, RouteOk (routeMsg env depth true) := by
  intro depth
  induction depth with
  | zero => intro w m; exact ⟨[], .refl w, by simp⟩
  | succ depth ih =>
    intro w m
    obtain ⟨new, hk, h1, _, _⟩ := routeLoop_spec env ih true w.active w m true
    refine ⟨new, ?_, h1 rfl⟩
    unfold routeMsg
    simp only
    split
    · exact ⟨hk.eps, hk.active, hk.dedup, hk.checks, hk.out⟩
    · exact hk

theorem routeMsg_spec (env : Env σ) (depth : Nat) (w : World σ) (m : Msg) :
    ∃ new, Kept w (routeMsg env (depth + 1) false w m) new ∧
      (new.filter (fun s => !s.gen)).map Sent.ep =
        w.active.filter (fun i => decisionAt env.sniffer w.eps m i == some .accepted) := by
  obtain ⟨new, hk, _, h2, _⟩ := routeLoop_spec env (routeMsg_ok env depth) false w.active w m true
  refine ⟨new, ?_, h2 rfl⟩
  unfold routeMsg
  simp only
  split
  · exact ⟨hk.eps, hk.active, hk.dedup, hk.checks, hk.out⟩
  · exact hk

/-- No log endpoint of the heap takes messages of source 2/0. -/
def LogsKnow20 (eps : List Ep) : Prop := ∀ e ∈ eps, e.kind = .log → sysComp 2 0 ∈ e.learned

/-- Generated messages carry source 2/0 (src/logendpoint.h `LOG_ENDPOINT_SYSTEM_ID`, component `MAV_COMP_ID_ALL`). -/
def GenFrom20 (env : Env σ) : Prop :=
  ∀ i s m, ∀ g ∈ (env.log i s m).2.1, g.srcSys = 2 ∧ g.srcComp = 0

theorem accept_from20 (sniffer : UInt16) {e : Ep} (he : sysComp 2 0 ∈ e.learned) {g : Msg}
    (hg : g.srcSys = 2 ∧ g.srcComp = 0) : acceptMsg sniffer e g = .rejected := by
  unfold acceptMsg
  rw [if_pos]
  rw [hasSysComp2_iff _ _ _ (by rw [hg.1]; decide) (by rw [hg.2]; decide)]
  refine ⟨sysComp 2 0, he, ?_⟩
  rw [hg.1, hg.2, sysComp_toNat]
  rfl

/-- A message from 2/0 is routed without consulting the nested router. -/
theorem routeLoop_from20 (env : Env σ) (r1 r2 : World σ → Msg → World σ) (gen : Bool) :
    ∀ (is : List Nat) (w : World σ) (g : Msg) (u : Bool), LogsKnow20 w.eps → g.srcSys = 2 ∧ g.srcComp = 0 →
    routeLoop env r1 gen is w g u = routeLoop env r2 gen is w g u := by
  intro is
  induction is with
  | nil => intro w g u _ _; rfl
  | cons i is ih =>
    intro w g u hl hg
    unfold routeLoop
    cases he : w.eps[i]? with
    | none => exact ih w g u hl hg
    | some e =>
      simp only
      cases hacc : acceptMsg env.sniffer e g with
      | accepted =>
        simp only
        have hk : e.kind ≠ .log := by
          intro hk
          rw [accept_from20 env.sniffer (hl e (List.mem_of_getElem? he) hk) hg] at hacc
          cases hacc
        have hw : ∀ r : World σ → Msg → World σ, writeMsg env r gen w i g =
            writeMsg env (fun w _ => w) gen w i g := by
          intro r
          unfold writeMsg
          rw [he]
          simp only [Option.map_some]
          cases hkk : e.kind with
          | log => exact absurd hkk hk
          | uart => rfl
          | udp => rfl
          | tcp => rfl
        rw [hw r1, hw r2]
        obtain ⟨new, hkept, _⟩ := writeMsg_kept env (route := fun w _ => w)
          (fun w m => ⟨[], .refl w, by simp⟩) gen w i g
        refine ih _ _ _ ?_ hg
        intro e he
        rw [hkept.eps] at he
        exact hl e he
      | filtered => exact ih w g false hl hg
      | rejected => exact ih w g u hl hg

theorem routeMsg_from20 (env : Env σ) (d : Nat) (w : World σ) (g : Msg) (gen : Bool) (hl : LogsKnow20 w.eps)
    (hg : g.srcSys = 2 ∧ g.srcComp = 0) :
    routeMsg env (d + 1) gen w g = routeMsg env 1 gen w g := by
  unfold routeMsg
  rw [routeLoop_from20 env (routeMsg env d true) (routeMsg env 0 true) gen w.active w g true hl hg]

/-- Two nested routers that agree on generated messages give the same routing. -/
theorem routeLoop_congr (env : Env σ) (hgen : GenFrom20 env) {r1 r2 : World σ → Msg → World σ}
    (hr : RouteOk r1)
    (hag : ∀ w g, LogsKnow20 w.eps → g.srcSys = 2 ∧ g.srcComp = 0 → r1 w g = r2 w g) (gen : Bool) :
    ∀ (is : List Nat) (w : World σ) (m : Msg) (u : Bool), LogsKnow20 w.eps →
    routeLoop env r1 gen is w m u = routeLoop env r2 gen is w m u := by
  have hfold : ∀ (gs : List Msg) (w : World σ), LogsKnow20 w.eps → (∀ g ∈ gs, g.srcSys = 2 ∧ g.srcComp = 0) →
      gs.foldl r1 w = gs.foldl r2 w := by
    intro gs
    induction gs with
    | nil => intro w _ _; rfl
    | cons g gs ih =>
      intro w hl hg
      rw [List.foldl_cons, List.foldl_cons, ← hag w g hl (hg g (by simp))]
      obtain ⟨new, hk, _⟩ := hr w g
      refine ih _ ?_ (fun g h => hg g (by simp [h]))
      intro e he
      rw [hk.eps] at he
      exact hl e he
  intro is
  induction is with
  | nil => intro w m u _; rfl
  | cons i is ih =>
    intro w m u hl
    unfold routeLoop
    cases he : w.eps[i]? with
    | none => exact ih w m u hl
    | some e =>
      simp only
      cases hacc : acceptMsg env.sniffer e m with
      | accepted =>
        simp only
        have hw : writeMsg env r1 gen w i m = writeMsg env r2 gen w i m := by
          unfold writeMsg
          split
          · have hg := hgen i (w.logs i) m
            cases hq : env.log i (w.logs i) m with
            | mk s rest =>
              rw [hq] at hg
              obtain ⟨gs, data⟩ := rest
              simp only at hg ⊢
              rw [hfold gs _ ?_ hg]
              exact hl
          · rfl
        rw [← hw]
        obtain ⟨new, hkept, _⟩ := writeMsg_kept env hr gen w i m
        refine ih _ _ _ ?_
        intro e he
        rw [hkept.eps] at he
        exact hl e he
      | filtered => exact ih w m false hl
      | rejected => exact ih w m u hl

theorem routeMsg_depth (env : Env σ) (hgen : GenFrom20 env) (d : Nat) (gen : Bool) (w : World σ) (m : Msg)
    (hl : LogsKnow20 w.eps) :
    routeMsg env (d + 2) gen w m = routeMsg env 2 gen w m := by
  rw [routeMsg, routeMsg, routeLoop_congr env hgen (routeMsg_ok env (d + 1))
    (r2 := routeMsg env 1 true) ?_ gen w.active w m true hl]
  intro w g hl hg
  rw [routeMsg_from20 env d w g true hl hg]

end Verif
