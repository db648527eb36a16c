/-
C19 in terms of the routing rule, and C82: the reports of messages to unknown destinations.
-/
import Verif.Props.Order

namespace Verif

open Verif.Spec

variable {σ : Type}

/-- Every active endpoint is where the message comes from, or has nothing to do with its destination
(an endpoint whose outgoing filters stop the message is neither). -/
def Spec.NobodyTakes (sniffer : Nat) (eps : List Ep) (active : List Nat) (m : Msg) : Prop :=
  ∀ i ∈ active, ∀ e, eps[i]? = some e →
    FromHere e m ∨ (outOk e.filters m ∧ ¬ Addressed e m ∧ ¬ Sniffs sniffer e)

theorem taken_iff (env : Env σ) (w : World σ) (m : Msg) (hm : MsgOk m) :
    ¬ Taken env w m ↔ NobodyTakes env.sniffer.toNat w.eps w.active m := by
  have hrej : ∀ e : Ep, acceptMsg env.sniffer e m = .rejected ↔
      FromHere e m ∨ (outOk e.filters m ∧ ¬ Addressed e m ∧ ¬ Sniffs env.sniffer.toNat e) := by
    intro e
    rw [acceptMsg_spec env.sniffer e m hm]
    by_cases h1 : FromHere e m <;> by_cases h2 : outOk e.filters m <;>
      by_cases h3 : Addressed e m <;> by_cases h4 : Sniffs env.sniffer.toNat e <;> simp [h1, h2, h3, h4]
  constructor
  · intro h i hi e he
    rw [← hrej]
    cases ha : acceptMsg env.sniffer e m with
    | rejected => rfl
    | accepted => exact absurd ⟨i, hi, e, he, by rw [ha]; simp⟩ h
    | filtered => exact absurd ⟨i, hi, e, he, by rw [ha]; simp⟩ h
  · rintro h ⟨i, hi, e, he, hne⟩
    exact hne ((hrej e).mpr (h i hi e he))

/-- C19, partial: as `C19_counted_partial`, in terms of the routing rule: the counter grows by one for
a message nobody takes and stays the same for every other one.  Missing: disconnected TCP clients
(`C19_violated`); log endpoints that send messages of their own while they take this one. -/
theorem C19_rule_partial (env : Env σ) (hgen : ∀ i s m, (env.log i s m).2.1 = [])
    (w : World σ) (m : Msg) (hm : MsgOk m) (depth : Nat) (gen : Bool) :
    (routeMsg env (depth + 1) gen w m).unknown =
      (open Classical in if NobodyTakes env.sniffer.toNat w.eps w.active m then w.unknown + 1 else w.unknown) := by
  have h := C19_counted_partial env w m depth gen
  by_cases hn : NobodyTakes env.sniffer.toNat w.eps w.active m
  · rw [if_pos hn, h.1 ((taken_iff env w m hm).mpr hn)]
  · rw [if_neg hn]
    exact h.2 (Classical.not_not.mp (fun ht => hn ((taken_iff env w m hm).mp ht))) hgen

example : NobodyTakes 0 Sample.w2.eps Sample.w2.active { Sample.mCmd with targetSys := 99 } ∧
    ¬ NobodyTakes 0 Sample.w2.eps Sample.w2.active Sample.mCmd := by
  have ok : MsgOk { Sample.mCmd with targetSys := 99 } := ⟨by decide, by decide, by decide⟩
  have key := fun m hm => taken_iff Sample.envQuiet Sample.w2 m hm
  constructor
  · refine (key _ ok).mp ?_
    rintro ⟨i, hi, e, he, ha⟩
    have hact : Sample.w2.active = [0, 1, 2, 3] := by decide +kernel
    rw [hact] at hi
    have hall : ∀ i ∈ [0, 1, 2, 3], (Sample.w2.eps[i]?).map
        (fun e => acceptMsg 0 e { Sample.mCmd with targetSys := 99 }) = some .rejected := by decide +kernel
    have := hall i hi
    rw [he] at this
    exact ha (Option.some.inj this)
  · intro h
    have := (key _ Sample.mCmd_ok).mpr h
    refine this ?_
    have h : (Sample.w2.eps[0]?).map (fun e => acceptMsg 0 e Sample.mCmd) = some .accepted := by decide +kernel
    cases he : Sample.w2.eps[0]? with
    | none => rw [he] at h; cases h
    | some e =>
      rw [he] at h
      exact ⟨0, by decide +kernel, e, he, by
        rw [show acceptMsg Sample.envQuiet.sniffer e Sample.mCmd = .accepted from Option.some.inj h]; simp⟩

/-! ### C82 -/

open Classical in
/-- The messages the log endpoints generate while message `m` is offered to the endpoints `is` in turn:
every log endpoint that gets it may answer, and may edit the bytes for the endpoints after it
(ulog.cpp:258-259). -/
noncomputable def Spec.generated (env : Env σ) (eps : List Ep) (logs : Nat → σ) : List Nat → Msg → List Msg
  | [], _ => []
  | i :: is, m =>
    if Gets env.sniffer.toNat eps m i ∧ (eps[i]?).map Ep.kind = some .log then
      (env.log i (logs i) m).2.1 ++ Spec.generated env eps logs is { m with data := (env.log i (logs i) m).2.2 }
    else Spec.generated env eps logs is m

/-- The messages of one read that are passed on and those generated by them, each with the router state
in which it is routed (learning done; routing changes neither endpoints nor the list of active ones). -/
noncomputable def Spec.passedStates (env : Env σ) (i : Nat) : World σ → List Msg → List (World σ × Msg)
  | _, [] => []
  | w, m :: ms =>
    match handleMsg env w i m with
    | none => []
    | some (w', b) =>
      (if b then (m :: Spec.generated env w'.eps w.logs w.active m).map (fun x => (w', x)) else []) ++
        Spec.passedStates env i w' ms

/-- All messages routed in one event. -/
noncomputable def Spec.routedIn (env : Env σ) (w : World σ) : RouterEv → List (World σ × Msg)
  | .read i io =>
    match w.eps[i]? with
    | none => []
    | some e =>
      let r := drain env.tbl e.fdOpen (rxBufMax + 1) e.rx io
      Spec.passedStates env i { w with eps := w.eps.set i { e with rx := r.1 } } (r.2.1.map Prod.fst)
  | .logCall i c =>
    if (w.eps[i]?).map Ep.kind = some .log then (env.logCall i c (w.logs i)).2.map (fun x => (w, x)) else []
  | _ => []

/-- All messages routed in a history. -/
noncomputable def Spec.routed (env : Env σ) : World σ → List RouterEv → List (World σ × Msg)
  | _, [] => []
  | w, ev :: evs =>
    match routerStep env w ev with
    | none => []
    | some (w', _) => Spec.routedIn env w ev ++ Spec.routed env w' evs

open Classical in
/-- The number of those nobody takes. -/
noncomputable def Spec.undeliverable (sniffer : Nat) (ms : List (World σ × Msg)) : Nat :=
  ms.countP (fun p => decide (NobodyTakes sniffer p.1.eps p.1.active p.2))

/-- All that was reported, and what is going to be reported. -/
def Spec.totalReported (w : World σ) : Nat := (w.reported.map UInt32.toNat).sum + w.unknown.toNat

/-- Equal modulo 2^32. -/
def Spec.Eq32 (a b : Nat) : Prop := a % 4294967296 = b % 4294967296

/-- What log endpoints send: messages from 2/0 with fields in range. -/
structure GenOk (env : Env σ) : Prop where
  msg : GenFrom20 env
  msgOk : ∀ i s m, ∀ g ∈ (env.log i s m).2.1, MsgOk g
  call : ∀ i c s, ∀ g ∈ (env.logCall i c s).2, g.srcSys = 2 ∧ g.srcComp = 0
  callOk : ∀ i c s, ∀ g ∈ (env.logCall i c s).2, MsgOk g

open Classical in
/-- One if nobody takes it. -/
noncomputable def nobody (sniffer : Nat) (eps : List Ep) (active : List Nat) (m : Msg) : Nat :=
  if NobodyTakes sniffer eps active m then 1 else 0

theorem undeliverable_map (sniffer : Nat) (w : World σ) (ms : List Msg) :
    undeliverable sniffer (ms.map (fun x => (w, x))) = (ms.map (nobody sniffer w.eps w.active)).sum := by
  induction ms with
  | nil => rfl
  | cons m ms ih =>
    unfold undeliverable at *
    rw [List.map_cons, List.countP_cons, ih, List.map_cons, List.sum_cons, Nat.add_comm]
    congr 1
    unfold nobody
    by_cases h : NobodyTakes sniffer w.eps w.active m <;> simp [h]

/-- The flag at the end of the loop. -/
theorem routeLoop_flag (env : Env σ) (depth : Nat) (gen : Bool) (w : World σ)
    (m : Msg) (hm : MsgOk m) :
    (routeLoop env (routeMsg env depth true) gen w.active w m true).2 = true ↔
      NobodyTakes env.sniffer.toNat w.eps w.active m := by
  obtain ⟨new, _, _, _, h3⟩ := routeLoop_spec env (routeMsg_ok env depth) gen w.active w m true
  rw [← taken_iff env w m hm, h3, Bool.true_and, List.all_eq_true]
  constructor
  · rintro h ⟨i, hi, e, he, hne⟩
    have := h i hi
    have hd : decisionAt env.sniffer w.eps m i = some (acceptMsg env.sniffer e m) := by
      unfold decisionAt; rw [he]; rfl
    rw [hd] at this
    cases ha : acceptMsg env.sniffer e m with
    | rejected => exact hne ha
    | accepted => rw [ha] at this; simp at this
    | filtered => rw [ha] at this; simp at this
  · intro h i hi
    cases he : w.eps[i]? with
    | none => simp [decisionAt, he]
    | some e =>
      cases ha : acceptMsg env.sniffer e m with
      | rejected => simp [decisionAt, he, ha]
      | accepted => exact absurd ⟨i, hi, e, he, by rw [ha]; simp⟩ h
      | filtered => exact absurd ⟨i, hi, e, he, by rw [ha]; simp⟩ h

/-- The parts of the state that count. -/
structure SameRest (w w' : World σ) : Prop where
  eps : w'.eps = w.eps
  active : w'.active = w.active
  reported : w'.reported = w.reported

theorem routeLoop_unknown20 (env : Env σ) (route : World σ → Msg → World σ) (gen : Bool) :
    ∀ (is : List Nat) (w : World σ) (g : Msg) (u : Bool), LogsKnow20 w.eps → g.srcSys = 2 ∧ g.srcComp = 0 →
    (routeLoop env route gen is w g u).1.unknown = w.unknown ∧
    (routeLoop env route gen is w g u).1.reported = w.reported := by
  intro is
  induction is with
  | nil => intro w g u _ _; exact ⟨rfl, rfl⟩
  | cons i is ih =>
    intro w g u hl hg
    unfold routeLoop
    cases he : w.eps[i]? with
    | none => exact ih w g u hl hg
    | some e =>
      simp only
      cases hacc : acceptMsg env.sniffer e g with
      | accepted =>
        simp only
        have hk : e.kind ≠ .log := by
          intro hk
          have := accept_from20 env.sniffer (hl e (List.mem_of_getElem? he) hk) hg
          rw [hacc] at this
          cases this
        have hw : (writeMsg env route gen w i g).1.unknown = w.unknown ∧
            (writeMsg env route gen w i g).1.reported = w.reported ∧ (writeMsg env route gen w i g).1.eps = w.eps := by
          unfold writeMsg
          rw [he]
          simp only [Option.map_some]
          split
          · rename_i hc
            exact absurd (Option.some.inj hc) hk
          · exact ⟨rfl, rfl, rfl⟩
        obtain ⟨h1, h2⟩ := ih (writeMsg env route gen w i g).1 { g with data := (writeMsg env route gen w i g).2 } false
          (by rw [hw.2.2]; exact hl) hg
        exact ⟨h1.trans hw.1, h2.trans hw.2.1⟩
      | filtered => exact ih w g false hl hg
      | rejected => exact ih w g u hl hg

theorem add_one32 (x : UInt32) : Eq32 (x + 1).toNat (x.toNat + 1) := by
  unfold Eq32
  simp [UInt32.toNat_add]

theorem routeMsg_unknown20 (env : Env σ) (d : Nat) (w : World σ) (g : Msg)
    (hl : LogsKnow20 w.eps) (hg : g.srcSys = 2 ∧ g.srcComp = 0) (hm : MsgOk g) :
    SameRest w (routeMsg env (d + 1) true w g) ∧ (routeMsg env (d + 1) true w g).logs = w.logs ∧
    Eq32 (routeMsg env (d + 1) true w g).unknown.toNat
      (w.unknown.toNat + nobody env.sniffer.toNat w.eps w.active g) := by
  obtain ⟨h1, h2⟩ := routeMsg_logs20 env (d + 1) true w g hl hg
  obtain ⟨_, h4⟩ := routeMsg_out20 env d true w g hl hg
  obtain ⟨h5, h6⟩ := routeLoop_unknown20 env (routeMsg env d true) true w.active w g true hl hg
  have hf := routeLoop_flag env d true w g hm
  refine ⟨⟨h2, h4, ?_⟩, h1, ?_⟩
  · unfold routeMsg
    simp only
    split <;> exact h6
  · unfold routeMsg nobody
    simp only
    by_cases hn : NobodyTakes env.sniffer.toNat w.eps w.active g
    · rw [if_pos (hf.mpr hn), if_pos hn, h5]
      exact add_one32 _
    · rw [if_neg (fun h => hn (hf.mp h)), if_neg hn, h5]
      rfl

theorem foldl_unknown20 (env : Env σ) (d : Nat) :
    ∀ (gs : List Msg) (w : World σ), LogsKnow20 w.eps →
    (∀ g ∈ gs, (g.srcSys = 2 ∧ g.srcComp = 0) ∧ MsgOk g) →
    SameRest w (gs.foldl (routeMsg env (d + 1) true) w) ∧ (gs.foldl (routeMsg env (d + 1) true) w).logs = w.logs ∧
    Eq32 (gs.foldl (routeMsg env (d + 1) true) w).unknown.toNat
      (w.unknown.toNat + (gs.map (nobody env.sniffer.toNat w.eps w.active)).sum) := by
  intro gs
  induction gs with
  | nil => intro w _ _; exact ⟨⟨rfl, rfl, rfl⟩, rfl, rfl⟩
  | cons g gs ih =>
    intro w hl hg
    obtain ⟨⟨a1, a2, a3⟩, a4, a5⟩ := routeMsg_unknown20 env d w g hl (hg g (List.mem_cons_self ..)).1
      (hg g (List.mem_cons_self ..)).2
    obtain ⟨⟨b1, b2, b3⟩, b4, b5⟩ := ih (routeMsg env (d + 1) true w g) (by rw [a1]; exact hl)
      (fun x hx => hg x (List.mem_cons_of_mem _ hx))
    rw [a1, a2] at b5
    refine ⟨⟨b1.trans a1, b2.trans a2, b3.trans a3⟩, b4.trans a4, ?_⟩
    rw [List.foldl_cons, List.map_cons, List.sum_cons]
    unfold Eq32 at *
    omega

theorem generated_congr (env : Env σ) (eps : List Ep) (logs logs' : Nat → σ) :
    ∀ (is : List Nat) (m : Msg), (∀ i ∈ is, logs i = logs' i) →
    generated env eps logs is m = generated env eps logs' is m := by
  intro is
  induction is with
  | nil => intro m _; rfl
  | cons i is ih =>
    intro m h
    unfold generated
    rw [h i (List.mem_cons_self ..), ih _ (fun j hj => h j (List.mem_cons_of_mem _ hj)),
      ih m (fun j hj => h j (List.mem_cons_of_mem _ hj))]

theorem routeLoop_counts (env : Env σ) (hgen : GenOk env) (d : Nat) (gen : Bool) :
    ∀ (is : List Nat), is.Nodup → ∀ (w : World σ) (m : Msg) (u : Bool), LogsKnow20 w.eps → MsgOk m →
    SameRest w (routeLoop env (routeMsg env (d + 1) true) gen is w m u).1 ∧
    Eq32 (routeLoop env (routeMsg env (d + 1) true) gen is w m u).1.unknown.toNat
      (w.unknown.toNat +
        ((generated env w.eps w.logs is m).map (nobody env.sniffer.toNat w.eps w.active)).sum) := by
  intro is
  induction is with
  | nil => intro _ w m u _ _; exact ⟨⟨rfl, rfl, rfl⟩, rfl⟩
  | cons i is ih =>
    intro hnd w m u hl hm
    obtain ⟨hni, hnd⟩ := List.nodup_cons.mp hnd
    unfold routeLoop generated
    have hdec := decision_gets env.sniffer w.eps m hm i
    cases he : w.eps[i]? with
    | none =>
      simp only [Option.map_none]
      rw [if_neg (by rintro ⟨⟨e, h, _⟩, _⟩; rw [he] at h; cases h)]
      exact ih hnd w m u hl hm
    | some e =>
      have hd : decisionAt env.sniffer w.eps m i = some (acceptMsg env.sniffer e m) := by
        unfold decisionAt; rw [he]; rfl
      rw [hd] at hdec
      simp only
      cases hacc : acceptMsg env.sniffer e m with
      | accepted =>
        simp only
        rw [hacc] at hdec
        have hg : Gets env.sniffer.toNat w.eps m i := hdec.mp rfl
        by_cases hk : e.kind = .log
        · rw [if_pos ⟨hg, by rw [Option.map_some, hk]⟩]
          have hw : writeMsg env (routeMsg env (d + 1) true) gen w i m =
              ((env.log i (w.logs i) m).2.1.foldl (routeMsg env (d + 1) true)
                { w with
                  out := w.out ++ [{ ep := i, bytes := m.data, gen := gen }]
                  logs := fun j => if j = i then (env.log i (w.logs i) m).1 else w.logs j },
                (env.log i (w.logs i) m).2.2) := by
            unfold writeMsg
            rw [he, Option.map_some, hk]
          rw [hw]
          simp only
          obtain ⟨⟨a1, a2, a3⟩, a4, a5⟩ := foldl_unknown20 env d (env.log i (w.logs i) m).2.1
            { w with
              out := w.out ++ [{ ep := i, bytes := m.data, gen := gen }]
              logs := fun j => if j = i then (env.log i (w.logs i) m).1 else w.logs j } hl
            (fun g hg => ⟨hgen.msg _ _ _ g hg, hgen.msgOk _ _ _ g hg⟩)
          obtain ⟨⟨b1, b2, b3⟩, b5⟩ := ih hnd _ { m with data := (env.log i (w.logs i) m).2.2 } false
            (by rw [a1]; exact hl) ⟨hm.id, hm.tsys, hm.tcomp⟩
          refine ⟨⟨b1.trans a1, b2.trans a2, b3.trans a3⟩, ?_⟩
          rw [a1, a2, a4] at b5
          rw [generated_congr env w.eps _ w.logs is _ (fun j hj => if_neg (fun (h : j = i) => hni (h ▸ hj)))] at b5
          rw [List.map_append, List.sum_append]
          unfold Eq32 at *
          simp only at a5 b5 ⊢
          omega
        · rw [if_neg (fun h => hk (by simpa [he] using h.2))]
          have hw : (writeMsg env (routeMsg env (d + 1) true) gen w i m).1.unknown = w.unknown ∧
              SameRest w (writeMsg env (routeMsg env (d + 1) true) gen w i m).1 ∧
              (writeMsg env (routeMsg env (d + 1) true) gen w i m).1.logs = w.logs ∧
              (writeMsg env (routeMsg env (d + 1) true) gen w i m).2 = m.data := by
            unfold writeMsg
            rw [he]
            simp only [Option.map_some]
            split
            · rename_i hc
              exact absurd (Option.some.inj hc) hk
            · exact ⟨rfl, ⟨rfl, rfl, rfl⟩, rfl, rfl⟩
          obtain ⟨w1, ⟨w2, w3, w4⟩, w5, w6⟩ := hw
          obtain ⟨⟨b1, b2, b3⟩, b5⟩ := ih hnd (writeMsg env (routeMsg env (d + 1) true) gen w i m).1
            { m with data := (writeMsg env (routeMsg env (d + 1) true) gen w i m).2 } false
            (by rw [w2]; exact hl) ⟨hm.id, hm.tsys, hm.tcomp⟩
          refine ⟨⟨b1.trans w2, b2.trans w3, b3.trans w4⟩, ?_⟩
          rw [w1, w2, w3, w5] at b5
          rw [show ({ m with data := (writeMsg env (routeMsg env (d + 1) true) gen w i m).2 } : Msg) = m by
            rw [w6]] at b5 ⊢
          exact b5
      | filtered =>
        rw [hacc] at hdec
        rw [if_neg (fun h => absurd (hdec.mpr h.1) (by simp))]
        exact ih hnd w m false hl hm
      | rejected =>
        rw [hacc] at hdec
        rw [if_neg (fun h => absurd (hdec.mpr h.1) (by simp))]
        exact ih hnd w m u hl hm

/-- Routing one message: the counter grows by the number of messages, this one and those generated by it,
that nobody takes. -/
theorem routeMsg_counts (env : Env σ) (hgen : GenOk env) (d : Nat) (gen : Bool)
    (w : World σ) (hnd : w.active.Nodup) (hl : LogsKnow20 w.eps) (m : Msg) (hm : MsgOk m) :
    SameRest w (routeMsg env (d + 2) gen w m) ∧
    Eq32 (routeMsg env (d + 2) gen w m).unknown.toNat (w.unknown.toNat +
      ((m :: generated env w.eps w.logs w.active m).map (nobody env.sniffer.toNat w.eps w.active)).sum) := by
  obtain ⟨⟨a1, a2, a3⟩, a4⟩ := routeLoop_counts env hgen d gen w.active hnd w m true hl hm
  have hf := routeLoop_flag env (d + 1) gen w m hm
  rw [List.map_cons, List.sum_cons]
  by_cases hn : NobodyTakes env.sniffer.toNat w.eps w.active m
  · have : routeMsg env (d + 2) gen w m =
        { (routeLoop env (routeMsg env (d + 1) true) gen w.active w m true).1 with
          unknown := (routeLoop env (routeMsg env (d + 1) true) gen w.active w m true).1.unknown + 1 } := by
      show (if (routeLoop env (routeMsg env (d + 1) true) gen w.active w m true).2 = true then _ else _) = _
      rw [if_pos (hf.mpr hn)]
    rw [this]
    refine ⟨⟨a1, a2, a3⟩, ?_⟩
    have h1 : nobody env.sniffer.toNat w.eps w.active m = 1 := if_pos hn
    have h2 := add_one32 (routeLoop env (routeMsg env (d + 1) true) gen w.active w m true).1.unknown
    unfold Eq32 at *
    simp only
    omega
  · have : routeMsg env (d + 2) gen w m = (routeLoop env (routeMsg env (d + 1) true) gen w.active w m true).1 := by
      show (if (routeLoop env (routeMsg env (d + 1) true) gen w.active w m true).2 = true then _ else _) = _
      rw [if_neg (fun h => hn (hf.mp h))]
    rw [this]
    refine ⟨⟨a1, a2, a3⟩, ?_⟩
    have h1 : nobody env.sniffer.toNat w.eps w.active m = 0 := if_neg hn
    unfold Eq32 at *
    omega

theorem passedStates_count (env : Env σ) (hgen : GenOk env)
    (i : Nat) : ∀ (ms : List Msg), (∀ m ∈ ms, MsgOk m) → ∀ (w : World σ), RouterInv w → ∀ {w' as},
    runMsgs env i w ms = some (w', as) → w'.reported = w.reported ∧
      Eq32 w'.unknown.toNat (w.unknown.toNat + undeliverable env.sniffer.toNat (passedStates env i w ms)) := by
  intro ms
  induction ms with
  | nil => intro _ w _ w' as h; cases h; exact ⟨rfl, rfl⟩
  | cons m ms ih =>
    intro hms w hw w' as h
    unfold runMsgs at h
    obtain ⟨w1, b, h1, hinv, _, hact, hf, ht, _⟩ := handleMsg_spec env w hw i m
    simp only [h1] at h
    cases h2 : runMsgs env i w1 ms with
    | none => rw [h2] at h; cases h
    | some r2 =>
      obtain ⟨w2, bs⟩ := r2
      simp only [h2] at h
      cases h
      obtain ⟨k1, k2⟩ := ih (fun x hx => hms x (List.mem_cons_of_mem _ hx)) w1 hinv h2
      simp only [passedStates, h1]
      cases b with
      | false =>
        obtain ⟨d, c, rfl⟩ := hf rfl
        exact ⟨k1, k2⟩
      | true =>
        obtain ⟨h', d, l, hi, rfl⟩ := ht rfl
        have hinv0 : LogsKnow20 h' := by
          obtain ⟨new, hk, _⟩ := routeMsg_spec env 1 { w with eps := h', dedup := d, checks := w.checks + 1 } m
          have := hinv.logs20
          rw [hk.eps] at this
          exact this
        obtain ⟨⟨c1, c2, c3⟩, c4⟩ := routeMsg_counts env hgen 0 false
          { w with eps := h', dedup := d, checks := w.checks + 1 } hw.actNodup hinv0 m (hms m (List.mem_cons_self ..))
        refine ⟨k1.trans c3, ?_⟩
        have hc : ∀ a b : List (World σ × Msg), undeliverable env.sniffer.toNat (a ++ b) =
            undeliverable env.sniffer.toNat a + undeliverable env.sniffer.toNat b := by
          intro a b; unfold undeliverable; rw [List.countP_append]
        rw [if_pos rfl, hc, undeliverable_map]
        simp only [Nat.zero_add] at c1 c2 c3 c4 k2 ⊢
        rw [c1, c2]
        unfold Eq32 at *
        omega

/-- C82: over any history, the counts reported so far and the count not yet reported add up, modulo
2^32, to the number of messages, received or generated by log endpoints, that nobody took. -/
theorem C82_reports_add_up (env : Env σ) (ht : TableOk env.tbl) (hgen : GenOk env) :
    ∀ (evs : List RouterEv) (w : World σ), Reached env w → ∀ {w' as}, runRouter env w evs = some (w', as) →
    Eq32 (totalReported w') (totalReported w + undeliverable env.sniffer.toNat (routed env w evs)) := by
  intro evs
  induction evs with
  | nil => intro w _ w' as h; cases h; rfl
  | cons ev evs ih =>
    intro w hw w' as h
    unfold runRouter at h
    cases h1 : routerStep env w ev with
    | none => rw [h1] at h; cases h
    | some r =>
      obtain ⟨w1, as1⟩ := r
      simp only [h1] at h
      cases h2 : runRouter env w1 evs with
      | none => rw [h2] at h; cases h
      | some r2 =>
        obtain ⟨w2, bs⟩ := r2
        simp only [h2] at h
        cases h
        have k := ih w1 (.event hw h1) h2
        simp only [routed, h1]
        have hc : undeliverable env.sniffer.toNat (routedIn env w ev ++ routed env w1 evs) =
            undeliverable env.sniffer.toNat (routedIn env w ev) + undeliverable env.sniffer.toNat (routed env w1 evs) := by
          unfold undeliverable
          rw [List.countP_append]
        rw [hc]
        suffices hs : Eq32 (totalReported w1) (totalReported w + undeliverable env.sniffer.toNat (routedIn env w ev)) by
          unfold Eq32 at *
          omega
        cases ev with
        | read i io =>
          have hok := arrivals_msgOk env ht w w1 hw (.read i io) as1 h1
          simp only [routerStep, handleRead] at h1
          simp only [routedIn]
          cases he : w.eps[i]? with
          | none => rw [he] at h1; cases h1; rfl
          | some e =>
            simp only [he] at h1
            obtain ⟨hi, _⟩ := set_inv (reached_inv hw)
              (e' := { e with rx := (drain env.tbl e.fdOpen (rxBufMax + 1) e.rx io).1 }) he rfl rfl rfl rfl rfl
            have hm := runMsgs_msgs env i _ hi _ h1
            have := passedStates_count env hgen i _ (by
              rw [← hm]
              intro m hmem
              obtain ⟨a, ha, rfl⟩ := List.mem_map.mp hmem
              exact hok a ha) _ hi h1
            obtain ⟨r1, r2⟩ := this
            unfold totalReported Eq32 at *
            rw [r1]
            simp only at r2 ⊢
            omega
        | accept => cases h1; rfl
        | hangups gone => cases h1; rfl
        | fd i o =>
          simp only [routerStep] at h1
          cases he : w.eps[i]? with
          | none => rw [he] at h1; cases h1; rfl
          | some e => rw [he] at h1; cases h1; rfl
        | logCall i c =>
          cases h1
          simp only [routedIn]
          cases hk : (w.eps[i]?).map Ep.kind with
          | none =>
            have : logCall env w i c = w := by unfold logCall; rw [hk]
            rw [this]; rfl
          | some kd =>
            cases kd with
            | log =>
              have hw' : logCall env w i c = (env.logCall i c (w.logs i)).2.foldl (routeMsg env (1 + 1) true)
                  { w with logs := fun j => if j = i then (env.logCall i c (w.logs i)).1 else w.logs j } := by
                unfold logCall; rw [hk]
              rw [hw', if_pos rfl, undeliverable_map]
              obtain ⟨⟨a1, a2, a3⟩, a4, a5⟩ := foldl_unknown20 env 1 (env.logCall i c (w.logs i)).2
                { w with logs := fun j => if j = i then (env.logCall i c (w.logs i)).1 else w.logs j }
                (reached_inv hw).logs20
                (fun g hg => ⟨hgen.call _ _ _ g hg, hgen.callOk _ _ _ g hg⟩)
              unfold totalReported
              rw [a3]
              unfold Eq32 at *
              simp only at a5 ⊢
              omega
            | uart =>
              have : logCall env w i c = w := by unfold logCall; rw [hk]
              rw [this]; rfl
            | udp =>
              have : logCall env w i c = w := by unfold logCall; rw [hk]
              rw [this]; rfl
            | tcp =>
              have : logCall env w i c = w := by unfold logCall; rw [hk]
              rw [this]; rfl
        | aggregate =>
          cases h1
          have : totalReported (aggregate w) = totalReported w := by
            unfold aggregate
            split
            · simp [totalReported]
            · rfl
          rw [this]
          rfl

theorem withLogs_genOk (env : Env LogSt) (le : Nat → LogEnv) (now : Nat → UInt64) : GenOk (env.withLogs le now) where
  msg := withLogs_gen20 env le now
  msgOk := by
    intro i s m g hg
    have hg : g ∈ (logWrite le now i s m).2.1 := hg
    unfold logWrite at hg
    split at hg
    · cases hg
    · split at hg
      · cases hg
      · exact sent_ok _ _ g hg
  call := fun i c s => logTimer_gen20 le i c s
  callOk := fun i c s => logTimer_ok le i c s

/-- C82 with the actual log endpoints, from the start of the router. -/
theorem C82_reports_add_up_logs (env : Env LogSt) (le : Nat → LogEnv) (now : Nat → UInt64)
    (ht : TableOk env.tbl) (eps : List Ep) (hc : ConfigOk eps) (logs : Nat → LogSt)
    (evs : List RouterEv) (w : World LogSt) (as : List Arrival)
    (h : runRouter (env.withLogs le now) (start eps logs) evs = some (w, as)) :
    Eq32 (totalReported w) (undeliverable env.sniffer.toNat (routed (env.withLogs le now) (start eps logs) evs)) := by
  have := C82_reports_add_up (env.withLogs le now) ht (withLogs_genOk env le now) evs _ (.start hc) h
  have h0 : totalReported (start eps logs) = 0 := rfl
  rw [h0, Nat.zero_add] at this
  exact this

/-- C82: at each tick of the aggregate timer, a positive count is reported as it is and starts again
from zero; nothing is reported otherwise, and nothing else changes. -/
theorem C82_report (env : Env σ) (w : World σ) :
    ∃ w', routerStep env w .aggregate = some (w', []) ∧ w'.unknown = 0 ∧
      w'.reported = w.reported ++ (if w.unknown = 0 then [] else [w.unknown]) ∧
      { w' with unknown := w.unknown, reported := w.reported } = w := by
  refine ⟨_, rfl, ?_⟩
  unfold aggregate
  by_cases h : w.unknown = 0
  · rw [if_neg (by rw [h]; decide), if_pos h]
    exact ⟨h, by simp, rfl⟩
  · have hp : w.unknown > 0 := by
      rw [gt_iff_lt, UInt32.lt_iff_toNat_lt]
      have : w.unknown.toNat ≠ 0 := fun h' => h (UInt32.toNat_inj.mp h')
      simp
      omega
    rw [if_pos hp, if_neg h]
    exact ⟨rfl, rfl, rfl⟩

/-- COMMAND_LONG from 42/200 to 99/1. -/
def Sample.cmdTo99 : Frame :=
  { v2 := true, seq := 8, sys := 42, comp := 200, msgid := 76, payload := List.replicate 30 0 ++ [99, 1],
    crcLo := 254, crcHi := 120 }

/-- A command to 99/1 between two ticks is reported once. -/
example : (runRouter Sample.envQuiet Sample.w2
      [.aggregate, .read 1 (.got Sample.cmdTo99.encode), .aggregate, .aggregate]).map
    (fun r => (r.1.reported, r.2.map Arrival.passed)) = some ([1], [true]) := by
  decide +kernel

end Verif
