/-
C80: where the requests of the log endpoints go.
-/
import Verif.Lemmas.LogCall
import Verif.Props.LogRouter
import Verif.Props.LogProto

namespace Verif

open Verif.Spec

/-- A message of the log protocol from the router's log endpoint (2/0) to all components of system `t`:
COMMAND_LONG (76), REMOTE_LOG_BLOCK_STATUS (185) or LOGGING_ACK (268). -/
structure Spec.LogRequest (t : UInt8) (g : Msg) : Prop where
  src : g.srcSys = 2 ∧ g.srcComp = 0
  target : g.targetSys = (t.toNat : Int) ∧ g.targetComp = 0
  id : g.msgId = 76 ∨ g.msgId = 185 ∨ g.msgId = 268

theorem toMsg_request (env : LogEnv) (t : UInt8) (o : LogOut) : LogRequest t (o.toMsg env (some t)) := by
  refine ⟨⟨rfl, rfl⟩, ⟨rfl, rfl⟩, ?_⟩
  cases o <;> simp [LogOut.toMsg]

theorem gets_filter (env : Env LogSt) (eps : List Ep) (act : List Nat) (g : Msg)
    (hm : MsgOk g) : act.filter (fun i => decisionAt env.sniffer eps g i == some .accepted) =
      (open Classical in act.filter (fun i => decide (Gets env.sniffer.toNat eps g i))) := by
  apply List.filter_congr
  intro i _
  have := decision_gets env.sniffer eps g hm i
  by_cases hg : Gets env.sniffer.toNat eps g i
  · simp [hg, this.mpr hg]
  · have hn : decisionAt env.sniffer eps g i ≠ some .accepted := fun h => hg (this.mp h)
    simp [hg, hn]

theorem sent_ok (env : LogEnv) (l : Logger) : ∀ g ∈ l.sent env, MsgOk g := by
  intro g hg
  unfold Logger.sent at hg
  split at hg
  · cases hg
  · obtain ⟨o, _, rfl⟩ := List.mem_map.mp hg
    exact toMsg_ok _ _ _

theorem logTimer_ok (le : Nat → LogEnv) (i : Nat) (c : LogCall) (s : LogSt) :
    ∀ g ∈ (logTimer le i c s).2, MsgOk g := by
  intro g hg
  unfold logTimer at hg
  split at hg
  · cases hg
  · split at hg
    · cases hg
    · exact sent_ok _ _ g hg

/-- C80 (any timer call and the stop at exit): the messages a log endpoint sends are written, each of
them unchanged, to exactly the endpoints the routing rule names. -/
theorem C80_routed (env : Env LogSt) (le : Nat → LogEnv) (now : Nat → UInt64)
    (w : World LogSt) (hw : Reached (env.withLogs le now) w) (i : Nat) (e : Ep) (he : w.eps[i]? = some e)
    (hk : e.kind = .log) (c : LogCall) :
    (logCall (env.withLogs le now) w i c).out = w.out ++ (logTimer le i c (w.logs i)).2.flatMap (fun g =>
      (open Classical in w.active.filter (fun j => decide (Gets env.sniffer.toNat w.eps g j))).map
        (fun j => { ep := j, bytes := g.data, gen := true })) := by
  unfold logCall
  rw [he, Option.map_some, hk]
  simp only
  have hinv := reached_inv hw
  refine (foldl_out20 (env.withLogs le now) 1 (logTimer le i c (w.logs i)).2
    { w with logs := fun j => if j = i then (logTimer le i c (w.logs i)).1 else w.logs j } hinv.logs20
    (logTimer_gen20 le i c (w.logs i))).trans ?_
  congr 1
  have hcongr : ∀ (gs : List Msg) (f f' : Msg → List Sent), (∀ g ∈ gs, f g = f' g) → gs.flatMap f = gs.flatMap f' := by
    intro gs f f' h
    induction gs with
    | nil => rfl
    | cons g gs ih =>
      rw [List.flatMap_cons, List.flatMap_cons, h g (List.mem_cons_self ..),
        ih (fun x hx => h x (List.mem_cons_of_mem _ hx))]
  apply hcongr
  intro g hg
  congr 1
  exact gets_filter env w.eps w.active g (logTimer_ok le i c (w.logs i) g hg)

theorem logTimer_start (le : Nat → LogEnv) (i : Nat) (s : LogSt) (l : Logger) (hl : s.logger = some l)
    (b : LogBase) (hb : l.base = some b) (hst : b.startTimer = true) (hnt : ∀ b, l ≠ .tlog b) :
    ∃ o, (logTimer le i .start s).2 = [LogOut.toMsg (le i) b.target o] := by
  unfold logTimer
  rw [hl]
  simp only
  cases l with
  | tlog b => exact absurd rfl (hnt b)
  | ulog u =>
    cases hb
    refine ⟨.cmdStart, ?_⟩
    simp [Logger.quiet, Logger.call, LogCall.event, ULog.step, ULog.startTimeout, LogBase.quiet, hst,
      LogBase.send, Logger.sent, Logger.base]
  | bin u =>
    cases hb
    refine ⟨.blockStart, ?_⟩
    simp [Logger.quiet, Logger.call, LogCall.event, BinLog.step, BinLog.startTimeout, LogBase.quiet, hst,
      LogBase.send, Logger.sent, Logger.base]
  | auto a =>
    unfold Logger.base at hb
    simp only at hb
    cases hx : a.logger with
    | none => rw [hx] at hb; cases hb
    | some fl =>
      rw [hx] at hb
      cases fl with
      | ulog u =>
        cases hb
        refine ⟨.cmdStart, ?_⟩
        simp [Logger.quiet, Logger.call, LogCall.event, AutoLog.step, hx, ULog.step, ULog.startTimeout, LogBase.quiet,
          hst, LogBase.send, Logger.sent, Logger.base]
      | bin u =>
        cases hb
        refine ⟨.blockStart, ?_⟩
        simp [Logger.quiet, Logger.call, LogCall.event, AutoLog.step, hx, BinLog.step, BinLog.startTimeout,
          LogBase.quiet, hst, LogBase.send, Logger.sent, Logger.base]

/-- C80: when the start timer of a flight log that waits for system `t` fires, one request to `t` is
written to exactly the endpoints the routing rule names, and nothing else is written. -/
theorem C80_start_request (env : Env LogSt) (le : Nat → LogEnv) (now : Nat → UInt64)
    (w : World LogSt) (hw : Reached (env.withLogs le now) w) (i : Nat) (e : Ep) (he : w.eps[i]? = some e)
    (hk : e.kind = .log) (l : Logger) (hl : (w.logs i).logger = some l) (hnt : ∀ b, l ≠ .tlog b) (b : LogBase)
    (hb : l.base = some b) (hst : b.startTimer = true) (t : UInt8) (ht : b.target = some t) :
    ∃ g, LogRequest t g ∧ (logCall (env.withLogs le now) w i .start).out = w.out ++
      (open Classical in w.active.filter (fun j => decide (Gets env.sniffer.toNat w.eps g j))).map
        (fun j => { ep := j, bytes := g.data, gen := true }) := by
  obtain ⟨o, ho⟩ := logTimer_start le i (w.logs i) l hl b hb hst hnt
  rw [ht] at ho
  refine ⟨_, toMsg_request (le i) t o, ?_⟩
  rw [C80_routed env le now w hw i e he hk .start, ho]
  simp

/-- C80: in particular the request is written exactly once to every active endpoint behind which a
component of `t` was seen, unless its outgoing filters or another 2/0 seen there forbid it; and never to
an endpoint behind which `t` was not seen, unless `t` is 0 or the endpoint is the sniffer's. -/
theorem C80_reaches (env : Env LogSt) (le : Nat → LogEnv) (now : Nat → UInt64)
    (w : World LogSt) (hw : Reached (env.withLogs le now) w) (i : Nat) (e : Ep) (he : w.eps[i]? = some e)
    (hk : e.kind = .log) (l : Logger) (hl : (w.logs i).logger = some l) (hnt : ∀ b, l ≠ .tlog b) (b : LogBase)
    (hb : l.base = some b) (hst : b.startTimer = true) (t : UInt8) (ht : b.target = some t)
    (j : Nat) (x : Ep) (hx : w.eps[j]? = some x) :
    ∃ g new, LogRequest t g ∧ (logCall (env.withLogs le now) w i .start).out = w.out ++ new ∧
      (j ∈ w.active → KnowsSys x t.toNat → ¬ Knows x 2 0 → outOk x.filters g →
        new.filter (fun s => s.ep == j) = [{ ep := j, bytes := g.data, gen := true }]) ∧
      (t ≠ 0 → ¬ KnowsSys x t.toNat → ¬ Sniffs env.sniffer.toNat x → ∀ s ∈ new, s.ep ≠ j) := by
  obtain ⟨g, hg, ho⟩ := C80_start_request env le now w hw i e he hk l hl hnt b hb hst t ht
  refine ⟨g, _, hg, ho, ?_, ?_⟩
  · intro hj h1 h2 h3
    have hgets : Gets env.sniffer.toNat w.eps g j := by
      refine ⟨x, hx, ?_, h3, .inl ?_⟩
      · intro hf
        unfold FromHere at hf
        rw [hg.src.1, hg.src.2] at hf
        exact h2 hf
      · by_cases h0 : g.targetSys ≤ 0
        · exact .inl h0
        · refine .inr (.inl ⟨by rw [hg.target.2]; decide, ?_⟩)
          rw [hg.target.1]
          exact h1
    have hnd := (reached_inv hw).actNodup
    classical
    have hfil : ∀ (act : List Nat), act.Nodup → j ∈ act →
        (((act.filter (fun j => decide (Gets env.sniffer.toNat w.eps g j))).map
          (fun j => ({ ep := j, bytes := g.data, gen := true } : Sent))).filter (fun s => s.ep == j)) =
        [{ ep := j, bytes := g.data, gen := true }] := by
      intro act hn hm
      rw [List.filter_map]
      have : (act.filter (fun j => decide (Gets env.sniffer.toNat w.eps g j))).filter
          ((fun s : Sent => s.ep == j) ∘ (fun j => ({ ep := j, bytes := g.data, gen := true } : Sent))) = [j] := by
        rw [List.filter_filter]
        have he : act.filter (fun a => ((fun s : Sent => s.ep == j) ∘
            (fun j => ({ ep := j, bytes := g.data, gen := true } : Sent))) a &&
            decide (Gets env.sniffer.toNat w.eps g a)) = act.filter (fun a => a == j) := by
          apply List.filter_congr
          intro a _
          by_cases ha : a = j
          · subst ha; simp [hgets]
          · simp [ha]
        rw [he, List.filter_beq]
        rw [show List.count j act = 1 from ?_]
        · rfl
        · have h1 := List.nodup_iff_count.mp hn j
          have h2 := List.count_pos_iff.mpr hm
          omega
      rw [this]
      rfl
    exact hfil w.active hnd hj
  · intro h0 h1 h2 s hs
    classical
    obtain ⟨k, hk', rfl⟩ := List.mem_map.mp hs
    have hgk := (List.mem_filter.mp hk').2
    rintro rfl
    obtain ⟨y, hy, _, _, had⟩ := of_decide_eq_true hgk
    replace hy : w.eps[k]? = some y := hy
    replace hx : w.eps[k]? = some x := hx
    rw [hx] at hy
    cases hy
    have htn : t.toNat ≠ 0 := fun h => h0 (UInt8.toNat_inj.mp h)
    rcases had with had | had
    · rcases had with had | had | had
      · rw [hg.target.1] at had; omega
      · rw [hg.target.1] at had; exact h1 had.2
      · rw [hg.target.2] at had; exact absurd had.1 (by decide)
    · exact h2 had

/-- After a heartbeat of autopilot 1/1 on the UART (endpoint 0) the PX4 log asks it to start. -/
example : Reached Sample.lrEnv Sample.lr2 ∧
    (((Sample.lr2.logs 2).logger.bind Logger.base).map (fun b => (b.startTimer, b.target))) = some (true, some 1) ∧
    ((logCall Sample.lrEnv Sample.lr2 2 .start).out.drop Sample.lr2.out.length).map Sent.ep = [0] :=
  ⟨Sample.lr2_reached, by decide +kernel, by decide +kernel⟩

end Verif
