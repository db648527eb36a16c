import Verif.Props.Fair
import Verif.Props.LogProto
import Verif.Props.LogRouter
import Verif.Props.BinLog
import Verif.Props.ULog

/-
C103, continued: the messages the log endpoints send while a readable event is served.
-/

namespace Verif

open Spec

/-- At most `k` messages were sent on the way from `b` to `b'`. -/
def SentAtMost (k : Nat) (b b' : LogBase) : Prop := ∃ new, b'.out = b.out ++ new ∧ new.length ≤ k

theorem SentAtMost.none {b b' : LogBase} (h : b'.out = b.out) (k : Nat) : SentAtMost k b b' := ⟨[], by simp [h], by simp⟩

theorem SentAtMost.trans {j k : Nat} {a b c : LogBase} (h1 : SentAtMost j a b) (h2 : SentAtMost k b c) :
    SentAtMost (j + k) a c := by
  obtain ⟨x, hx, hx'⟩ := h1
  obtain ⟨y, hy, hy'⟩ := h2
  exact ⟨x ++ y, by rw [hy, hx, List.append_assoc], by simp; omega⟩

theorem SentAtMost.mono {j k : Nat} {a b : LogBase} (h : SentAtMost j a b) (hjk : j ≤ k) : SentAtMost k a b := by
  obtain ⟨x, hx, hx'⟩ := h
  exact ⟨x, hx, by omega⟩

theorem learnTarget_out (b : LogBase) (m : Msg) : (b.learnTarget m).out = b.out := by
  unfold LogBase.learnTarget; split <;> rfl

/-! ### ArduPilot logs -/

theorem binStop_sent (l : BinLog) : SentAtMost 1 l.base l.stop.base := by
  unfold BinLog.stop
  split
  · exact .none rfl _
  · exact ⟨[.blockStop], rfl, by simp⟩

theorem binRestart_sent (env : LogEnv) (l : BinLog) : SentAtMost 1 l.base (l.restart env).base := by
  obtain ⟨x, hx, hx'⟩ := binStop_sent l
  exact ⟨x, by unfold BinLog.restart; rw [binStart_out, hx], hx'⟩

theorem binAuto_sent (env : LogEnv) (l : BinLog) (m : Msg) (h : m.msgId ≠ 0) : SentAtMost 0 l.base (l.auto env m).base := by
  unfold BinLog.auto
  have hns : l.base.autoAct env m ≠ .stop := by
    unfold LogBase.autoAct
    split
    · simp
    · split
      · split <;> simp
      · rw [if_neg (fun hc => h hc.1)]; simp
      · simp
  split
  · exact .none rfl _
  · rename_i hs
    have := binStart_out env l
    split <;> rename_i he <;> rw [he] at this <;> exact .none this _
  · rename_i hs; exact absurd hs hns

theorem binAuto_sent1 (env : LogEnv) (l : BinLog) (m : Msg) : SentAtMost 1 l.base (l.auto env m).base := by
  unfold BinLog.auto
  split
  · exact .none rfl _
  · have := binStart_out env l
    split <;> rename_i he <;> rw [he] at this <;> exact .none this _
  · exact binStop_sent l

theorem sendAck_sent (l : BinLog) (n : UInt32) : SentAtMost (1 + n.toNat) l.base (l.sendAck n).base := by
  unfold BinLog.sendAck
  split
  · exact ⟨[.blockAck n], rfl, by simp⟩
  · refine ⟨nackLoop (l.lastAcked + 1) n ++ [.blockAck n], by simp [List.append_assoc], ?_⟩
    rw [nackLoop_eq]
    simp
    omega

theorem process_sent (env : LogEnv) (l : BinLog) (p : Block) :
    SentAtMost (1 + p.seqno.toNat) l.base (l.process env p).base := by
  unfold BinLog.process
  split
  · exact (binRestart_sent env l).mono (by omega)
  · split
    · simp only
      split
      · exact SentAtMost.trans (j := 0) (.none rfl _) (sendAck_sent _ _) |>.mono (by omega)
      · exact .none rfl _
    · exact .none rfl _
    · exact SentAtMost.trans (j := 0) (.none rfl _) (binRestart_sent env _) |>.mono (by omega)

theorem takeBlock_sent (env : LogEnv) (l : BinLog) (p : Block) :
    SentAtMost (1 + p.seqno.toNat) l.base (l.takeBlock env p).base := by
  unfold BinLog.takeBlock
  split
  · split
    · exact SentAtMost.trans (j := 0) (.none rfl _) (process_sent env _ p) |>.mono (by omega)
    · exact ⟨[.blockStop], rfl, by simp⟩
  · exact process_sent env l p

theorem binWrite_sent (env : LogEnv) (l : BinLog) (m : Msg) :
    SentAtMost (1 + if m.msgId = 184 then (m.block env).seqno.toNat else 0) l.base (l.writeMsg env m).base := by
  unfold BinLog.writeMsg
  have h0 : SentAtMost 0 l.base { l with base := l.base.learnTarget m }.base := .none (learnTarget_out _ _) _
  simp only
  by_cases h : m.msgId = 184
  · rw [if_pos h, if_neg (fun hc => hc h)]
    have h1 := h0.trans (binAuto_sent env { l with base := l.base.learnTarget m } m (by rw [h]; decide))
    split
    · exact h1.mono (by omega)
    · exact (h1.trans (takeBlock_sent env _ _)).mono (by omega)
  · rw [if_neg h, if_pos h]
    exact h0.trans (binAuto_sent1 env _ m)

/-! ### PX4 logs -/

theorem flush_sent {env : LogEnv} {u v : ULog} {r : Bool} (h : u.flush env = some (v, r)) : v.base.out = u.base.out := by
  obtain ⟨f, n, e⟩ := (flush_spec env u v r h).base
  rw [e]

theorem ulogStop_sent {env : LogEnv} {u v : ULog} (h : u.stop env = some v) : SentAtMost 1 u.base v.base := by
  by_cases hf : u.base.file = none
  · unfold ULog.stop at h
    rw [if_pos hf] at h
    cases h
    exact .none rfl _
  · exact ⟨[.cmdStop], (ulogStop_facts hf h).2.1, by simp⟩

theorem ulogStart_out (env : LogEnv) (u : ULog) : (u.start env).1.base.out = u.base.out := by
  unfold ULog.start LogBase.start
  cases u.base.file.isSome with
  | true => rfl
  | false => cases env.startOk u.base.nstart <;> rfl

theorem ulogAppend_sent {env : LogEnv} {u v : ULog} {p q : Pkt} {d : Bool} (h : u.append env p d = some (v, q)) :
    v.base.out = u.base.out := by
  unfold ULog.append at h
  cases ha : u.afterLoss env d with
  | none => rw [ha] at h; cases h
  | some w =>
    rw [ha] at h
    have hw : w.base.out = u.base.out := by
      unfold ULog.afterLoss at ha
      split at ha
      · split at ha
        · cases ha
        · rename_i w' _ hf; cases ha; exact (flush_sent hf : w'.base.out = _)
      · cases ha; rfl
    have hm : (w.makeRoom p.length.toNat).base = w.base := by
      unfold ULog.makeRoom; simp only; split <;> split <;> rfl
    simp only at h
    unfold ULog.store at h
    split at h
    · cases h; rw [hm, hw]
    · simp only at h
      split at h
      · cases h; simp only; rw [hm, hw]
      · split at h
        · cases h
        · rename_i hf
          cases h
          rw [flush_sent hf]; simp only; rw [hm, hw]

theorem ulogProcess_sent {env : LogEnv} {u v : ULog} {p q : Pkt} (h : u.process env p = some (v, q)) :
    SentAtMost 1 u.base v.base := by
  unfold ULog.process at h
  split at h
  · cases h; exact .none rfl _
  · simp only at h
    split at h
    · split at h
      · unfold ULog.restart at h
        split at h
        · cases h
        · rename_i w hs
          simp only [Option.map_some, Option.some.injEq, Prod.mk.injEq] at h
          obtain ⟨x, hx, hx'⟩ := ulogStop_sent hs
          exact ⟨x, by rw [← h.1, ulogStart_out, hx], hx'⟩
      · exact .none (ulogAppend_sent h) _
    · exact .none (ulogAppend_sent h) _

theorem ulogAuto_sent {env : LogEnv} {u v : ULog} {m : Msg} (h : u.auto env m = some v) :
    SentAtMost (if m.msgId = 0 then 1 else 0) u.base v.base := by
  unfold ULog.auto at h
  split at h
  · cases h; exact .none rfl _
  · have := ulogStart_out env u
    split at h <;> rename_i he <;> rw [he] at this <;> cases h <;> exact .none this _
  · rename_i hs
    have : m.msgId = 0 := by
      refine Decidable.of_not_not fun hn => ?_
      unfold LogBase.autoAct at hs
      split at hs
      · cases hs
      · split at hs
        · split at hs <;> cases hs
        · rw [if_neg (fun hc => hn hc.1)] at hs; cases hs
        · cases hs
    rw [if_pos this]
    exact ulogStop_sent h

theorem ulogWrite_sent {env : LogEnv} {u v : ULog} {m : Msg} {d : List UInt8} (h : u.writeMsg env m = some (v, d)) :
    SentAtMost 2 u.base v.base ∧ (m.msgId = 184 → d = m.data ∧ SentAtMost 0 u.base v.base) := by
  unfold ULog.writeMsg at h
  split at h
  · cases h
  · rename_i w hw
    have h0 : SentAtMost 0 u.base { u with base := u.base.learnTarget m }.base := .none (learnTarget_out _ _) _
    have h1 := h0.trans (ulogAuto_sent hw)
    split at h
    · cases h
      refine ⟨h1.mono (by split <;> omega), fun h184 => ⟨rfl, ?_⟩⟩
      rw [if_neg (by rw [h184]; decide)] at h1
      exact h1
    · rename_i hid
      have hn0 : ¬ m.msgId = 0 := by intro hc; rw [hc] at hid; exact hid (by decide)
      have hn : m.msgId ≠ 184 := by intro hc; rw [hc] at hid; exact hid (by decide)
      rw [if_neg hn0] at h1
      refine ⟨?_, fun hc => absurd hc hn⟩
      split at h
      · cases h; exact h1.mono (by omega)
      · split at h
        · cases h
          refine (h1.trans (k := 0) (.none ?_ _)).mono (by omega)
          unfold ULog.commandAck
          split
          · rfl
          · split <;> rfl
        · split at h
          · cases h
          · rename_i hp
            cases h
            have ha : SentAtMost 1 w.base (w.acknowledge env m).base := by
              unfold ULog.acknowledge
              simp only
              split
              · exact ⟨[_], rfl, by simp⟩
              · exact .none rfl _
            exact (h1.trans (ha.trans (ulogProcess_sent hp))).mono (by omega)

/-! ### All log endpoints -/

/-- The number a log block message carries; other messages count as 0. -/
def Spec.blockCount (m : Msg) : Nat := if m.msgId = 184 then (blockIn m).seqno.toNat else 0

/-- Log block messages are complete. -/
def Spec.BlocksWhole (m : Msg) : Prop := m.msgId = 184 → BlockMsg m

theorem sent_le {k : Nat} {b : LogBase} (h : SentAtMost k b.quiet b') (env : LogEnv) (t : Option UInt8) :
    (b'.out.map (LogOut.toMsg env t)).length ≤ k := by
  obtain ⟨x, hx, hx'⟩ := h
  rw [List.length_map, hx]
  simpa [LogBase.quiet] using hx'

theorem binWrite_sent' (env : LogEnv) (l : BinLog) (m : Msg) (hm : BlocksWhole m) :
    SentAtMost (2 + blockCount m) l.base (l.writeMsg env m).base := by
  refine (binWrite_sent env l m).mono ?_
  unfold blockCount
  split
  · rename_i h; rw [block_eq (hm h)]; omega
  · omega

theorem auto_sent_nil (env : LogEnv) (x : AutoLog) (hx : x.logger = none ∨ ∃ (y : AutoLog) (c : UInt8), x.logger = y.choose c) :
    (Logger.auto x).sent env = [] := by
  unfold Logger.sent Logger.base
  rcases hx with hx | ⟨y, c, hx⟩
  · simp only [hx]
  · unfold AutoLog.choose at hx
    split at hx
    · simp only [hx]; rfl
    · split at hx
      · simp only [hx]; rfl
      · simp only [hx]

/-- C103, what the log endpoints add: while it is given one message, a log endpoint sends at most two messages and, if the message
is a log block, at most as many more as the number of the block says.  Nothing of a log block is changed. -/
theorem C103_replies_partial (env : LogEnv) (now : UInt64) (l l' : Logger) (m : Msg) (d : List UInt8) (hm : BlocksWhole m)
    (h : l.quiet.writeMsg env now m = some (l', d)) :
    (l'.sent env).length ≤ 2 + blockCount m ∧ (m.msgId = 184 → d = m.data) := by
  cases l with
  | ulog u =>
    simp only [Logger.quiet, Logger.writeMsg] at h
    cases hw : ULog.writeMsg env { u with base := u.base.quiet } m with
    | none => rw [hw] at h; cases h
    | some r =>
      rw [hw] at h
      cases h
      obtain ⟨h1, h2⟩ := ulogWrite_sent (v := r.1) (d := r.2) hw
      exact ⟨Nat.le_trans (sent_le h1 env _) (by omega), fun h => (h2 h).1⟩
  | bin b =>
    simp only [Logger.quiet, Logger.writeMsg] at h
    cases h
    exact ⟨sent_le (binWrite_sent' env { b with base := b.base.quiet } m hm) env _, fun _ => rfl⟩
  | tlog b =>
    simp only [Logger.quiet, Logger.writeMsg] at h
    cases h
    refine ⟨Nat.le_trans (sent_le (k := 0) (b := b) (.none ?_ _) env _) (by omega), fun _ => rfl⟩
    have hw : ∀ (b : LogBase) x, (b.write env x).1.out = b.out := by
      intro b x
      unfold LogBase.write
      split
      · rfl
      · split <;> rfl
    unfold tlogWriteMsg
    simp only [hw]
    unfold tlogAuto
    split
    · exact learnTarget_out _ _
    · have hs : (LogBase.start env (b.quiet.learnTarget m)).1.out = b.quiet.out := by
        unfold LogBase.start
        split
        · exact learnTarget_out _ _
        · split <;> exact learnTarget_out _ _
      split <;> rename_i he <;> rw [he] at hs <;> exact hs
    · unfold tlogStop
      split
      · exact learnTarget_out _ _
      · exact learnTarget_out _ _
  | auto a =>
    cases hl : a.logger with
    | none =>
      simp only [Logger.quiet, hl, Option.map_none, Logger.writeMsg, AutoLog.writeMsg] at h
      split at h
      · cases h
        refine ⟨?_, fun _ => rfl⟩
        rw [auto_sent_nil env _ (.inl ?_)]
        · simp
        · unfold AutoLog.learn; split <;> rfl
      · cases h
        refine ⟨?_, fun _ => rfl⟩
        rw [auto_sent_nil env _ (.inr ⟨_, _, rfl⟩)]
        simp
    | some f =>
      cases f with
      | ulog u =>
        simp only [Logger.quiet, hl, Option.map_some, Logger.writeMsg, AutoLog.writeMsg, FlightLog.writeMsg] at h
        cases hw : ULog.writeMsg env { u with base := u.base.quiet } m with
        | none => rw [hw] at h; cases h
        | some r =>
          rw [hw] at h
          cases h
          obtain ⟨h1, h2⟩ := ulogWrite_sent (v := r.1) (d := r.2) hw
          exact ⟨Nat.le_trans (sent_le h1 env _) (by omega), fun h => (h2 h).1⟩
      | bin b =>
        simp only [Logger.quiet, hl, Option.map_some, Logger.writeMsg, AutoLog.writeMsg, FlightLog.writeMsg] at h
        cases h
        exact ⟨sent_le (binWrite_sent' env { b with base := b.base.quiet } m hm) env _, fun _ => rfl⟩

/-! ### The router -/

variable {σ : Type}

/-- Routing a message writes at most `a` messages and leaves the list of endpoints alone. -/
def WritesAtMost (a : Nat) (w w' : World σ) : Prop :=
  w'.active = w.active ∧ ∃ new, w'.out = w.out ++ new ∧ new.length ≤ a

theorem WritesAtMost.trans {a b : Nat} {w w' w'' : World σ} (h1 : WritesAtMost a w w') (h2 : WritesAtMost b w' w'') :
    WritesAtMost (a + b) w w'' := by
  obtain ⟨h1, x, hx, hx'⟩ := h1
  obtain ⟨h2, y, hy, hy'⟩ := h2
  exact ⟨h2.trans h1, x ++ y, by rw [hy, hx, List.append_assoc], by simp; omega⟩

theorem WritesAtMost.mono {a b : Nat} {w w' : World σ} (h : WritesAtMost a w w') (hab : a ≤ b) : WritesAtMost b w w' := by
  obtain ⟨h1, x, hx, hx'⟩ := h
  exact ⟨h1, x, hx, by omega⟩

theorem WritesAtMost.refl (w : World σ) : WritesAtMost 0 w w := ⟨rfl, [], by simp, by simp⟩

theorem foldl_atMost {route : World σ → Msg → World σ} {a n : Nat}
    (hr : ∀ w g, w.active.length = n → WritesAtMost a w (route w g)) :
    ∀ (gs : List Msg) (w : World σ), w.active.length = n → WritesAtMost (gs.length * a) w (gs.foldl route w) := by
  intro gs
  induction gs with
  | nil => intro w _; exact (WritesAtMost.refl w).mono (by simp)
  | cons g gs ih =>
    intro w hw
    have h1 := hr w g hw
    have h2 := ih (route w g) (by rw [h1.1]; exact hw)
    exact (h1.trans h2).mono (by rw [List.length_cons, Nat.add_mul]; omega)

/-- The loop of `route_msg` if the log endpoints answer a message of kind `P` with at most `k` messages. -/
theorem routeLoop_atMost (env : Env σ) {route : World σ → Msg → World σ} {a n k : Nat} (P : Msg → Prop)
    (hr : ∀ w g, w.active.length = n → WritesAtMost a w (route w g))
    (hl : ∀ i s m, P m → (env.log i s m).2.1.length ≤ k ∧ P { m with data := (env.log i s m).2.2 }) (gen : Bool) :
    ∀ (is : List Nat) (w : World σ) (m : Msg) (u : Bool), w.active.length = n → P m →
      WritesAtMost (is.length * (1 + k * a)) w (routeLoop env route gen is w m u).1 := by
  intro is
  induction is with
  | nil => intro w m u _ _; exact (WritesAtMost.refl w).mono (by simp)
  | cons i is ih =>
    intro w m u hn hP
    have hle : ∀ {x : Nat} {w' w'' : World σ}, WritesAtMost (is.length * x) w' w'' → WritesAtMost ((i :: is).length * x) w' w'' :=
      fun h => h.mono (by rw [List.length_cons, Nat.add_mul]; omega)
    unfold routeLoop
    cases he : w.eps[i]? with
    | none => exact hle (ih w m u hn hP)
    | some e =>
      simp only
      cases acceptMsg env.sniffer e m with
      | filtered => exact hle (ih w m false hn hP)
      | rejected => exact hle (ih w m u hn hP)
      | accepted =>
        simp only
        have hw : WritesAtMost (1 + k * a) w (writeMsg env route gen w i m).1 ∧
            P { m with data := (writeMsg env route gen w i m).2 } := by
          unfold writeMsg
          split
          · obtain ⟨h1, h2⟩ := hl i (w.logs i) m hP
            refine ⟨?_, h2⟩
            have h0 : WritesAtMost 1 w
                { w with
                  out := w.out ++ [{ ep := i, bytes := m.data, gen := gen }]
                  logs := fun j => if j = i then (env.log i (w.logs i) m).1 else w.logs j } :=
              ⟨rfl, [{ ep := i, bytes := m.data, gen := gen }], rfl, by simp⟩
            exact (h0.trans (foldl_atMost hr (env.log i (w.logs i) m).2.1 _ hn)).mono
              (by have := Nat.mul_le_mul_right a h1; omega)
          · exact ⟨⟨rfl, [{ ep := i, bytes := m.data, gen := gen }], rfl, by simp⟩, hP⟩
        have h2 := ih (writeMsg env route gen w i m).1 { m with data := (writeMsg env route gen w i m).2 } false
          (by rw [hw.1.1]; exact hn) hw.2
        exact (hw.1.trans h2).mono (by rw [List.length_cons, Nat.add_mul]; omega)

theorem routeMsg0_atMost (env : Env σ) (gen : Bool) (w : World σ) (m : Msg) : WritesAtMost 0 w (routeMsg env 0 gen w m) :=
  .refl w

/-- A generated message is written at most once to every endpoint. -/
theorem routeMsg1_atMost (env : Env σ) (gen : Bool) (w : World σ) (m : Msg) :
    WritesAtMost w.active.length w (routeMsg env 1 gen w m) := by
  -- the messages generated at this depth are not routed any further
  have hloop : ∀ (is : List Nat) (w : World σ) (m : Msg) (u : Bool),
      WritesAtMost is.length w (routeLoop env (routeMsg env 0 true) gen is w m u).1 := by
    intro is
    induction is with
    | nil => intro w m u; exact .refl w
    | cons i is ih =>
      intro w m u
      unfold routeLoop
      cases he : w.eps[i]? with
      | none => exact (ih w m u).mono (by simp)
      | some e =>
        simp only
        cases acceptMsg env.sniffer e m with
        | filtered => exact (ih w m false).mono (by simp)
        | rejected => exact (ih w m u).mono (by simp)
        | accepted =>
          simp only
          have hw : WritesAtMost 1 w (writeMsg env (routeMsg env 0 true) gen w i m).1 := by
            unfold writeMsg
            split
            · have h0 : WritesAtMost 1 w
                  { w with
                    out := w.out ++ [{ ep := i, bytes := m.data, gen := gen }]
                    logs := fun j => if j = i then (env.log i (w.logs i) m).1 else w.logs j } :=
                ⟨rfl, [{ ep := i, bytes := m.data, gen := gen }], rfl, by simp⟩
              exact (h0.trans (foldl_atMost (n := w.active.length) (a := 0)
                (fun w g _ => routeMsg0_atMost env true w g) (env.log i (w.logs i) m).2.1 _ rfl)).mono (by simp)
            · exact ⟨rfl, [{ ep := i, bytes := m.data, gen := gen }], rfl, by simp⟩
          exact (hw.trans (ih _ _ false)).mono (by rw [List.length_cons]; omega)
  unfold routeMsg
  simp only
  have := hloop w.active w m true
  split
  · exact this
  · exact this

/-- What a message received may be for the bound: log blocks are complete and have numbers up to `B`. -/
def Spec.BlocksUpTo (B : Nat) (m : Msg) : Prop := BlocksWhole m ∧ blockCount m ≤ B

theorem logWrite_atMost (le : Nat → LogEnv) (now : Nat → UInt64) (B : Nat) (i : Nat) (s : LogSt) (m : Msg)
    (h : BlocksUpTo B m) :
    (logWrite le now i s m).2.1.length ≤ 2 + B ∧ BlocksUpTo B { m with data := (logWrite le now i s m).2.2 } := by
  have hd : ∀ d : List UInt8, (m.msgId = 184 → d = m.data) → BlocksUpTo B { m with data := d } := by
    intro d hd
    by_cases h184 : m.msgId = 184
    · rw [hd h184]; exact h
    · exact ⟨fun hc => absurd hc h184, by unfold blockCount; rw [if_neg h184]; omega⟩
  unfold logWrite
  split
  · exact ⟨by simp, hd _ fun _ => rfl⟩
  · split
    · exact ⟨by simp, hd _ fun _ => rfl⟩
    · rename_i hw
      obtain ⟨h1, h2⟩ := C103_replies_partial _ _ _ _ m _ h.1 hw
      exact ⟨Nat.le_trans h1 (by have := h.2; omega), hd _ h2⟩

theorem handleMsg_atMost (env : Env LogSt) (le : Nat → LogEnv) (now : Nat → UInt64) (B : Nat) (w w' : World LogSt) (i : Nat)
    (m : Msg) (b : Bool) (h : BlocksUpTo B m) (hh : handleMsg (env.withLogs le now) w i m = some (w', b)) :
    WritesAtMost (w.active.length * (1 + (2 + B) * w.active.length)) w w' := by
  unfold handleMsg at hh
  have same : ∀ {w'' : World LogSt}, w''.active = w.active → w''.out = w.out →
      WritesAtMost (w.active.length * (1 + (2 + B) * w.active.length)) w w'' :=
    fun h1 h2 => ⟨h1, [], by simp [h2], by simp⟩
  split at hh
  · cases hh; exact same rfl rfl
  · split at hh
    · cases hh
    · simp only at hh
      split at hh
      · cases hh; exact same rfl rfl
      · split at hh
        · cases hh; exact same rfl rfl
        · split at hh
          · cases hh
          · rename_i d isNew _ _ _ _ eps _
            cases hh
            have := routeLoop_atMost (n := w.active.length) (env.withLogs le now) (BlocksUpTo B)
              (route := routeMsg (env.withLogs le now) 1 true) (a := w.active.length)
              (fun w' g hw' => by rw [← hw']; exact routeMsg1_atMost (env.withLogs le now) true w' g)
              (fun i s m hm => logWrite_atMost le now B i s m hm) false w.active
              { w with dedup := d, checks := w.checks + 1, eps := eps } m true rfl h
            unfold routeMsg
            simp only
            split
            · exact this
            · exact this

/-- C103 with everything the router writes, part: serving one readable event writes at most 140 messages to each endpoint, and in
answer to each of them each log endpoint causes at most `2 + B` more, where `B` bounds the numbers of the log blocks received.
Missing from the full claim: a call into a log endpoint that does not return (`C103_violated`), and a bound that does not depend on
what was received (`C103_flood`). -/
theorem C103_routed_partial (env : Env LogSt) (le : Nat → LogEnv) (now : Nat → UInt64) (w w' : World LogSt) (i : Nat) (io : SysRead)
    (as : List Arrival) (B : Nat) (hinv : ∀ e, w.eps[i]? = some e → e.rx.Inv ∧ e.fdOpen = true)
    (h : handleRead (env.withLogs le now) w i io = some (w', as)) (hB : ∀ a ∈ as, BlocksUpTo B a.msg) :
    ∃ new, w'.out = w.out ++ new ∧ new.length ≤ 140 * (w.active.length * (1 + (2 + B) * w.active.length)) := by
  unfold handleRead at h
  split at h
  · cases h; exact ⟨[], by simp, by simp⟩
  · rename_i e he
    obtain ⟨hi, ho⟩ := hinv e he
    simp only at h
    have hlen : (drain (env.withLogs le now).tbl e.fdOpen (rxBufMax + 1) e.rx io).2.1.length ≤ 140 := by
      rw [ho]
      have h1 := (C103_bounded_partial (env.withLogs le now).tbl (fun _ => io) e.rx hi (rxBufMax + 1)).2
      obtain ⟨k, hk⟩ := C103_ends_partial (env.withLogs le now).tbl (fun _ => io) e.rx hi
      rw [hk] at h1
      exact h1
    have hrun : ∀ (ms : List Msg) (v v' : World LogSt) (as : List Arrival), v.active.length = w.active.length →
        runMsgs (env.withLogs le now) i v ms = some (v', as) → (∀ a ∈ as, BlocksUpTo B a.msg) →
        WritesAtMost (ms.length * (w.active.length * (1 + (2 + B) * w.active.length))) v v' := by
      intro ms
      induction ms with
      | nil => intro v v' as _ hr _; cases hr; exact (WritesAtMost.refl _).mono (by simp)
      | cons m ms ih =>
        intro v v' as hv hr hB
        simp only [runMsgs] at hr
        split at hr
        · cases hr
        · rename_i v1 b hm
          split at hr
          · cases hr
          · rename_i v2 as2 hr2
            simp only [Option.some.injEq, Prod.mk.injEq] at hr
            obtain ⟨rfl, rfl⟩ := hr
            have h1 := handleMsg_atMost env le now B v v1 i m b (hB _ (List.mem_cons_self ..)) hm
            rw [hv] at h1
            have h2 := ih v1 v2 as2 (by rw [h1.1]; exact hv) hr2 fun a ha => hB a (List.mem_cons_of_mem _ ha)
            exact (h1.trans h2).mono (by rw [List.length_cons, Nat.succ_mul, Nat.add_comm]; exact Nat.le_refl _)
    obtain ⟨-, new, hn, hn'⟩ := hrun _ { w with eps := w.eps.set i { e with rx := _ } } _ _ rfl h hB
    refine ⟨new, hn, Nat.le_trans hn' ?_⟩
    rw [List.length_map]
    exact Nat.mul_le_mul_right _ hlen

/-- C103 is false of routers with an ArduPilot log: a log in progress answers a block that arrives with number `n` by `n` messages,
for all `n` beyond the last block acknowledged, block 0; up to 4294967295 messages before another link is served. -/
theorem C103_flood (env : LogEnv) (l : BinLog) (c : List UInt8) (m : Msg) (hm : BlockMsg m) (ht : env.tbl 184 ≠ none)
    (hf : l.base.file = some c) (hs : l.base.startTimer = false) (hl : l.lastAcked = 0) (ha : l.base.autoAct env m = .nothing)
    (htg : l.base.target ≠ none) (hn : 0 < (blockIn m).seqno.toNat) (hw : ∃ k, 200 ≤ k ∧ env.wr l.base.nwrite = .n k) :
    ∃ new, (l.writeMsg env m).base.out = l.base.out ++ new ∧ new.length = (blockIn m).seqno.toNat := by
  obtain ⟨k, hk, hw⟩ := hw
  have hlt : l.base.learnTarget m = l.base := by
    unfold LogBase.learnTarget; rw [if_neg (fun h => htg h.1)]
  have hid := hm.id
  have hlen : (blockIn m).data.length = 200 := by simp [blockIn]
  unfold BinLog.writeMsg BinLog.auto
  simp only [hlt, ha, hid]
  rw [if_neg (by simp), if_neg ht, block_eq hm]
  unfold BinLog.takeBlock BinLog.process
  rw [hs, if_neg (by simp), hf, hw]
  simp only
  rw [if_pos (by rw [hlen]; unfold blockLen; omega)]
  unfold BinLog.sendAck BinLog.count
  simp only [hl]
  rw [if_neg (by rw [UInt32.lt_iff_toNat_lt]; simp)]
  refine ⟨nackLoop (0 + 1) (blockIn m).seqno ++ [.blockAck (blockIn m).seqno], by simp [List.append_assoc], ?_⟩
  rw [nackLoop_eq]
  simp
  omega

/-- Block 0 has arrived. -/
def Sample.floodLog : BinLog :=
  (BinLog.init none .always).run Sample.binEnv [.msg (Sample.logHb 1 1 3 128), .msg (Sample.binMsg 0 [1])]

/-- A block with the largest number. -/
def Sample.lastBlock : Msg :=
  { data := [0xFD, 6, 0, 0, 0, 1, 1, 184, 0, 0] ++ [0xFF, 0xFF, 0xFF, 0xFF, 2, 0] ++ [0x34, 0x12]
    msgId := 184, targetSys := 2, targetComp := 0, srcSys := 1, srcComp := 1, payloadLen := 6, payloadOfs := some 10 }

/-- One message, more than four thousand million answers. -/
example : ∃ new, (Sample.floodLog.writeMsg Sample.binEnv Sample.lastBlock).base.out = Sample.floodLog.base.out ++ new ∧
    new.length = 4294967295 :=
  C103_flood Sample.binEnv Sample.floodLog (Sample.floodLog.base.file.getD []) Sample.lastBlock ⟨rfl, by decide, .inl rfl⟩
    (by decide) (by decide +kernel) (by decide +kernel) (by decide +kernel) (by decide +kernel) (by decide +kernel)
    (by decide +kernel) ⟨4096, by decide, rfl⟩

/-- A PX4 log packet whose first message claims to be 65533 bytes long. -/
def Sample.endlessMsg : Msg := ulogMsg 0 20 0 (ulogHdrBytes ++ [0xFD, 0xFF, 0x41, 0])

/-- C103 is false of routers with a PX4 log: handling a single message the log endpoint does not return, so that no other link is
ever served again.  (`logger = none` stands for a call that does not return, C52.) -/
theorem C103_violated : ∃ (w w' : World LogSt) (m : Msg), Reached Sample.lrEnv w ∧ handleMsg Sample.lrEnv w 0 m = some (w', true) ∧
    (w.logs 2).logger ≠ none ∧ (w'.logs 2).logger = none := by
  have h3 : (handleMsg Sample.lrEnv Sample.lr2 0 Sample.endlessMsg).map (fun r => (r.2, (r.1.logs 2).logger)) = some (true, none) := by
    decide +kernel
  cases h : handleMsg Sample.lrEnv Sample.lr2 0 Sample.endlessMsg with
  | none => rw [h] at h3; cases h3
  | some r =>
    obtain ⟨w', b⟩ := r
    rw [h] at h3
    simp only [Option.map_some, Option.some.injEq, Prod.mk.injEq] at h3
    obtain ⟨rfl, h3⟩ := h3
    exact ⟨Sample.lr2, w', Sample.endlessMsg, Sample.lr2_reached, h, by decide +kernel, h3⟩

/-- The UART of the sample router delivers two frames: written to the three other links and logs of the router, nothing sent in answer. -/
example : (∀ e, Sample.lr2.eps[0]? = some e → e.rx.Inv ∧ e.fdOpen = true) ∧
    (handleRead Sample.lrEnv Sample.lr2 0 (Sample.floodIo 0)).map (fun r => (r.2.length, r.1.out.length - Sample.lr2.out.length)) =
      some (2, 8) ∧
    ∀ m : Msg, m.msgId = 200 → BlocksUpTo 0 m := by
  refine ⟨?_, by decide +kernel, fun m h => ⟨fun h' => absurd (h.symm.trans h') (by decide), ?_⟩⟩
  · intro e he
    have hx : (Sample.lr2.eps[0]?).map (fun e => (e.rx, e.fdOpen)) = some (({} : Rx), true) := by decide +kernel
    rw [he] at hx
    simp only [Option.map_some, Option.some.injEq, Prod.mk.injEq] at hx
    rw [hx.1]
    exact ⟨⟨by simp, by simp, by simp⟩, hx.2⟩
  · unfold blockCount; rw [if_neg (by rw [h]; decide)]; omega

/-- A log endpoint with an open log sends two messages in answer to one. -/
example : (Logger.sent Sample.logEnv <$> (·.1) <$> (Logger.ulog Sample.ulogStarted).quiet.writeMsg Sample.logEnv 0
    (Sample.ackedMsg 0 |> fun m => { m with data := m.data.set 16 0 })).map List.length = some 2 ∧
    BlocksWhole (Sample.ackedMsg 0) :=
  ⟨by decide +kernel, fun h => absurd h (by decide)⟩

end Verif
