/- How start and liveness timers of a flight log follow its history. -/
import Verif.Lemmas.Armed
import Verif.Spec.LogProto

namespace Verif

open Verif.Spec

/-- Timers exist only while a file is open, and never both. -/
structure TimerInv (b : LogBase) : Prop where
  startOpen : b.startTimer = true → b.file.isSome = true
  aliveOpen : b.aliveTimer = true → b.file.isSome = true
  one : b.startTimer = true → b.aliveTimer = false

/-- What steps that do not begin a stream do: nothing, open a new file, or leave none open. -/
structure Mv (b b' : LogBase) : Prop where
  wr : b'.wrTotal = b.wrTotal
  to : b'.toTotal = b.toTotal
  mono : opened b ≤ opened b'
  ack : ulogAcks b'.out = ulogAcks b.out
  kind : (opened b' = opened b ∧ b'.file.isSome = b.file.isSome ∧ b'.startTimer = b.startTimer ∧
      b'.aliveTimer = b.aliveTimer) ∨
    (opened b < opened b' ∧ b'.file.isSome = true ∧ b'.startTimer = true ∧ b'.aliveTimer = false) ∨
    (b'.file.isSome = false ∧ b'.startTimer = false ∧ b'.aliveTimer = false)

theorem Mv.refl (b : LogBase) : Mv b b := ⟨rfl, rfl, Nat.le_refl _, rfl, .inl ⟨rfl, rfl, rfl, rfl⟩⟩

theorem Mv.trans {a b c : LogBase} (h1 : Mv a b) (h2 : Mv b c) : Mv a c := by
  refine ⟨h2.wr.trans h1.wr, h2.to.trans h1.to, Nat.le_trans h1.mono h2.mono, h2.ack.trans h1.ack, ?_⟩
  have m1 := h1.mono
  have m2 := h2.mono
  rcases h2.kind with ⟨e1, e2, e3, e4⟩ | ⟨e1, e2, e3, e4⟩ | ⟨e1, e2, e3⟩
  · rcases h1.kind with ⟨f1, f2, f3, f4⟩ | ⟨f1, f2, f3, f4⟩ | ⟨f1, f2, f3⟩
    · exact .inl ⟨e1.trans f1, e2.trans f2, e3.trans f3, e4.trans f4⟩
    · exact .inr (.inl ⟨by omega, e2.trans f2, e3.trans f3, e4.trans f4⟩)
    · exact .inr (.inr ⟨e2.trans f1, e3.trans f2, e4.trans f3⟩)
  · exact .inr (.inl ⟨by omega, e2, e3, e4⟩)
  · exact .inr (.inr ⟨e1, e2, e3⟩)

theorem Mv.inv {b b' : LogBase} (h : Mv b b') (hi : TimerInv b) : TimerInv b' := by
  rcases h.kind with ⟨_, e2, e3, e4⟩ | ⟨_, e2, e3, e4⟩ | ⟨e1, e2, e3⟩
  · exact ⟨fun hc => by rw [e2]; exact hi.startOpen (e3 ▸ hc), fun hc => by rw [e2]; exact hi.aliveOpen (e4 ▸ hc),
      fun hc => by rw [e4]; exact hi.one (e3 ▸ hc)⟩
  · exact ⟨fun _ => e2, fun _ => e2, fun _ => e4⟩
  · exact ⟨fun hc => absurd hc (by rw [e2]; simp), fun hc => absurd hc (by rw [e3]; simp), fun _ => e3⟩

/-- Nothing the history of the timers depends on changed. -/
theorem Mv.quiet {b b' : LogBase} (h1 : b'.wrTotal = b.wrTotal) (h2 : b'.toTotal = b.toTotal)
    (h3 : b'.done = b.done) (h4 : b'.file.isSome = b.file.isSome) (h5 : b'.startTimer = b.startTimer)
    (h6 : b'.aliveTimer = b.aliveTimer) (h7 : ulogAcks b'.out = ulogAcks b.out) : Mv b b' := by
  have : opened b' = opened b := by unfold opened; rw [h3, h4]
  exact ⟨h1, h2, by omega, h7, .inl ⟨this, h4, h5, h6⟩⟩

theorem Mv.learn (b : LogBase) (m : Msg) : Mv b (b.learnTarget m) := by
  unfold LogBase.learnTarget
  split <;> exact .quiet rfl rfl rfl rfl rfl rfl rfl

theorem ulogAcks_append (a b : List LogOut) : ulogAcks (a ++ b) = ulogAcks a ++ ulogAcks b := by
  simp [ulogAcks]

theorem Mv.send (b : LogBase) (o : LogOut) (ho : ulogAcks [o] = []) : Mv b (b.send o) :=
  .quiet rfl rfl rfl rfl rfl rfl (by
    show ulogAcks (b.out ++ [o]) = _
    rw [ulogAcks_append, ho, List.append_nil])

theorem Mv.stop {b : LogBase} (hf : b.file ≠ none) : Mv b b.stop := by
  refine ⟨rfl, rfl, ?_, rfl, .inr (.inr ⟨rfl, rfl, rfl⟩)⟩
  unfold opened LogBase.stop
  cases h : b.file with
  | none => exact absurd h hf
  | some c => simp

theorem Mv.start {env : LogEnv} {b : LogBase} (hi : TimerInv b) : Mv b (b.start env).1 := by
  unfold LogBase.start
  split
  · exact .refl b
  · rename_i hf
    have hf' : b.file.isSome = false := by simpa using hf
    have ha : b.aliveTimer = false := by
      cases h : b.aliveTimer with
      | false => rfl
      | true => rw [hi.aliveOpen h] at hf'; cases hf'
    split
    · have : opened b < b.done.length + 1 := by unfold opened; rw [hf']; simp
      exact ⟨rfl, rfl, Nat.le_of_lt this, rfl, .inr (.inl ⟨this, rfl, rfl, ha⟩)⟩
    · exact ⟨rfl, rfl, Nat.le_refl _, rfl, .inr (.inr ⟨hf', rfl, ha⟩)⟩

/-! ### BinLog -/

theorem Mv.binStop (l : BinLog) : Mv l.base l.stop.base := by
  unfold BinLog.stop
  split
  · exact .refl _
  · rename_i hf
    exact (Mv.send l.base .blockStop rfl).trans (Mv.stop hf)

theorem Mv.binStart {env : LogEnv} {l : BinLog} (hi : TimerInv l.base) : Mv l.base (l.start env).1.base := by
  have := Mv.start (env := env) hi
  unfold BinLog.start
  split
  all_goals
    rename_i b e
    rw [e] at this
    exact this

theorem Mv.binRestart {env : LogEnv} {l : BinLog} (hi : TimerInv l.base) : Mv l.base (l.restart env).base :=
  (Mv.binStop l).trans (Mv.binStart ((Mv.binStop l).inv hi))

theorem Mv.binAuto {env : LogEnv} {l : BinLog} (m : Msg) (hi : TimerInv l.base) :
    Mv l.base (l.auto env m).base := by
  unfold BinLog.auto
  split
  · exact .refl _
  · have := Mv.binStart (env := env) hi
    split
    all_goals
      rename_i l' e
      rw [e] at this
      exact this.trans (.quiet rfl rfl rfl rfl rfl rfl rfl)
  · exact .binStop l

theorem Mv.binAck (l : BinLog) (n : UInt32) : Mv l.base (l.sendAck n).base := by
  unfold BinLog.sendAck
  split
  · exact .send _ _ rfl
  · refine .quiet rfl rfl rfl rfl rfl rfl ?_
    show ulogAcks (l.base.out ++ nackLoop (l.lastAcked + 1) n ++ [.blockAck n]) = _
    have hn : ulogAcks (nackLoop (l.lastAcked + 1) n) = [] := by
      rw [nackLoop_eq]
      unfold ulogAcks
      rw [List.filterMap_eq_nil_iff]
      intro o ho
      rw [List.eq_of_mem_replicate ho]
    rw [ulogAcks_append, ulogAcks_append, hn, List.append_nil]
    exact List.append_nil _

theorem Mv.binProcess {env : LogEnv} {l : BinLog} (p : Block) (hi : TimerInv l.base) :
    Mv l.base (l.process env p).base := by
  unfold BinLog.process
  cases hf : l.base.file with
  | none => exact .binRestart hi
  | some c =>
    cases env.wr l.base.nwrite with
    | n k =>
      simp only
      have h1 : Mv l.base { l.base with
          file := some (writeAt c (blockOffset p.seqno) (p.data.take k))
          nwrite := l.base.nwrite + 1 } := .quiet rfl rfl rfl (by rw [hf]; rfl) rfl rfl rfl
      split
      · exact h1.trans (Mv.binAck { l with base := _ } p.seqno)
      · exact h1
    | again => exact .quiet rfl rfl rfl (by simp [hf]) rfl rfl rfl
    | err =>
      have h1 : Mv l.base { l.base with nwrite := l.base.nwrite + 1 } := .quiet rfl rfl rfl rfl rfl rfl rfl
      exact h1.trans (Mv.binRestart (l := { l with base := { l.base with nwrite := l.base.nwrite + 1 } }) (h1.inv hi))

/-- What one event does to the timers; `begins`: the event begins the stream, `data`: it shows the
stream to be alive, `answer`: it may count as activity. -/
structure StepT (begins data answer : Prop) (b b' : LogBase) : Prop where
  mono : opened b ≤ opened b'
  inv : TimerInv b'
  same : opened b' = opened b → b'.file.isSome = true → b.file.isSome = true ∧
    (b'.startTimer = true ↔ b.startTimer = true ∧ ¬ begins)
  new : opened b' ≠ opened b → b'.file.isSome = true → ¬ begins → b'.startTimer = true
  to : b'.toTotal = b.toTotal
  wr : b'.wrTotal = b.wrTotal ∨ b'.wrTotal = b.wrTotal + 1
  silent : ¬ data → ¬ answer → b'.wrTotal = b.wrTotal
  alive : b'.aliveTimer = true → (b.aliveTimer = true ∧ ¬ data) ∨ b'.wrTotal = b.wrTotal + 1

/-- An event that neither begins nor feeds the stream. -/
theorem Mv.stepT {b b' : LogBase} {answer : Prop} (h : Mv b b') (hi : TimerInv b) :
    StepT False False answer b b' := by
  refine ⟨h.mono, h.inv hi, ?_, ?_, h.to, .inl h.wr, fun _ _ => h.wr, ?_⟩
  · intro ho hop
    rcases h.kind with ⟨_, e2, e3, e4⟩ | ⟨e1, _⟩ | ⟨e1, _⟩
    · exact ⟨e2 ▸ hop, by rw [e3]; simp⟩
    · omega
    · rw [e1] at hop; cases hop
  · intro ho hop _
    rcases h.kind with ⟨e, _⟩ | ⟨_, _, e3, _⟩ | ⟨e1, _⟩
    · exact absurd e ho
    · exact e3
    · rw [e1] at hop; cases hop
  · intro ha
    rcases h.kind with ⟨_, _, _, e4⟩ | ⟨_, _, _, e4⟩ | ⟨_, _, e4⟩
    · exact .inl ⟨e4 ▸ ha, fun h => h⟩
    · rw [e4] at ha; cases ha
    · rw [e4] at ha; cases ha

/-- The block message an event brings, if the message table knows it. -/
def binBegins (env : LogEnv) : ULogEv → Prop
  | .msg m => m.msgId = 184 ∧ (m.block env).seqno = 0
  | _ => False

def binData : ULogEv → Prop
  | .msg m => m.msgId = 184
  | _ => False

theorem binStepT {env : LogEnv} {l : BinLog} (ht : env.tbl 184 ≠ none) (hi : TimerInv l.base) (ev : ULogEv)
    (hev : ev ≠ .aliveTimeout) :
    StepT (binBegins env ev) (binData ev) False l.base (l.step env ev).base := by
  cases ev with
  | aliveTimeout => exact absurd rfl hev
  | startTimeout =>
    refine Mv.stepT ?_ hi
    simp only [BinLog.step, BinLog.startTimeout]
    split
    · exact .send _ _ rfl
    · exact .refl _
  | stop => exact Mv.stepT (Mv.binStop l) hi
  | msg m =>
    simp only [BinLog.step, BinLog.writeMsg, binBegins, binData]
    have h0 := Mv.learn l.base m
    have h1 : Mv l.base (BinLog.auto env { l with base := l.base.learnTarget m } m).base :=
      h0.trans (Mv.binAuto (l := { l with base := l.base.learnTarget m }) m (h0.inv hi))
    have hi1 := h1.inv hi
    by_cases h184 : m.msgId = 184
    · rw [if_neg (by simp [h184]), h184, if_neg ht]
      simp only [true_and]
      generalize BinLog.auto env { l with base := l.base.learnTarget m } m = l1 at *
      generalize m.block env = p
      unfold BinLog.takeBlock
      split
      · rename_i hst
        split
        · rename_i h0
          have hop := hi1.startOpen hst
          have hi2 : TimerInv { l1.base with startTimer := false, aliveTimer := env.aliveOk } :=
            ⟨by simp, fun _ => hop, by simp⟩
          have h2 := Mv.binProcess (env := env)
            (l := { l1 with base := { l1.base with startTimer := false, aliveTimer := env.aliveOk } }) p hi2
          have hi3 := h2.inv hi2
          generalize BinLog.process env
            { l1 with base := { l1.base with startTimer := false, aliveTimer := env.aliveOk } } p = l3 at *
          have hc : opened (l3.count).base = opened l3.base := rfl
          have m1 := h1.mono
          have m2 : opened l1.base ≤ opened l3.base := h2.mono
          have hwr : (l3.count).base.wrTotal = l.base.wrTotal + 1 := by
            show l3.base.wrTotal + 1 = _
            rw [h2.wr]
            exact congrArg (· + 1) h1.wr
          refine ⟨by omega, ⟨hi3.startOpen, hi3.aliveOpen, hi3.one⟩, ?_, ?_, h2.to.trans h1.to, .inr hwr,
            fun hc => absurd trivial hc, fun _ => .inr hwr⟩
          · intro ho hopen
            refine ⟨?_, ?_⟩
            · rcases h1.kind with ⟨_, e2, _⟩ | ⟨e1, _⟩ | ⟨e1, _⟩
              · rw [← e2]; exact hop
              · omega
              · rw [e1] at hop; cases hop
            · rcases h2.kind with ⟨_, _, e3, _⟩ | ⟨e1, _⟩ | ⟨e1, _⟩
              rotate_left
              · replace e1 : opened l1.base < opened l3.base := e1
                omega
              rotate_left
              · show l3.base.startTimer = true ↔ _
                rw [e3]
                simp [h0]
              · replace hopen : l3.base.file.isSome = true := hopen
                rw [e1] at hopen; cases hopen
          · intro _ _ hb
            exact absurd h0 hb
        · rename_i h0
          have h2 : Mv l.base (l1.base.send .blockStop) := h1.trans (.send _ _ rfl)
          obtain ⟨a1, a2, a3, a4, a5, a6, a7, a8⟩ := Mv.stepT (answer := False) h2 hi
          refine ⟨a1, a2, ?_, ?_, a5, a6, fun hc => absurd trivial hc, ?_⟩
          · intro ho hop
            obtain ⟨b1, b2⟩ := a3 ho hop
            exact ⟨b1, b2.trans (by simp [h0])⟩
          · intro ho hop _
            exact a4 ho hop (fun h => h)
          · intro ha
            replace ha : l1.base.aliveTimer = true := ha
            rw [hi1.one hst] at ha; cases ha
      · rename_i hst
        have h2 := Mv.binProcess (env := env) (l := l1) p hi1
        have h3 := h1.trans h2
        have hwr : (BinLog.count (l1.process env p)).base.wrTotal = l.base.wrTotal + 1 :=
          congrArg (· + 1) h3.wr
        have hi3 := h3.inv hi
        have m1 := h1.mono
        have m2 := h2.mono
        have hc : opened (l1.process env p).count.base = opened (l1.process env p).base := rfl
        refine ⟨by omega, ⟨hi3.startOpen, hi3.aliveOpen, hi3.one⟩, ?_, ?_, h3.to, .inr hwr,
          fun hc => absurd trivial hc, fun _ => .inr hwr⟩
        · intro ho hopen
          replace hopen : (l1.process env p).base.file.isSome = true := hopen
          rcases h2.kind with ⟨_, e2, e3, _⟩ | ⟨e1, _⟩ | ⟨e1, _⟩
          · rcases h1.kind with ⟨_, f2, f3, _⟩ | ⟨f1, _⟩ | ⟨f1, _⟩
            · refine ⟨by rw [← f2, ← e2]; exact hopen, ?_⟩
              show (l1.process env p).base.startTimer = true ↔ _
              rw [e3, ← f3]
              simp [hst]
            · omega
            · rw [e2, f1] at hopen; cases hopen
          · omega
          · rw [e1] at hopen; cases hopen
        · intro ho hopen _
          show (l1.process env p).base.startTimer = true
          replace hopen : (l1.process env p).base.file.isSome = true := hopen
          rcases h2.kind with ⟨e1, e2, e3, _⟩ | ⟨_, _, e3, _⟩ | ⟨e1, _⟩
          · rcases h1.kind with ⟨f1, _⟩ | ⟨_, _, f3, _⟩ | ⟨f1, _⟩
            · omega
            · exact absurd f3 hst
            · rw [e2, f1] at hopen; cases hopen
          · exact e3
          · rw [e1] at hopen; cases hopen
    · rw [if_pos h184]
      have := Mv.stepT (answer := False) h1 hi
      simpa [h184] using this

/-! ### ULog -/

theorem Mv.flushRel {u v : ULog} (h : FlushRel u v) (ho : v.base.file ≠ none ↔ u.base.file ≠ none) :
    Mv u.base v.base := by
  obtain ⟨f, n, e⟩ := h.base
  have : v.base.file.isSome = u.base.file.isSome := by
    cases h1 : v.base.file <;> cases h2 : u.base.file <;> simp [h1, h2] at ho ⊢
  refine .quiet ?_ ?_ ?_ this ?_ ?_ ?_ <;> rw [e]

theorem Mv.flush {env : LogEnv} {u v : ULog} {r : Bool} (h : u.flush env = some (v, r)) : Mv u.base v.base :=
  .flushRel (flush_spec env u v r h) (flush_open h)

theorem stopLoop_open {env : LogEnv} (n : Nat) {u v : ULog} (h : stopLoop env n u = some v) :
    v.base.file ≠ none ↔ u.base.file ≠ none := by
  induction n generalizing u with
  | zero =>
    simp only [stopLoop] at h
    split at h
    · cases h; exact Iff.rfl
    · cases h
  | succ n ih =>
    simp only [stopLoop] at h
    split at h
    · cases h; exact Iff.rfl
    · cases hf : u.flush env with
      | none => rw [hf] at h; cases h
      | some q =>
        obtain ⟨w, b⟩ := q
        rw [hf] at h
        cases b with
        | true => exact (ih h).trans (flush_open hf)
        | false => cases h; exact flush_open hf

theorem Mv.ulogStop {env : LogEnv} {u v : ULog} (h : u.stop env = some v) : Mv u.base v.base := by
  unfold ULog.stop at h
  split at h
  · cases h; exact .refl _
  · rename_i hf
    cases hs : stopLoop env env.fuel { u with base := u.base.send .cmdStop, pend := [] } with
    | none => rw [hs] at h; cases h
    | some w =>
      rw [hs] at h
      cases h
      have ho := stopLoop_open _ hs
      have h1 : Mv u.base (u.base.send .cmdStop) := .send _ _ rfl
      have h2 : Mv (u.base.send .cmdStop) w.base := .flushRel (stopLoop_spec env _ _ _ hs) ho
      exact (h1.trans h2).trans (Mv.stop (ho.mpr hf))

theorem Mv.ulogStart {env : LogEnv} {u : ULog} (hi : TimerInv u.base) : Mv u.base (u.start env).1.base := by
  have := Mv.start (env := env) hi
  unfold ULog.start
  split
  all_goals
    rename_i b e
    rw [e] at this
    exact this

theorem Mv.ulogRestart {env : LogEnv} {u v : ULog} (hi : TimerInv u.base) (h : u.restart env = some v) :
    Mv u.base v.base := by
  unfold ULog.restart at h
  split at h
  · cases h
  · rename_i w hw
    cases h
    exact (Mv.ulogStop hw).trans (Mv.ulogStart ((Mv.ulogStop hw).inv hi))

theorem Mv.ulogAuto {env : LogEnv} {u v : ULog} (m : Msg) (hi : TimerInv u.base) (h : u.auto env m = some v) :
    Mv u.base v.base := by
  unfold ULog.auto at h
  split at h
  · cases h; exact .refl _
  · have := Mv.ulogStart (env := env) hi
    split at h
    all_goals
      rename_i u' e
      rw [e] at this
      cases h
      exact this.trans (.quiet rfl rfl rfl rfl rfl rfl rfl)
  · exact .ulogStop h

theorem Mv.append {env : LogEnv} {u v : ULog} {p q : Pkt} {drops : Bool}
    (h : u.append env p drops = some (v, q)) : Mv u.base v.base := by
  unfold ULog.append at h
  have hstore : ∀ {v v' : ULog} {p q : Pkt}, v.store env p = some (v', q) → Mv v.base v'.base := by
    intro v v' p q h
    rw [store_eq] at h
    split at h
    · cases h; exact .refl _
    · split at h
      · cases h; exact .refl _
      · split at h
        · cases h
        · rename_i w r e
          cases h
          exact (show Mv v.base (stored v p).base from .refl _).trans (Mv.flush e)
  have hroom : ∀ (v : ULog) n, (v.makeRoom n).base = v.base := by
    intro v n
    unfold ULog.makeRoom
    simp only
    split <;> split <;> rfl
  split at h
  · cases h
  · rename_i w hw
    have h1 : Mv u.base w.base := by
      unfold ULog.afterLoss at hw
      split at hw
      · split at hw
        · cases hw
        · rename_i x r e
          cases hw
          have hx := Mv.flush e
          exact hx
      · cases hw; exact .refl _
    have h2 := hstore h
    rw [hroom] at h2
    exact h1.trans h2

theorem Mv.ulogProcess {env : LogEnv} {u v : ULog} {p q : Pkt} (hi : TimerInv u.base)
    (h : u.process env p = some (v, q)) : Mv u.base v.base := by
  unfold ULog.process at h
  split at h
  · cases h; exact .refl _
  · rename_i drops exp _
    simp only at h
    split at h
    · split at h
      · cases hr : ULog.restart env { u with expSeq := exp } with
        | none => rw [hr] at h; cases h
        | some w =>
          rw [hr] at h
          cases h
          exact Mv.ulogRestart (u := { u with expSeq := exp }) hi hr
      · exact (show Mv u.base (takeHeader { u with expSeq := exp } p).1.base from .refl _).trans (Mv.append h)
    · exact (show Mv u.base { u with expSeq := exp }.base from .refl _).trans (Mv.append h)

/-- The COMMAND_ACK an event brings accepts the start command. -/
def ulogBegins (env : LogEnv) : ULogEv → Prop
  | .msg m => m.msgId = 77 ∧ (m.cmdByte env 0).toNat + 256 * (m.cmdByte env 1).toNat = 2510 ∧ m.cmdByte env 2 = 0
  | _ => False

def ulogDataEv : ULogEv → Prop
  | .msg m => ULogData m
  | _ => False

def ulogAnswer (env : LogEnv) : ULogEv → Prop
  | .msg m => m.msgId = 77 ∧ (m.cmdByte env 0).toNat + 256 * (m.cmdByte env 1).toNat = 2510
  | _ => False

/-- The number an event asks to acknowledge, as the code reads it. -/
def ulogAckOf (env : LogEnv) : ULogEv → List UInt16
  | .msg m => if m.msgId = 267 then [(m.rawByte env 0).toUInt16 + 256 * (m.rawByte env 1).toUInt16] else []
  | _ => []

theorem ulogStepT {env : LogEnv} {u v : ULog} (h77 : env.tbl 77 ≠ none) (h266 : env.tbl 266 ≠ none)
    (h267 : env.tbl 267 ≠ none) (hi : TimerInv u.base) (ev : ULogEv) (hev : ev ≠ .aliveTimeout)
    (h : u.step env ev = some v) :
    StepT (ulogBegins env ev) (ulogDataEv ev) (ulogAnswer env ev) u.base v.base ∧
      ulogAcks v.base.out = ulogAcks u.base.out ++ ulogAckOf env ev := by
  cases ev with
  | aliveTimeout => exact absurd rfl hev
  | startTimeout =>
    simp only [ULog.step] at h
    cases h
    have : Mv u.base u.startTimeout.base := by
      simp only [ULog.startTimeout]
      split
      · exact .send _ _ rfl
      · exact .refl _
    exact ⟨Mv.stepT this hi, this.ack.trans (List.append_nil _).symm⟩
  | stop =>
    have := Mv.ulogStop h
    exact ⟨Mv.stepT this hi, this.ack.trans (List.append_nil _).symm⟩
  | msg m =>
    simp only [ULog.step] at h
    cases hw : u.writeMsg env m with
    | none => rw [hw] at h; cases h
    | some r =>
      obtain ⟨v', d⟩ := r
      rw [hw] at h
      cases h
      unfold ULog.writeMsg at hw
      cases ha : ULog.auto env { u with base := u.base.learnTarget m } m with
      | none => rw [ha] at hw; cases hw
      | some u1 =>
        rw [ha] at hw
        simp only at hw
        have h0 := Mv.learn u.base m
        have h1 : Mv u.base u1.base :=
          h0.trans (Mv.ulogAuto (u := { u with base := u.base.learnTarget m }) m (h0.inv hi) ha)
        have hi1 := h1.inv hi
        have hquiet : ∀ b : LogBase, Mv u.base b → m.msgId ≠ 266 → m.msgId ≠ 267 →
            ¬ ulogBegins env (.msg m) →
            StepT (ulogBegins env (.msg m)) (ulogDataEv (.msg m)) (ulogAnswer env (.msg m)) u.base b ∧
              ulogAcks b.out = ulogAcks u.base.out ++ ulogAckOf env (.msg m) := by
          intro b hb n1 n2 nb
          have hs := Mv.stepT (answer := ulogAnswer env (.msg m)) hb hi
          have e1 : ulogBegins env (.msg m) = False := by simp [nb]
          have e2 : ulogDataEv (.msg m) = False := by simp [ulogDataEv, ULogData, n1, n2]
          refine ⟨by rw [e1, e2]; exact hs, ?_⟩
          rw [hb.ack]
          simp [ulogAckOf, n2]
        split at hw
        · rename_i hid
          cases hw
          exact hquiet _ h1 hid.2.2 hid.2.1 (fun hc => hid.1 hc.1)
        · rename_i hid
          have hknown : env.tbl m.msgId ≠ none := by
            by_cases a : m.msgId = 77
            · rw [a]; exact h77
            · by_cases b : m.msgId = 267
              · rw [b]; exact h267
              · by_cases c : m.msgId = 266
                · rw [c]; exact h266
                · exact absurd ⟨a, b, c⟩ hid
          rw [if_neg hknown] at hw
          split at hw
          · rename_i hm77
            cases hw
            have n1 : m.msgId ≠ 266 := by rw [hm77]; decide
            have n2 : m.msgId ≠ 267 := by rw [hm77]; decide
            unfold ULog.commandAck
            split
            · rename_i hc
              by_cases hcmd : (m.cmdByte env 0).toNat + 256 * (m.cmdByte env 1).toNat = 2510
              · have hst : u1.base.startTimer = false := by
                  rcases hc with hc | hc
                  · simpa using hc
                  · exact absurd hcmd hc
                -- an answer while nothing is pending
                obtain ⟨a1, a2, a3, a4, a5, a6, a7, a8⟩ := Mv.stepT (answer := ulogAnswer env (.msg m)) h1 hi
                refine ⟨⟨a1, a2, ?_, ?_, a5, a6, fun _ _ => h1.wr, ?_⟩, ?_⟩
                · intro ho hop
                  obtain ⟨b1, b2⟩ := a3 ho hop
                  refine ⟨b1, ?_⟩
                  have : ¬ u.base.startTimer = true := fun hc => by
                    have := b2.mpr ⟨hc, fun h => h⟩
                    rw [hst] at this; cases this
                  rw [hst]
                  simp [this]
                · intro ho hop _
                  have := a4 ho hop (fun h => h)
                  exact this
                · intro hal
                  rcases a8 hal with ⟨c1, _⟩ | c
                  · exact .inl ⟨c1, by simp [ulogDataEv, ULogData, n1, n2]⟩
                  · exact .inr c
                · rw [h1.ack]; simp [ulogAckOf, n2]
              · exact hquiet _ h1 n1 n2 (fun hb => hcmd hb.2.1)
            · rename_i hc
              have hst : u1.base.startTimer = true := by
                cases hb : u1.base.startTimer with
                | true => rfl
                | false => exact absurd (.inl (by rw [hb]; rfl)) hc
              have hcmd : (m.cmdByte env 0).toNat + 256 * (m.cmdByte env 1).toNat = 2510 := by
                by_cases hx : (m.cmdByte env 0).toNat + 256 * (m.cmdByte env 1).toNat = 2510
                · exact hx
                · exact absurd (.inr hx) hc
              have hop := hi1.startOpen hst
              split
              · rename_i h0
                have hb : ulogBegins env (.msg m) := ⟨hm77, hcmd, h0⟩
                have hwr : u1.base.wrTotal + 1 = u.base.wrTotal + 1 := congrArg (· + 1) h1.wr
                refine ⟨⟨h1.mono, ⟨by simp [ULog.count], fun _ => hop, by simp [ULog.count]⟩, ?_, ?_, h1.to, .inr hwr,
                  fun _ hn => absurd ⟨hm77, hcmd⟩ hn, fun _ => .inr hwr⟩, ?_⟩
                · intro ho _
                  replace ho : opened u1.base = opened u.base := ho
                  refine ⟨?_, ?_⟩
                  · rcases h1.kind with ⟨_, e2, _⟩ | ⟨e1, _⟩ | ⟨e1, _⟩
                    · rw [← e2]; exact hop
                    · omega
                    · rw [e1] at hop; cases hop
                  · show false = true ↔ _
                    simp [hb]
                · intro _ _ hn
                  exact absurd hb hn
                · show ulogAcks u1.base.out = _
                  rw [h1.ack]; simp [ulogAckOf, n2]
              · rename_i h0
                have hnb : ¬ ulogBegins env (.msg m) := fun hb => h0 hb.2.2
                obtain ⟨⟨a1, a2, a3, a4, a5, _, _, a8⟩, a9⟩ := hquiet _ h1 n1 n2 hnb
                have hwr : u1.base.wrTotal + 1 = u.base.wrTotal + 1 := congrArg (· + 1) h1.wr
                refine ⟨⟨a1, ⟨a2.startOpen, a2.aliveOpen, a2.one⟩, a3, a4, a5, .inr hwr,
                  fun _ hn => absurd ⟨hm77, hcmd⟩ hn, fun _ => .inr hwr⟩, a9⟩
          · rename_i hn77
            have hdata : ULogData m := by
              by_cases b : m.msgId = 267
              · exact .inr b
              · by_cases c : m.msgId = 266
                · exact .inl c
                · exact absurd ⟨hn77, b, c⟩ hid
            have hnb : ¬ ulogBegins env (.msg m) := fun hb => hn77 hb.1
            cases hp : (u1.acknowledge env m).process env (m.pkt env) with
            | none => rw [hp] at hw; cases hw
            | some r =>
              obtain ⟨w, q⟩ := r
              rw [hp] at hw
              cases hw
              -- the acknowledgement changes only the messages sent
              have hq : ∃ out, (u1.acknowledge env m).base = { u1.base with out := out } ∧
                  ulogAcks out = ulogAcks u1.base.out ++ ulogAckOf env (.msg m) := by
                unfold ULog.acknowledge
                simp only [ulogAckOf]
                split
                · exact ⟨_, rfl, by rw [ulogAcks_append]; rfl⟩
                · exact ⟨_, rfl, (List.append_nil _).symm⟩
              obtain ⟨out, ho, hacks⟩ := hq
              have hi2 : TimerInv (u1.acknowledge env m).base := by
                rw [ho]; exact ⟨hi1.startOpen, hi1.aliveOpen, hi1.one⟩
              have h2 := Mv.ulogProcess hi2 hp
              have hi3 := h2.inv hi2
              have hk := h2.kind
              have m2 := h2.mono
              have hw2 := h2.wr
              have ht2 := h2.to
              have hak := h2.ack
              rw [ho] at hk m2 hw2 ht2 hak
              have hoe : opened { u1.base with out := out } = opened u1.base := rfl
              rw [hoe] at hk m2
              have h3 : Mv { u1.base with out := out } w.base := by rw [← ho]; exact h2
              have hcomb : StepT False False False u.base { w.base with out := u.base.out } := by
                refine Mv.stepT ⟨hw2.trans h1.wr, ht2.trans h1.to, Nat.le_trans h1.mono m2, rfl, ?_⟩ hi
                have m1 := h1.mono
                have hoe : opened { w.base with out := u.base.out } = opened w.base := rfl
                rw [hoe]
                rcases hk with ⟨e1, e2, e3, e4⟩ | ⟨e1, e2, e3, e4⟩ | ⟨e1, e2, e3⟩
                · rcases h1.kind with ⟨f1, f2, f3, f4⟩ | ⟨f1, f2, f3, f4⟩ | ⟨f1, f2, f3⟩
                  · exact .inl ⟨e1.trans f1, e2.trans f2, e3.trans f3, e4.trans f4⟩
                  · exact .inr (.inl ⟨by omega, e2.trans f2, e3.trans f3, e4.trans f4⟩)
                  · exact .inr (.inr ⟨e2.trans f1, e3.trans f2, e4.trans f3⟩)
                · exact .inr (.inl ⟨by omega, e2, e3, e4⟩)
                · exact .inr (.inr ⟨e1, e2, e3⟩)
              obtain ⟨a1, a2, a3, a4, a5, _, _, _⟩ := hcomb
              have hwr : w.base.wrTotal + 1 = u.base.wrTotal + 1 := congrArg (· + 1) (hw2.trans h1.wr)
              refine ⟨⟨a1, ⟨a2.startOpen, a2.aliveOpen, a2.one⟩, ?_, ?_, a5, .inr hwr,
                fun hn => absurd hdata hn, fun _ => .inr hwr⟩, ?_⟩
              · intro ho hop
                obtain ⟨b1, b2⟩ := a3 ho hop
                exact ⟨b1, b2.trans (by simp [hnb])⟩
              · intro ho hop _
                exact a4 ho hop (fun h => h)
              · show ulogAcks w.base.out = _
                rw [hak]
                show ulogAcks out = _
                rw [hacks, h1.ack]

/-! ### The liveness check -/

/-- The part of `StepT` that holds for every event. -/
structure StepW (begins : Prop) (b b' : LogBase) : Prop where
  mono : opened b ≤ opened b'
  inv : TimerInv b'
  same : opened b' = opened b → b'.file.isSome = true → b.file.isSome = true ∧
    (b'.startTimer = true ↔ b.startTimer = true ∧ ¬ begins)
  new : opened b' ≠ opened b → b'.file.isSome = true → ¬ begins → b'.startTimer = true

theorem StepT.toW {begins data answer : Prop} {b b' : LogBase} (h : StepT begins data answer b b') :
    StepW begins b b' := ⟨h.mono, h.inv, h.same, h.new⟩

theorem Mv.aliveW {b c : LogBase} (n : UInt32) (h : Mv b c) (hi : TimerInv b) :
    StepW False b { c with toTotal := n } := by
  obtain ⟨a1, _, a3, a4, _⟩ := Mv.stepT (answer := False) h hi
  have := h.inv hi
  exact ⟨a1, ⟨this.startOpen, this.aliveOpen, this.one⟩, a3, a4⟩

theorem binAliveMv {env : LogEnv} {l : BinLog} (hi : TimerInv l.base) :
    ∃ c n, Mv l.base c ∧ (l.aliveTimeout env).base = { c with toTotal := n } ∧
      (l.base.aliveTimer = true → n = c.wrTotal) := by
  unfold BinLog.aliveTimeout
  split
  · simp only
    split
    · exact ⟨_, _, Mv.binRestart hi, rfl, fun _ => rfl⟩
    · exact ⟨_, _, .refl _, rfl, fun _ => rfl⟩
  · rename_i h
    exact ⟨l.base, l.base.toTotal, .refl _, rfl, fun hc => absurd hc h⟩

theorem ulogAliveMv {env : LogEnv} {u v : ULog} (hi : TimerInv u.base) (h : u.aliveTimeout env = some v) :
    ∃ c n, Mv u.base c ∧ v.base = { c with toTotal := n } ∧ (u.base.aliveTimer = true → n = c.wrTotal) := by
  unfold ULog.aliveTimeout at h
  split at h
  · simp only at h
    cases hr : (if u.base.toTotal = u.base.wrTotal then u.restart env else some u) with
    | none => rw [hr] at h; cases h
    | some x =>
      rw [hr] at h
      cases h
      refine ⟨x.base, _, ?_, rfl, fun _ => rfl⟩
      split at hr
      · exact Mv.ulogRestart hi hr
      · cases hr; exact .refl _
  · rename_i hc
    cases h
    exact ⟨u.base, u.base.toTotal, .refl _, rfl, fun ha => absurd ha hc⟩

theorem binStepW {env : LogEnv} {l : BinLog} (ht : env.tbl 184 ≠ none) (hi : TimerInv l.base) (ev : ULogEv) :
    StepW (binBegins env ev) l.base (l.step env ev).base := by
  by_cases hev : ev = .aliveTimeout
  · subst hev
    obtain ⟨c, n, h1, h2, _⟩ := binAliveMv (env := env) hi
    show StepW False l.base (l.aliveTimeout env).base
    rw [h2]
    exact h1.aliveW n hi
  · exact (binStepT ht hi ev hev).toW

theorem ulogStepW {env : LogEnv} {u v : ULog} (h77 : env.tbl 77 ≠ none) (h266 : env.tbl 266 ≠ none)
    (h267 : env.tbl 267 ≠ none) (hi : TimerInv u.base) (ev : ULogEv) (h : u.step env ev = some v) :
    StepW (ulogBegins env ev) u.base v.base ∧ ulogAcks v.base.out = ulogAcks u.base.out ++ ulogAckOf env ev := by
  by_cases hev : ev = .aliveTimeout
  · subst hev
    obtain ⟨c, n, h1, h2, _⟩ := ulogAliveMv (env := env) hi h
    rw [h2]
    exact ⟨h1.aliveW n hi, h1.ack.trans (List.append_nil _).symm⟩
  · obtain ⟨h1, h2⟩ := ulogStepT h77 h266 h267 hi ev hev h
    exact ⟨h1.toW, h2⟩

/-! ### Histories -/

/-- A history of events of any log endpoint. -/
def runAll {S : Type} (step : S → ULogEv → Option S) (s : S) (evs : List ULogEv) : Option S :=
  evs.foldlM step s

theorem runAll_snoc {S : Type} (step : S → ULogEv → Option S) (s : S) (evs : List ULogEv) (ev : ULogEv) :
    runAll step s (evs ++ [ev]) = (runAll step s evs).bind (step · ev) := by
  simp [runAll, List.foldlM_append]

theorem snoc_ind {α : Type} {P : List α → Prop} (h0 : P []) (h1 : ∀ l a, P l → P (l ++ [a])) : ∀ l, P l := by
  intro l
  have : ∀ l : List α, P l.reverse := by
    intro l
    induction l with
    | nil => exact h0
    | cons a l ih => rw [List.reverse_cons]; exact h1 _ _ ih
  have := this l.reverse
  rwa [List.reverse_reverse] at this

theorem snoc_split {α : Type} {evs pre post : List α} {ev e : α} (h : evs ++ [ev] = pre ++ e :: post) :
    (post = [] ∧ pre = evs ∧ e = ev) ∨ ∃ post', post = post' ++ [ev] ∧ evs = pre ++ e :: post' := by
  rcases List.eq_nil_or_concat post with rfl | ⟨post', x, rfl⟩
  · have := List.append_inj' h rfl
    simp only [List.cons.injEq, and_true] at this
    exact .inl ⟨rfl, this.1.symm, this.2.symm⟩
  · right
    rw [List.concat_eq_append] at *
    have h' : evs ++ [ev] = (pre ++ e :: post') ++ [x] := by rw [h]; simp
    have := List.append_inj' h' rfl
    simp only [List.cons.injEq, and_true] at this
    exact ⟨post', by rw [this.2], this.1⟩

/-- The start timer exists exactly from the opening of the file until the stream begins. -/
theorem waiting_history {S : Type} (step : S → ULogEv → Option S) (base : S → LogBase) (begins : ULogEv → Prop)
    (s0 : S) (h0 : TimerInv (base s0)) (h0' : (base s0).file = none)
    (hstep : ∀ s s' ev, TimerInv (base s) → step s ev = some s' → StepW (begins ev) (base s) (base s'))
    (evs : List ULogEv) : ∀ s, runAll step s0 evs = some s →
    TimerInv (base s) ∧
    (∀ pre e post t, evs = pre ++ e :: post → runAll step s0 pre = some t → opened (base t) ≤ opened (base s)) ∧
    ((base s).startTimer = true → ∀ pre e post t, evs = pre ++ e :: post → runAll step s0 pre = some t →
      opened (base t) = opened (base s) → ¬ begins e) ∧
    ((base s).file.isSome = true →
      (∀ pre e post t, evs = pre ++ e :: post → runAll step s0 (pre ++ [e]) = some t →
        opened (base t) = opened (base s) → ¬ begins e) → (base s).startTimer = true) := by
  induction evs using snoc_ind with
  | h0 =>
    intro s h
    cases h
    refine ⟨h0, ?_, ?_, ?_⟩
    · intro pre e post t h; simp at h
    · intro _ pre e post t h; simp at h
    · intro hop; rw [h0'] at hop; cases hop
  | h1 evs ev ih =>
    intro s h
    rw [runAll_snoc] at h
    cases hr : runAll step s0 evs with
    | none => rw [hr] at h; cases h
    | some r =>
      rw [hr] at h
      replace h : step r ev = some s := h
      obtain ⟨i1, i2, i3, i4⟩ := ih r hr
      have hw := hstep r s ev i1 h
      have hm := hw.mono
      refine ⟨hw.inv, ?_, ?_, ?_⟩
      · intro pre e post t hs ht
        rcases snoc_split hs with ⟨_, rfl, rfl⟩ | ⟨post', _, hs'⟩
        · rw [hr] at ht; cases ht; exact hm
        · exact Nat.le_trans (i2 pre e post' t hs' ht) hm
      · intro hst pre e post t hs ht ho
        have hop := hw.inv.startOpen hst
        rcases snoc_split hs with ⟨_, rfl, rfl⟩ | ⟨post', _, hs'⟩
        · rw [hr] at ht; cases ht
          exact ((hw.same ho.symm hop).2.mp hst).2
        · have := i2 pre e post' t hs' ht
          have ho' : opened (base s) = opened (base r) := by omega
          exact i3 (((hw.same ho' hop).2.mp hst).1) pre e post' t hs' ht (by omega)
      · intro hop hno
        have hne : ¬ begins ev := hno evs ev [] s rfl (by rw [runAll_snoc, hr]; exact h) rfl
        by_cases ho : opened (base s) = opened (base r)
        · obtain ⟨hor, hiff⟩ := hw.same ho hop
          rw [hiff]
          refine ⟨i4 hor ?_, hne⟩
          intro pre e post t hs ht ho2
          exact hno pre e (post ++ [ev]) t (by rw [hs]; simp) ht (by omega)
        · exact hw.new ho hop hne

/-- Counters between two liveness checks. -/
theorem quiet_period {S : Type} (step : S → ULogEv → Option S) (base : S → LogBase)
    (begins data answer : ULogEv → Prop)
    (hstep : ∀ s s' ev, TimerInv (base s) → ev ≠ .aliveTimeout → step s ev = some s' →
      StepT (begins ev) (data ev) (answer ev) (base s) (base s'))
    (t : S) (hi : TimerInv (base t)) (mid : List ULogEv)
    (hmid : ULogEv.aliveTimeout ∉ mid) : ∀ v, runAll step t mid = some v →
    TimerInv (base v) ∧ (base v).toTotal = (base t).toTotal ∧
    (∃ c : Nat, c ≤ mid.length ∧ (base v).wrTotal = (base t).wrTotal + UInt32.ofNat c ∧
      ((∀ e ∈ mid, ¬ data e ∧ ¬ answer e) → c = 0) ∧
      ((base v).aliveTimer = true → (∃ e ∈ mid, data e) → 1 ≤ c)) := by
  induction mid using snoc_ind with
  | h0 =>
    intro v h
    cases h
    refine ⟨hi, rfl, 0, Nat.le_refl _, by simp, fun _ => rfl, ?_⟩
    rintro _ ⟨e, he, _⟩
    cases he
  | h1 mid ev ih =>
    intro v h
    rw [runAll_snoc] at h
    cases hr : runAll step t mid with
    | none => rw [hr] at h; cases h
    | some r =>
      rw [hr] at h
      replace h : step r ev = some v := h
      have hmid' : ULogEv.aliveTimeout ∉ mid := fun hc => hmid (List.mem_append_left _ hc)
      have hev : ev ≠ .aliveTimeout := fun hc => hmid (by simp [hc])
      obtain ⟨i1, i2, c, i3, i4, i5, i6⟩ := ih hmid' r hr
      have hs := hstep r v ev i1 hev h
      refine ⟨hs.inv, hs.to.trans i2, ?_⟩
      have hlen : (mid ++ [ev]).length = mid.length + 1 := by simp
      by_cases hw : (base v).wrTotal = (base r).wrTotal + 1
      · refine ⟨c + 1, by omega, ?_, ?_, fun _ _ => by omega⟩
        · rw [hw, i4, UInt32.add_assoc]
          congr 1
          apply UInt32.toNat_inj.mp
          simp only [UInt32.toNat_add, UInt32.toNat_ofNat']
          simp
        · intro hq
          exfalso
          have := hs.silent (hq ev (by simp)).1 (hq ev (by simp)).2
          rw [this] at hw
          have h2 := congrArg UInt32.toNat hw
          simp only [UInt32.toNat_add] at h2
          have := (base r).wrTotal.toNat_lt
          simp at h2
          omega
      · have hw' : (base v).wrTotal = (base r).wrTotal := hs.wr.resolve_right hw
        refine ⟨c, by omega, by rw [hw', i4], ?_, ?_⟩
        · intro hq
          exact i5 (fun e he => hq e (List.mem_append_left _ he))
        · intro hal ⟨e, he, hd⟩
          rcases hs.alive hal with ⟨a1, a2⟩ | a
          · rcases List.mem_append.mp he with he | he
            · exact i6 a1 ⟨e, he, hd⟩
            · rw [List.mem_singleton] at he
              rw [he] at hd
              exact absurd hd a2
          · exact absurd a hw

end Verif
