import Verif.Spec.Sync

/-
C104 reports of incomplete messages, C105 background sync.
-/

namespace Verif

open Spec

/-- A UART write fails in another way than "would block". -/
def UartFails (k : LinkKind) (es : List AggEv) : Prop :=
  k = .uart ∧ ∃ m r, .tx (.offer m r) ∈ es ∧ r ≠ .eagain ∧ ∀ n, r ≠ .took n

theorem aggRun_cons (k : LinkKind) (s : AggSt) (e : AggEv) (es : List AggEv) :
    aggRun k s (e :: es) = aggRun k (aggStep k s e) es := rfl

theorem reportSum_append (a b : List UInt32) : reportSum (a ++ b) = reportSum a + reportSum b := by
  simp [reportSum]

/-- Writing keeps descriptor and port. -/
theorem writeLink_keeps (k : LinkKind) (tx : Tx) (m : List UInt8) (r : SysRes) :
    (writeLink k tx m r).1.fdOpen = tx.fdOpen ∧ (writeLink k tx m r).1.port = tx.port := by
  cases k <;> cases r <;> simp only [writeLink] <;> (repeat' split) <;> simp [Tx.count]

/-- Writing counts the messages taken in part. -/
theorem writeLink_incomplete (k : LinkKind) (tx : Tx) (m : List UInt8) (n : Nat) :
    (writeLink k tx m (.took n)).1.incomplete =
      tx.incomplete + (if tx.fdOpen ∧ (k = .udp → tx.port ≠ 0) ∧ n ≠ m.length then 1 else 0) := by
  cases hf : tx.fdOpen <;> cases k <;> by_cases hn : n = m.length <;> by_cases hp : tx.port = 0 <;>
    simp [writeLink, hf, hn, hp, Tx.count]

/-- Failing writes are not counted. -/
theorem writeLink_failed (k : LinkKind) (tx : Tx) (m : List UInt8) (r : SysRes) (hr : ∀ n, r ≠ .took n)
    (hu : k = .uart → r = .eagain) : (writeLink k tx m r).1.incomplete = tx.incomplete := by
  cases r with
  | took n => exact absurd rfl (hr n)
  | eagain => cases k <;> simp only [writeLink] <;> (repeat' split) <;> rfl
  | epipe => cases k <;> simp at hu <;> simp only [writeLink] <;> (repeat' split) <;> rfl
  | other e => cases k <;> simp at hu <;> simp only [writeLink] <;> (repeat' split) <;> rfl

/-- C104 (part): for a link that is not destroyed, the counts reported and the count waiting for the next report add
up, modulo 2^32, to the number of messages of which the kernel took only a part.  Missing: destroyed links, and UART
writes that fail, where it is false (`C104_violated`). -/
theorem C104_reports_partial (k : LinkKind) (es : List AggEv) (hu : ¬ UartFails k es) (hd : .destroy ∉ es) :
    ∀ (s : AggSt), s.alive = true →
    (reportSum (aggRun k s es).reports + (aggRun k s es).tx.tx.incomplete.toNat) % 2 ^ 32 =
      (reportSum s.reports + s.tx.tx.incomplete.toNat + cuts k s.tx.tx.fdOpen s.tx.tx.port es) % 2 ^ 32 := by
  induction es with
  | nil => intro s _; simp [aggRun, cuts]
  | cons e es ih =>
    have ih := ih (fun ⟨h1, m, r, h2, h3⟩ => hu ⟨h1, m, r, by simp [h2], h3⟩) (fun h => hd (by simp [h]))
    intro s ha
    rw [aggRun_cons]
    cases e with
    | destroy => exact absurd (by simp) hd
    | tick =>
      simp only [aggStep, ha, if_true, cuts]
      split
      · rw [ih _ rfl]
        simp [reportSum_append, reportSum]
      · exact ih s ha
    | tx e =>
      have he : aggStep k s (.tx e) = { s with tx := txStep k s.tx e } := by simp [aggStep, ha]
      rw [he, ih _ (by exact ha)]
      cases e with
      | canWrite => simp [txStep, cuts]
      | conn o => simp [txStep, cuts]
      | peer p => simp [txStep, cuts]
      | offer m r =>
        obtain ⟨h1, h2⟩ := writeLink_keeps k s.tx.tx m r
        have h3 : (txStep k s.tx (.offer m r)).tx = (writeLink k s.tx.tx m r).1 := rfl
        simp only [h3, h1, h2]
        cases r with
        | took n =>
          simp only [cuts, writeLink_incomplete]
          split
          · rw [UInt32.toNat_add]
            simp
            omega
          · simp
        | eagain =>
          rw [writeLink_failed k s.tx.tx m .eagain (fun _ => by simp) (fun _ => rfl)]
          simp [cuts]
        | epipe =>
          rw [writeLink_failed k s.tx.tx m .epipe (fun _ => by simp)
            (fun hk => absurd ⟨hk, m, .epipe, List.mem_cons_self, by simp, by simp⟩ hu)]
          simp [cuts]
        | other e =>
          rw [writeLink_failed k s.tx.tx m (.other e) (fun _ => by simp)
            (fun hk => absurd ⟨hk, m, .other e, List.mem_cons_self, by simp, by simp⟩ hu)]
          simp [cuts]

/-- C104 (part): after every report nothing is waiting, so all messages cut before were reported. -/
theorem C104_nothing_waits_partial (k : LinkKind) (s : AggSt) (ha : s.alive = true) :
    (aggStep k s .tick).tx.tx.incomplete = 0 := by
  simp only [aggStep, ha, if_true]
  split
  · rfl
  · next h =>
    have : s.tx.tx.incomplete.toNat = 0 := by
      have : ¬ (0 : UInt32).toNat < s.tx.tx.incomplete.toNat := h
      simp at this
      simp [this]
    exact UInt32.toNat_inj.1 (by simpa using this)

/-- A TCP link: a message is cut, a report, two more are cut. -/
def Sample.aggHistory : List AggEv :=
  [.tx (.offer [1, 2, 3] (.took 2)), .tx (.offer [1, 2, 3] (.took 3)), .tick, .tx (.offer [1, 2] (.took 0)),
   .tx (.offer [1, 2] .eagain), .tx (.conn false), .tx (.offer [1, 2] (.took 1)), .tx (.conn true),
   .tx (.offer [1, 2] (.took 1))]

example : ¬ UartFails .tcp Sample.aggHistory ∧ .destroy ∉ Sample.aggHistory ∧
    cuts .tcp true 0 Sample.aggHistory = 3 ∧
    (aggRun .tcp { tx := { tx := { fdOpen := true } } } Sample.aggHistory).reports = [1] ∧
    (aggRun .tcp { tx := { tx := { fdOpen := true } } } Sample.aggHistory).tx.tx.incomplete = 2 := by
  refine ⟨?_, ?_, ?_, ?_, ?_⟩
  · rintro ⟨h, _⟩
    simp at h
  all_goals decide

/-- C104 is false: a UART write that fails, of which the kernel took nothing, is reported as an incomplete message;
and what was cut on a TCP connection between the last report and its end is never reported. -/
theorem C104_violated :
    (∃ es, .destroy ∉ es ∧ cuts .uart true 0 es = 0 ∧
      (aggRun .uart { tx := { tx := { fdOpen := true } } } es).reports = [1]) ∧
    (∃ es, cuts .tcp true 0 es = 1 ∧
      ∀ later, (aggRun .tcp { tx := { tx := { fdOpen := true } } } (es ++ later)).reports = []) := by
  refine ⟨⟨[.tx (.offer [1] (.other 5)), .tick], by decide, by decide, by decide⟩,
    ⟨[.tx (.offer [1, 2] (.took 1)), .destroy], by decide, fun later => ?_⟩⟩
  have : ∀ (s : AggSt) (es : List AggEv), s.alive = false → (aggRun .tcp s es).reports = s.reports := by
    intro s es
    induction es generalizing s with
    | nil => intro _; rfl
    | cons e es ih =>
      intro h
      rw [aggRun_cons, ih]
      · cases e <;> simp [aggStep, h]
      · cases e <;> simp [aggStep, h]
  rw [aggRun, List.foldl_append]
  exact this _ later rfl

/-! ### Background sync -/

/-- What holds as long as logs are stopped while no sync is running. -/
structure SyncInv (s : SyncSt) : Prop where
  ub : s.ub = false
  busy : ∀ f, s.busy = some f → s.file = some f ∧ s.cbFd = some f

theorem SyncInv.step {s : SyncSt} (h : SyncInv s) (e : SyncEv) (hq : e = .stop ∨ e = .destroy → s.busy = none) :
    SyncInv (syncStep s e) := by
  cases e with
  | start f =>
    simp only [syncStep]
    split
    · exact h
    · next hf =>
      refine ⟨h.ub, fun g hg => ?_⟩
      have := (h.busy g hg).1
      simp [this] at hf
  | tick q =>
    simp only [syncStep, SyncSt.fsync]
    split
    · exact h
    · next f hf =>
      split
      · exact h
      · next hb =>
        have hn : s.busy = none := by
          cases hb' : s.busy with
          | none => rfl
          | some g => exact absurd (by simp [(h.busy g hb').2, hb']) hb
        refine ⟨by simp [h.ub, hn], fun g hg => ?_⟩
        have : f = g := by
          cases q
          · simp [hn] at hg
          · simpa using hg
        simp [hf, this]
  | stop =>
    have := hq (Or.inl rfl)
    exact ⟨h.ub, fun g hg => by simp [syncStep, this] at hg⟩
  | destroy =>
    have := hq (Or.inr rfl)
    exact ⟨by simp [syncStep, this, h.ub], fun g hg => by simp [syncStep, this] at hg⟩
  | done => exact ⟨h.ub, fun g hg => by simp [syncStep] at hg⟩

theorem SyncInv.run {s : SyncSt} (h : SyncInv s) (es : List SyncEv) (hq : QuietStops s es) :
    SyncInv (syncRun s es) := by
  induction es generalizing s with
  | nil => exact h
  | cons e es ih => exact ih (h.step e hq.1) hq.2

/-- C105 (part): if logs are stopped only while no sync is running, the control block is never handed to the system,
nor freed, while the system uses it.  Missing: a log stopped while a sync is running (`C105_violated`). -/
theorem C105_control_block_partial (es : List SyncEv) (hq : QuietStops {} es) : (syncRun {} es).ub = false :=
  (SyncInv.run ⟨rfl, fun f h => by simp at h⟩ es hq).ub

/-- C105 (part): after every tick with an open log at which the system accepts the operation, if it is
requested, a sync of this log is running. -/
theorem C105_current_partial (es : List SyncEv) (hq : QuietStops {} es) (f : Nat)
    (hf : (syncRun {} es).file = some f) : (syncRun {} (es ++ [.tick true])).busy = some f := by
  have hi : SyncInv (syncRun {} es) := SyncInv.run ⟨rfl, fun f h => by simp at h⟩ es hq
  rw [syncRun, List.foldl_append]
  show ((syncRun {} es).fsync true).busy = some f
  simp only [SyncSt.fsync, hf]
  split
  · next h =>
    cases hb : (syncRun {} es).busy with
    | none => simp [hb] at h
    | some g =>
      have := (hi.busy g hb).1
      rw [hf] at this
      exact this.symm
  · rfl

/-- Two logs, one after the other. -/
def Sample.syncHistory : List SyncEv :=
  [.start 1, .tick false, .tick true, .tick true, .done, .stop, .tick true, .start 2, .tick true, .done]

example : QuietStops {} Sample.syncHistory ∧ (syncRun {} Sample.syncHistory).file = some 2 := by
  refine ⟨?_, by decide⟩
  simp [QuietStops, Sample.syncHistory, syncStep, SyncSt.fsync]

/-- C105 is false: a log stopped while a sync is running, another log and a tick, and the control block the system is
using is handed over again; also when the program ends meanwhile, the control block is freed while in use. -/
theorem C105_violated :
    (syncRun {} [.start 1, .tick true, .stop, .start 2, .tick true]).ub = true ∧
    (syncRun {} [.start 1, .tick true, .stop, .destroy]).ub = true := by
  decide

end Verif
