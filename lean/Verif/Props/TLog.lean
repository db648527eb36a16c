/-
C43: the telemetry log file.
-/
import Verif.Lemmas.TLog
import Verif.Spec.BinLogSamples
import Verif.Lemmas.RxFrames

namespace Verif

open Verif.Spec

/-- A telemetry log endpoint as constructed (logendpoint.cpp:60-81, tlog.h:28-31). -/
def tlogInit (target : Option UInt8) (mode : LogMode) : LogBase := { target, mode }

/-- **C43** (format): after any history of messages taken, with any clock and any results of
starting, every telemetry log file is a sequence of records of messages taken, in order, each with
its time and its unmodified frame.  Partial: assumes that writes up to the largest frame are carried
out completely; without that the claim is false (`C43_violated`). -/
theorem C43_files_partial (env : LogEnv) (n : Nat) (target : Option UInt8) (mode : LogMode) (evs : List TLogEv)
    (hw : WritesUpTo n env) (hn : 8 ≤ n) (hlen : ∀ ev ∈ evs, ev.msg.data.length ≤ n) :
    ∃ (dn : List (List TRec)) (op : List TRec),
      (tlogRun env (tlogInit target mode) evs).done.length = dn.length ∧
      (∀ (i : Nat) c rs, (tlogRun env (tlogInit target mode) evs).done[i]? = some c → dn[i]? = some rs →
        TlogFile rs c) ∧
      (∀ c, (tlogRun env (tlogInit target mode) evs).file = some c → TlogFile op c) ∧
      (dn.flatten ++ op).Sublist (evs.map recOf) := by
  have h0 : TlogHist (tlogInit target mode) [] [] [] :=
    ⟨rfl, (by intro i c rs h; cases h), .inl ⟨rfl, rfl⟩, List.Sublist.refl _⟩
  obtain ⟨dn, op, h⟩ := h0.run hw hn evs hlen
  refine ⟨dn, op, h.len, h.done, fun c hc => ?_, h.from_⟩
  rcases h.file with ⟨hf, _⟩ | ⟨c', hf, hc'⟩
  · rw [hf] at hc; cases hc
  · rw [hf] at hc; cases hc; exact hc'

/-- **C43**, partial (same assumption): each message taken is recorded iff the file is open after its automatic start/stop step; it is
appended to what was in the file, or is the first record of a new file. -/
theorem C43_step_partial (env : LogEnv) (n : Nat) (b : LogBase) (ev : TLogEv) (hw : WritesUpTo n env) (hn : 8 ≤ n)
    (hlen : ev.msg.data.length ≤ n) :
    (tlogWriteMsg env b ev.now ev.msg).file = none ∨
    ∃ c ts, (tlogWriteMsg env b ev.now ev.msg).file = some (c ++ ts ++ ev.msg.data) ∧
      ts.length = 8 ∧ beVal ts = ev.now.toNat ∧ (b.file = some c ∨ b.file = none ∧ c = []) := by
  have hlearn : (b.learnTarget ev.msg).file = b.file := by
    unfold LogBase.learnTarget
    split <;> rfl
  have hauto : ∀ b' : LogBase, b'.file = b.file →
      (tlogAuto env b' ev.msg).file = none ∨ (tlogAuto env b' ev.msg).file = b.file ∨
      (b.file = none ∧ (tlogAuto env b' ev.msg).file = some []) := by
    intro b' hb'
    unfold tlogAuto
    cases b'.autoAct env ev.msg with
    | nothing => exact .inr (.inl hb')
    | start =>
      unfold LogBase.start
      cases hf : b'.file with
      | none =>
        simp only [Option.isSome_none, Bool.false_eq_true, if_false]
        cases env.startOk b'.nstart with
        | true => exact .inr (.inr ⟨by rw [← hb', hf], rfl⟩)
        | false => exact .inl rfl
      | some c => exact .inr (.inl (by rw [← hb']; rfl))
    | stop =>
      left
      show (tlogStop b').file = none
      unfold tlogStop
      split
      · assumption
      · rfl
  unfold tlogWriteMsg
  simp only []
  cases hf : (tlogAuto env (b.learnTarget ev.msg) ev.msg).file with
  | none => left; rw [tlog_nowrites _ _ _ hf]; exact hf
  | some c =>
    right
    refine ⟨c, be64 ev.now, (tlog_writes hw _ c _ _ hf (by rw [be64_length]; exact hn) hlen).1,
      be64_length _, beVal_be64 _, ?_⟩
    rcases hauto _ hlearn with h | h | ⟨h1, h2⟩
    · rw [hf] at h; cases h
    · left; rw [← h, hf]
    · right; rw [hf] at h2; cases h2; exact ⟨h1, rfl⟩

/-- Times and messages of a sample history. -/
def Sample.tlogEvs : List TLogEv :=
  [⟨1000, Sample.logHb 1 1 3 128⟩, ⟨1700000000000000, Sample.binMsg 0 [1, 2]⟩, ⟨1700000000000001, Sample.logHb 5 1 3 0⟩]

theorem Sample.binEnv_upTo : WritesUpTo 4096 Sample.binEnv := fun _ => ⟨4096, rfl, by decide⟩

example : ∀ ev ∈ Sample.tlogEvs, ev.msg.data.length ≤ 4096 := by decide +kernel

example : (tlogRun Sample.binEnv (tlogInit none .always) Sample.tlogEvs).file.bind readTlog =
    some (Sample.tlogEvs.map recOf) := by decide +kernel

/-- A history in "always" mode with a known target in which starting succeeds leaves nothing
out. -/
theorem tlogRun_open {env : LogEnv} {n : Nat} (hw : WritesUpTo n env) (hn : 8 ≤ n) (b : LogBase) (rs : List TRec)
    (c : List UInt8) (hm : b.mode = .always) (hf : b.file = some c) (hc : TlogFile rs c) (evs : List TLogEv)
    (hlen : ∀ ev ∈ evs, ev.msg.data.length ≤ n) :
    ∃ c', (tlogRun env b evs).file = some c' ∧ (tlogRun env b evs).done = b.done ∧ TlogFile (rs ++ evs.map recOf) c' := by
  induction evs generalizing b rs c with
  | nil => exact ⟨c, hf, rfl, by simpa using hc⟩
  | cons ev evs ih =>
    have h1 : (b.learnTarget ev.msg).mode = .always ∧ (b.learnTarget ev.msg).file = some c ∧
        (b.learnTarget ev.msg).done = b.done := by
      unfold LogBase.learnTarget
      split <;> exact ⟨hm, hf, rfl⟩
    have h2 : tlogAuto env (b.learnTarget ev.msg) ev.msg = b.learnTarget ev.msg := by
      unfold tlogAuto LogBase.autoAct
      split
      · rfl
      all_goals
        rename_i h
        split at h
        · cases h
        · rw [h1.1] at h
          simp only [h1.2.1] at h
          simp at h
    obtain ⟨w1, w2, w3, _⟩ := tlog_writes hw (b.learnTarget ev.msg) c (be64 ev.now) ev.msg.data h1.2.1
      (by rw [be64_length]; exact hn) (hlen ev (List.mem_cons_self ..))
    have hstep : tlogWriteMsg env b ev.now ev.msg =
        (((b.learnTarget ev.msg).write env (be64 ev.now)).1.write env ev.msg.data).1 := by
      unfold tlogWriteMsg
      rw [h2]
    obtain ⟨c', i1, i2, i3⟩ := ih (tlogWriteMsg env b ev.now ev.msg) (rs ++ [recOf ev]) _
      (by rw [hstep, w3]; exact h1.1) (by rw [hstep]; exact w1) (hc.snoc ev)
      (fun e he => hlen e (List.mem_cons_of_mem _ he))
    refine ⟨c', i1, ?_, ?_⟩
    · show (tlogRun env (tlogWriteMsg env b ev.now ev.msg) evs).done = _
      rw [i2, hstep, w2]
      exact h1.2.2
    · rw [List.map_cons, List.append_cons]
      exact i3

/-- **C43** (completeness), partial (same assumption): in "always" mode with a known system, from the first message taken on
every message is in the one file, in order. -/
theorem C43_all_partial (env : LogEnv) (n : Nat) (sys : UInt8) (evs : List TLogEv) (hne : evs ≠ [])
    (hw : WritesUpTo n env) (hn : 8 ≤ n) (hs : env.startOk 0 = true) (hlen : ∀ ev ∈ evs, ev.msg.data.length ≤ n) :
    ∃ c, (tlogRun env (tlogInit (some sys) .always) evs).file = some c ∧
      (tlogRun env (tlogInit (some sys) .always) evs).done = [] ∧ TlogFile (evs.map recOf) c := by
  cases evs with
  | nil => exact absurd rfl hne
  | cons ev evs =>
    have h0 : tlogAuto env ((tlogInit (some sys) .always).learnTarget ev.msg) ev.msg =
        { tlogInit (some sys) .always with file := some [], startTimer := true, nstart := 1 } := by
      have hl : (tlogInit (some sys) .always).learnTarget ev.msg = tlogInit (some sys) .always := by
        unfold LogBase.learnTarget
        rw [if_neg (by simp [tlogInit])]
      rw [hl]
      have ha : (tlogInit (some sys) .always).autoAct env ev.msg = .start := by
        simp [LogBase.autoAct, tlogInit]
      unfold tlogAuto
      rw [ha]
      simp [LogBase.start, tlogInit, hs]
    obtain ⟨w1, w2, w3, _⟩ := tlog_writes hw
      { tlogInit (some sys) .always with file := some [], startTimer := true, nstart := 1 } [] (be64 ev.now)
      ev.msg.data rfl (by rw [be64_length]; exact hn) (hlen ev (List.mem_cons_self ..))
    have hstep : tlogWriteMsg env (tlogInit (some sys) .always) ev.now ev.msg =
        ((({ tlogInit (some sys) .always with file := some [], startTimer := true, nstart := 1 } : LogBase).write env
          (be64 ev.now)).1.write env ev.msg.data).1 := by
      unfold tlogWriteMsg
      rw [h0]
    obtain ⟨c, h1, h2, h3⟩ := tlogRun_open hw hn (tlogWriteMsg env (tlogInit (some sys) .always) ev.now ev.msg)
      [recOf ev] _ (by rw [hstep, w3]; rfl) (by rw [hstep]; exact w1) (Spec.TlogFile.nil.snoc ev) evs
      (fun e he => hlen e (List.mem_cons_of_mem _ he))
    refine ⟨c, h1, ?_, h3⟩
    show (tlogRun env (tlogWriteMsg env (tlogInit (some sys) .always) ev.now ev.msg) evs).done = _
    rw [h2, hstep, w2]
    rfl

example : ∃ c, (tlogRun Sample.binEnv (tlogInit (some 1) .always) Sample.tlogEvs).file = some c ∧
    (tlogRun Sample.binEnv (tlogInit (some 1) .always) Sample.tlogEvs).done = [] ∧
    TlogFile (Sample.tlogEvs.map recOf) c :=
  C43_all_partial _ 4096 1 _ (by decide) Sample.binEnv_upTo (by decide) rfl (by decide +kernel)

/-- **C43** (reader): from a telemetry log file a reader that only knows the wire format recovers
exactly the records. -/
theorem C43_reader (rs : List TRec) (c : List UInt8) (h : TlogFile rs c) (hf : ∀ r ∈ rs, OneFrame r.frame) :
    readTlog c = some rs := readRecords_file h hf _ h.length_le

/-- What the receive path delivers are whole frames. -/
theorem C43_frames_whole {bs fr rest : List UInt8} (h : firstFrame bs = some (fr, rest)) : OneFrame fr := by
  unfold firstFrame at h
  simp only at h
  generalize bs.dropWhile (fun b => !(b == 0xFD || b == 0xFE)) = q at h
  cases hl : frameLen q with
  | none => rw [hl] at h; cases h
  | some n =>
    rw [hl] at h
    simp only at h
    by_cases hn : n ≤ q.length
    · rw [if_pos hn] at h
      cases h
      have hlen : (q.take n).length = n := by rw [List.length_take]; omega
      show frameLen (q.take n) = some (q.take n).length
      rw [hlen]
      unfold frameLen at hl
      split at hl
      · rename_i len inc _ _ _ _ _ _ _ tl
        have hn12 : 10 ≤ n := by
          have := Option.some.inj hl
          omega
        obtain ⟨k, rfl⟩ : ∃ k, n = k + 10 := ⟨n - 10, by omega⟩
        exact hl
      · have hn8 : 6 ≤ n := by
          have := Option.some.inj hl
          omega
        obtain ⟨k, rfl⟩ : ∃ k, n = k + 6 := ⟨n - 6, by omega⟩
        exact hl
      · cases hl
    · rw [if_neg hn] at h
      cases h

example : OneFrame (Sample.logHb 1 1 3 128).data ∧ OneFrame (Sample.binMsg 0 [1, 2]).data := ⟨rfl, rfl⟩

/-- C43 fails without the assumption on writes: results of `write` are ignored, so one short write (full
disk) loses the record structure; the reader gets none of the later, completely written messages. -/
theorem C43_violated : ∃ (env : LogEnv) (evs : List TLogEv),
    (∀ i, i ≠ 2 → env.wr i = .n 4096) ∧ (∀ ev ∈ evs, OneFrame ev.msg.data) ∧ evs.length = 4 ∧
    (tlogRun env (tlogInit (some 1) .always) evs).file.bind readTlog = none :=
  ⟨{ Sample.binEnv with wr := fun i => if i = 2 then .n 3 else .n 4096 },
    [⟨1000, Sample.logHb 1 1 3 128⟩, ⟨2000, Sample.logHb 1 1 3 128⟩, ⟨3000, Sample.logHb 1 1 3 128⟩,
     ⟨4000, Sample.logHb 1 1 3 128⟩],
    by intro i hi; exact if_neg hi, by intro ev hev; simp at hev; rcases hev with rfl | rfl | rfl | rfl <;> rfl,
    rfl, by decide +kernel⟩

end Verif
