/-
Log directory properties over whole histories: any number of log starts, writes and stops in any
number of log endpoints, interrupted at any points by crashes or restarts of the router.
-/
import Verif.Lemmas.LogHist

namespace Verif

open Spec (NumText LogPattern Finished finishedLogs DistinctIndices starts Alone TimersOk Foreign
  initial Exceeded Sane)

theorem foreign_inv {d : List Entry} (h : Foreign d) : FsInv 0 (initial d) := by
  have hn : ∀ e ∈ d, scanPrefix e.name = none := by
    intro e he
    unfold scanPrefix
    cases hq : scanU e.name with
    | none => rfl
    | some x =>
      obtain ⟨u, r⟩ := x
      obtain ⟨w, h1, h2, -⟩ := numText_of_scan hq
      exact absurd ⟨w, r, _, h1, h2⟩ (h.2 e he)
  refine ⟨fun e he => .inl (hn e he), ?_, ?_, ?_⟩
  · refine h.1.imp_of_mem ?_
    intro a b ha hb hab
    refine ⟨hab, fun u hu => ?_⟩
    rw [hn a ha] at hu
    cases hu
  · intro k n hk; cases hk
  · intro k k' n hk; cases hk

/-- C38, histories. In every history starting from a directory with foreign files only, with fewer
than 2^32-1 log starts and no other process creating files there: every log that is open is still
in the directory, still writable, and open in only one endpoint. -/
theorem C38_open_log_kept (lim : Limits) (fits : List Char → Bool) (d : List Entry)
    (evs : List FsEv) (s : LogFs) (hd : Foreign d) (hal : Alone evs)
    (hfew : starts evs < 2 ^ 32 - 1) (h : (initial d).run lim fits evs = some s)
    (k : Nat) (n : List Char) (hk : s.file k = some n) :
    (∃ e ∈ s.dir, e.name = n ∧ e.ownerW = true) ∧ ∀ k', s.file k' = some n → k' = k := by
  have hi := (foreign_inv hd).run evs (by omega) hal h
  obtain ⟨e, he, h1, h2, -⟩ := hi.opened k n hk
  exact ⟨⟨e, he, h1, h2⟩, fun k' hk' => hi.excl k' k n hk' hk⟩

/-- C38, histories. A finished log is never changed: after any further event it is still there
exactly as it was, or it is gone, and that only if the event is the start of a log (automatic
deletion). -/
theorem C38_finished_immutable (lim : Limits) (fits : List Char → Bool) (d : List Entry)
    (evs : List FsEv) (ev : FsEv) (s s' : LogFs) (hd : Foreign d) (hal : Alone (evs ++ [ev]))
    (hfew : starts evs < 2 ^ 32 - 1) (h : (initial d).run lim fits evs = some s)
    (h' : s.step lim fits ev = some s') (e : Entry) (he : e ∈ s.dir) (hw : e.ownerW = false) :
    e ∈ s'.dir ∨ ((∃ k ext env, ev = .start k ext env) ∧ ∃ i, Finished e i) := by
  have hi := (foreign_inv hd).run evs (by omega) (fun x hx => hal x (by simp [hx])) h
  have hcl : ∀ k n, s.file k = some n → e.name ≠ n := by
    intro k n hk hc
    obtain ⟨x, hx, h1, h2, -⟩ := hi.opened k n hk
    have := apart_unique hi.apart x hx e he (by rw [h1, hc])
    rw [this, hw] at h2
    cases h2
  cases ev with
  | boot =>
    simp only [LogFs.step, Option.some.injEq] at h'
    subst h'
    refine .inl (List.mem_map.2 ⟨e, he, ?_⟩)
    rw [hw]
    simp
  | write k f =>
    simp only [LogFs.step, Option.some.injEq] at h'
    subst h'
    unfold LogFs.write
    cases hf : s.file k with
    | none => exact .inl he
    | some name =>
      refine .inl (List.mem_map.2 ⟨e, he, ?_⟩)
      rw [if_neg (hcl k name hf)]
  | stop k =>
    simp only [LogFs.step, Option.some.injEq] at h'
    subst h'
    unfold LogFs.stop
    cases hf : s.file k with
    | none => exact .inl he
    | some name =>
      refine .inl ?_
      simp only
      split
      · exact List.mem_map.2 ⟨e, he, by rw [if_neg (hcl k name hf)]⟩
      · exact he
  | start k ext env =>
    have hal' : ∀ j, env.openEnv.others j = [] := by
      have := hal (.start k ext env) (by simp)
      simpa using this
    rcases start_cases hi (by omega) hal' h' with rfl | ⟨calls, d', hdel, hd', -, hs'⟩
    · exact .inl he
    · by_cases hin : e ∈ d'
      · left
        rcases hs' with rfl | ⟨-, ⟨rfl, -⟩ | rfl⟩
        · exact hin
        · simp [hin]
        · simp [hin]
      · right
        refine ⟨⟨k, ext, env, rfl⟩, ?_⟩
        rw [hd', applyRemoves, List.mem_filter] at hin
        have : (calls.any fun c => c.2 && c.1.name == e.name) = true := by
          cases hq : calls.any fun c => c.2 && c.1.name == e.name with
          | true => rfl
          | false => exact absurd ⟨he, by simp [hq]⟩ hin
        rw [List.any_eq_true] at this
        obtain ⟨c, hc, hcn⟩ := this
        simp only [Bool.and_eq_true, beq_iff_eq] at hcn
        obtain ⟨h1, i, h2⟩ := deleteCalls_mem hdel c hc
        have := apart_unique hi.apart c.1 h1 e he hcn.2
        rw [this] at h2
        exact ⟨i, h2⟩

/-- C39/C40, histories. In every such history no two finished logs share an index, so the
statements of C39 and C40 apply to every log start of the router without that assumption. -/
theorem C40_histories (lim : Limits) (fits : List Char → Bool) (d : List Entry)
    (evs : List FsEv) (s : LogFs) (hd : Foreign d) (hal : Alone evs)
    (hfew : starts evs < 2 ^ 32 - 1) (h : (initial d).run lim fits evs = some s) :
    DistinctIndices s.dir ∧
    ∀ (free : UInt64) (env : RmEnv), Sane lim free s.dir →
      (∀ e ∈ s.dir, env.fits e.name = true) → (∀ e ∈ s.dir, env.removes e.name = true) →
      ∃ calls, deleteCalls lim (.free free) true env s.dir = some calls ∧
        ((∀ e ∈ s.dir, ∀ i, Finished e i → e ∉ applyRemoves calls s.dir) ∨
          ¬Exceeded lim free.toNat (finishedLogs s.dir).length calls) := by
  have hi := (foreign_inv hd).run evs (by omega) hal h
  have hdist := apart_distinct hi.apart
  refine ⟨hdist, fun free env hs hfits hrm => ?_⟩
  obtain ⟨calls, h1, h2, h3⟩ := C40_quotas_partial lim free env s.dir hs hdist hfits
  refine ⟨calls, h1, ?_⟩
  rcases h3 with h3 | h3
  · left
    intro e he i hf hmem
    obtain ⟨ok, hok⟩ := h3 e he i hf
    have := h2 _ hok
    rw [hrm e he] at this
    unfold applyRemoves at hmem
    rw [List.mem_filter] at hmem
    have hany : (calls.any fun c => c.2 && c.1.name == e.name) = true := by
      rw [List.any_eq_true]
      exact ⟨(e, ok), hok, by simp at this; simp [this]⟩
    rw [hany] at hmem
    simp at hmem
  · exact .inr h3

/-- Logs that are writable are open. -/
def OpenOnly (s : LogFs) : Prop :=
  ∀ e ∈ s.dir, scanPrefix e.name ≠ none → e.ownerW = true → ∃ k, s.file k = some e.name

theorem openOnly_step {lim : Limits} {s s' : LogFs} {ev : FsEv} {c : Nat}
    (hi : FsInv c s) (ho : OpenOnly s) (hc : c < 4294967295) (hal : Alone [ev])
    (ht : TimersOk [ev]) (h : s.step lim (fun _ => true) ev = some s') : OpenOnly s' := by
  cases ev with
  | boot =>
    simp only [LogFs.step, Option.some.injEq] at h
    subst h
    intro e he hp hw
    simp only [markUnfinished, List.mem_map] at he
    obtain ⟨x, hx, hxe⟩ := he
    split at hxe
    · rw [← hxe] at hw; cases hw
    · rename_i hcond
      subst hxe
      rcases hi.mine x hx with hm | ⟨-, hs, hk⟩
      · exact absurd hm hp
      · rw [hs, hk, hw] at hcond
        have : (scanPrefix x.name).isSome = true := by
          cases hq : scanPrefix x.name with
          | none => exact absurd hq hp
          | some _ => rfl
        rw [this] at hcond
        simp at hcond
  | write k f =>
    simp only [LogFs.step, Option.some.injEq] at h
    subst h
    unfold LogFs.write
    cases hf : s.file k with
    | none => exact ho
    | some name =>
      intro e he hp hw
      simp only [List.mem_map] at he
      obtain ⟨x, hx, hxe⟩ := he
      have e1 : x.name = e.name := by rw [← hxe]; split <;> rfl
      have e2 : x.ownerW = e.ownerW := by rw [← hxe]; split <;> rfl
      rw [← e1]
      exact ho x hx (by rw [e1]; exact hp) (by rw [e2]; exact hw)
  | stop k =>
    simp only [LogFs.step, Option.some.injEq] at h
    subst h
    unfold LogFs.stop
    cases hf : s.file k with
    | none => exact ho
    | some name =>
      intro e he hp hw
      simp only [if_true, chmodRO, List.mem_map] at he
      obtain ⟨x, hx, hxe⟩ := he
      split at hxe
      · rw [← hxe] at hw; cases hw
      · rename_i hne
        subst hxe
        obtain ⟨k', hk'⟩ := ho x hx hp hw
        refine ⟨k', ?_⟩
        simp only
        rw [if_neg]
        · exact hk'
        · intro hkk
          subst hkk
          rw [hf] at hk'
          cases hk'
          exact hne rfl
  | start k ext env =>
    have hal' : ∀ j, env.openEnv.others j = [] := by
      have := hal (.start k ext env) (by simp)
      simpa using this
    have ht' : env.timers = true := by
      have := ht (.start k ext env) (by simp)
      simpa using this
    rcases start_cases hi hc hal' h with rfl | ⟨calls, d, hdel, hd, hnone, hs'⟩
    · exact ho
    · have hsub := applyRemoves_sub calls s.dir
      rw [← hd] at hsub
      rcases hs' with rfl | ⟨-, ⟨-, hf⟩ | rfl⟩
      · exact fun e he hp hw => ho e (hsub.mem he) hp hw
      · rw [ht'] at hf; cases hf
      · intro e he hp hw
        simp only [List.mem_append, List.mem_singleton] at he
        rcases he with he | rfl
        · obtain ⟨k', hk'⟩ := ho e (hsub.mem he) hp hw
          refine ⟨k', ?_⟩
          simp only
          rw [if_neg]
          · exact hk'
          · intro hc
            rw [hc, hnone] at hk'
            cases hk'
        · exact ⟨k, by simp⟩

theorem openOnly_run {lim : Limits} (evs : List FsEv) {s s' : LogFs} {c : Nat}
    (hi : FsInv c s) (ho : OpenOnly s) (hc : c + starts evs < 4294967295) (hal : Alone evs)
    (ht : TimersOk evs) (h : s.run lim (fun _ => true) evs = some s') : OpenOnly s' := by
  induction evs generalizing s c with
  | nil =>
    simp only [LogFs.run, Option.some.injEq] at h
    subst h
    exact ho
  | cons ev evs ih =>
    rw [starts_cons] at hc
    simp only [LogFs.run] at h
    split at h
    · cases h
    · rename_i s1 h1
      have ha1 : Alone [ev] := fun x hx => hal x (by simp at hx; simp [hx])
      have ht1 : TimersOk [ev] := fun x hx => ht x (by simp at hx; simp [hx])
      exact ih (hi.step (by omega) ha1 h1) (openOnly_step hi ho (by omega) ha1 ht1 h1)
        (by omega) (fun x hx => hal x (by simp [hx])) (fun x hx => ht x (by simp [hx])) h

/-- C102 in the directory: at any point of any history, finishing a log that is open leaves its file
in the directory with the content it had, read-only and no longer open; all other files stay as they
are.  Missing: paths longer than `PATH_MAX`, and the telemetry log at exit (`C102_violated`). -/
theorem C102_readonly_partial (lim : Limits) (d : List Entry) (evs : List FsEv) (s : LogFs)
    (hd : Foreign d) (hal : Alone evs) (hfew : starts evs < 2 ^ 32 - 1)
    (h : (initial d).run lim (fun _ => true) evs = some s) (k : Nat) (n : List Char) (hk : s.file k = some n) :
    ∃ e ∈ s.dir, e.name = n ∧ ∃ s', s.step lim (fun _ => true) (.stop k) = some s' ∧ { e with ownerW := false } ∈ s'.dir ∧
      s'.file k = none ∧ (∀ x ∈ s'.dir, x.name = n → x.ownerW = false) ∧
      ∀ x, x.name ≠ n → (x ∈ s.dir ↔ x ∈ s'.dir) := by
  obtain ⟨⟨e, he, h1, -⟩, -⟩ := C38_open_log_kept lim _ d evs s hd hal hfew h k n hk
  refine ⟨e, he, h1, s.stop (fun _ => true) k, rfl, ?_, ?_, ?_, ?_⟩
  · simp only [LogFs.stop, hk, chmodRO, if_true, List.mem_map]
    exact ⟨e, he, by rw [if_pos h1]⟩
  · simp [LogFs.stop, hk]
  · intro x hx hn
    simp only [LogFs.stop, hk, chmodRO, if_true, List.mem_map] at hx
    obtain ⟨y, -, rfl⟩ := hx
    split
    · rfl
    · next hne => rw [if_neg hne] at hn; exact absurd hn hne
  · intro x hn
    simp only [LogFs.stop, hk, chmodRO, if_true, List.mem_map]
    constructor
    · intro hx; exact ⟨x, hx, if_neg hn⟩
    · rintro ⟨y, hy, rfl⟩
      by_cases hyn : y.name = n
      · rw [if_pos hyn] at hn; exact absurd hyn hn
      · rw [if_neg hyn]; exact hy

/-- C41, histories. With paths that fit and timers available, at any point of any history the only
writable logs in the directory are those open at that moment: logs left by crashes or restarts at
any earlier points have been marked. -/
theorem C41_writable_is_open (lim : Limits) (d : List Entry) (evs : List FsEv) (s : LogFs)
    (hd : Foreign d) (hal : Alone evs) (ht : TimersOk evs) (hfew : starts evs < 2 ^ 32 - 1)
    (h : (initial d).run lim (fun _ => true) evs = some s) (e : Entry) (he : e ∈ s.dir)
    (hl : ∃ i, LogPattern e.name i) (hw : e.ownerW = true) : ∃ k, s.file k = some e.name := by
  have hf := foreign_inv hd
  have ho : OpenOnly (initial d) := by
    intro e he hp
    rcases hf.mine e he with hm | ⟨⟨i, t, ext, -, hc⟩, -⟩
    · exact absurd hm hp
    · omega
  obtain ⟨i, hi⟩ := hl
  exact openOnly_run evs hf ho (by omega) hal ht h e he
    (by rw [scanLog_prefix (scan_of_pattern hi).1]; simp) hw

/-- C41, histories. Right after a restart of the router (before any new log is opened) no log is
writable. -/
theorem C41_after_boot (lim : Limits) (d : List Entry) (evs : List FsEv) (s : LogFs)
    (hd : Foreign d) (hal : Alone evs) (hfew : starts evs < 2 ^ 32 - 1)
    (h : (initial d).run lim (fun _ => true) (evs ++ [.boot]) = some s) (e : Entry)
    (he : e ∈ s.dir) (hl : ∃ i, LogPattern e.name i) : e.ownerW = false := by
  have hsplit : ∀ (evs : List FsEv) (s0 : LogFs),
      s0.run lim (fun _ => true) (evs ++ [.boot]) = some s →
      ∃ s1, s0.run lim (fun _ => true) evs = some s1 ∧
        s = { dir := markUnfinished (fun _ => true) s1.dir, file := fun _ => none } := by
    intro evs
    induction evs with
    | nil =>
      intro s0 h
      simp only [List.nil_append, LogFs.run, LogFs.step, Option.some.injEq] at h
      exact ⟨s0, rfl, h.symm⟩
    | cons ev evs ih =>
      intro s0 h
      simp only [List.cons_append, LogFs.run] at h ⊢
      split at h
      · cases h
      · rename_i s1 h1
        exact ih s1 h
  obtain ⟨s1, h1, rfl⟩ := hsplit evs _ h
  have hi := (foreign_inv hd).run evs (by omega) hal h1
  obtain ⟨i, hi'⟩ := hl
  have hsp := scanLog_prefix (scan_of_pattern hi').1
  have hmem := he
  simp only [markUnfinished, List.mem_map] at hmem
  obtain ⟨x, hx, hxe⟩ := hmem
  have e1 : x.name = e.name := by rw [← hxe]; split <;> rfl
  have e2 : x.stat = e.stat := by rw [← hxe]; split <;> rfl
  have e3 : x.kind = e.kind := by rw [← hxe]; split <;> rfl
  rcases hi.mine x hx with hm | ⟨-, hs, hk⟩
  · rw [e1, hsp] at hm; cases hm
  · exact C41_marks_partial (fun _ => true) s1.dir e he rfl (by rw [← e2]; exact hs) (by rw [← e3]; exact hk)
      (.inl ⟨i, hi'⟩)

namespace Sample

/-- A start at the sample date with everything working and 1000 bytes free. -/
def startEnv : StartEnv := ⟨.free 1000, true, rmOk, quiet, date, true⟩

/-- Two endpoints log, the first is restarted, then the power fails and the router starts
again. -/
def logHistory : List FsEv :=
  [.start 0 "ulg".toList startEnv, .write 0 (fun l => l ++ [1, 2]), .start 1 "tlog".toList startEnv,
   .stop 0, .start 0 "ulg".toList startEnv, .write 0 (fun l => l ++ [3]), .boot,
   .start 0 "ulg".toList startEnv]

end Sample

/-- The sample history: logs 0 and 1 are finished, 2 was cut short by the crash and is marked, and
with at most two finished logs allowed log 0 has been removed before log 3 was opened. -/
example : ((initial [{ name := "readme.txt".toList }]).run ⟨0, 2⟩ (fun _ => true)
    Sample.logHistory).map (fun s => (s.dir.map fun e => (e.name, e.ownerW, e.data), s.file 0)) =
    some ([("readme.txt".toList, true, []),
      ("00001-2024-03-09_07-05-01.tlog".toList, false, []),
      ("00002-2024-03-09_07-05-01.ulg".toList, false, [3]),
      ("00003-2024-03-09_07-05-01.ulg".toList, true, [])],
      some "00003-2024-03-09_07-05-01.ulg".toList) := by decide +kernel

example : Alone Sample.logHistory ∧ TimersOk Sample.logHistory ∧
    starts Sample.logHistory < 2 ^ 32 - 1 := by
  refine ⟨?_, ?_, by decide⟩
  · intro ev hev
    simp only [Sample.logHistory, List.mem_cons, List.not_mem_nil, or_false] at hev
    rcases hev with rfl | rfl | rfl | rfl | rfl | rfl | rfl | rfl <;>
      simp [Sample.startEnv, Sample.quiet]
  · intro ev hev
    simp only [Sample.logHistory, List.mem_cons, List.not_mem_nil, or_false] at hev
    rcases hev with rfl | rfl | rfl | rfl | rfl | rfl | rfl | rfl <;> simp [Sample.startEnv]

/-- The hypothesis on the directory holds for one with a foreign file. -/
theorem foreign_readme : Foreign [{ name := "readme.txt".toList }] := by
  refine ⟨by simp, ?_⟩
  intro e he
  simp only [List.mem_singleton] at he
  subst he
  rintro ⟨w, r, v, h1, ws, sg, ds, rfl, h2, h3, h4, h5, -⟩
  simp only at h1
  have hr : "readme.txt".toList.head? = some 'r' := by decide
  obtain ⟨c, l, rfl⟩ := List.exists_cons_of_ne_nil h4
  rw [h1] at hr
  cases ws with
  | cons x ws =>
    simp at hr
    have := h2 x (by simp)
    rw [hr] at this
    revert this
    unfold Spec.Space
    decide
  | nil =>
    rcases h3 with rfl | rfl | rfl
    · simp at hr
      have := h5 c (by simp)
      rw [hr] at this
      revert this
      unfold Spec.Digit
      decide
    · simp at hr
    · simp at hr

/-! ## C37 in histories -/

/-- A name that somebody else gives to a file during one of the starts of a history. -/
def ByOthers (evs : List FsEv) (name : List Char) : Prop :=
  ∃ k ext env j, FsEv.start k ext env ∈ evs ∧ ∃ x ∈ env.openEnv.others j, x.name = name

/-- A name the automatic deletion recognises, with the number it starts with as its index. -/
def Recognised (name : List Char) : Prop := ∃ i, LogPattern name i ∧ Spec.Numbered name i

theorem recognised_logName (i : UInt32) (t : Date) (ext : List Char) : Recognised (logName i t ext) :=
  ⟨i.toNat, (C37_recognised i t ext).1, numbered_logName i t ext⟩

/-- The names in the directory satisfy `P`, those of open logs are recognised. -/
def NamesOk (P : List Char → Prop) (s : LogFs) : Prop :=
  (∀ e ∈ s.dir, P e.name) ∧ ∀ k name, s.file k = some name → Recognised name

theorem namesOk_step {P : List Char → Prop} (hP : ∀ n, Recognised n → P n) {lim : Limits} {fits : List Char → Bool} {s s' : LogFs} {ev : FsEv}
    (ho : ∀ n, ByOthers [ev] n → P n) (h : NamesOk P s) (hs : s.step lim fits ev = some s') : NamesOk P s' := by
  cases ev with
  | start e ext env =>
    simp only [LogFs.step, LogFs.start] at hs
    split at hs
    · cases hs; exact h
    · split at hs
      · cases hs
      · rename_i calls _
        have hsub : ∀ x ∈ applyRemoves calls s.dir, P x.name := fun x hx => h.1 x ((applyRemoves_sub calls s.dir).subset hx)
        cases hr : getFile env.openEnv env.date ext (applyRemoves calls s.dir) with
        | mk d' r =>
          simp only [hr] at hs
          cases r with
          | none =>
            simp only [Option.some.injEq] at hs
            obtain ⟨extra, h1, h2⟩ := tryOpen_none _ _ _ hr
            cases hs
            refine ⟨fun x hx => ?_, h.2⟩
            simp only [h1, List.mem_append] at hx
            rcases hx with hx | hx
            · exact hsub x hx
            · obtain ⟨j, hj⟩ := h2 x hx
              exact ho _ ⟨e, ext, env, j, by simp, x, hj, rfl⟩
          | some name =>
            obtain ⟨extra, h1, -, ⟨k, hk⟩, h2⟩ := tryOpen_some _ _ _ hr
            have hrec : Recognised name := hk ▸ recognised_logName _ _ _
            have hd : ∀ x ∈ d', P x.name := fun x hx => by
              simp only [h1, List.mem_append, List.mem_singleton] at hx
              rcases hx with (hx | hx) | rfl
              · exact hsub x hx
              · obtain ⟨j, hj⟩ := h2 x hx
                exact ho _ ⟨e, ext, env, j, by simp, x, hj, rfl⟩
              · exact hP _ hrec
            simp only at hs
            split at hs
            · cases hs
              refine ⟨hd, fun k n hn => ?_⟩
              simp only at hn
              split at hn
              · cases hn; exact hrec
              · exact h.2 k n hn
            · cases hs
              exact ⟨hd, h.2⟩
  | write e f =>
    cases hs
    unfold LogFs.write
    split
    · exact h
    · refine ⟨fun x hx => ?_, h.2⟩
      obtain ⟨y, hy, rfl⟩ := List.mem_map.1 hx
      split
      · exact h.1 y hy
      · exact h.1 y hy
  | stop e =>
    cases hs
    unfold LogFs.stop
    split
    · exact h
    · refine ⟨fun x hx => ?_, fun k n hn => ?_⟩
      · simp only at hx
        split at hx
        · obtain ⟨y, hy, rfl⟩ := List.mem_map.1 hx
          split
          · exact h.1 y hy
          · exact h.1 y hy
        · exact h.1 x hx
      · simp only at hn
        split at hn
        · cases hn
        · exact h.2 k n hn
  | boot =>
    cases hs
    refine ⟨fun x hx => ?_, fun k n hn => by simp at hn⟩
    obtain ⟨y, hy, rfl⟩ := List.mem_map.1 hx
    split
    · exact h.1 y hy
    · exact h.1 y hy

theorem namesOk_run {P : List Char → Prop} (hP : ∀ n, Recognised n → P n) {lim : Limits} {fits : List Char → Bool} :
    ∀ (evs : List FsEv) {s s' : LogFs}, (∀ n, ByOthers evs n → P n) → NamesOk P s → s.run lim fits evs = some s' → NamesOk P s'
  | [], s, s', _, h, hr => by cases hr; exact h
  | ev :: evs, s, s', ho, h, hr => by
    unfold LogFs.run at hr
    split at hr
    · cases hr
    · rename_i s1 hs
      refine namesOk_run hP evs (fun n => ?_) (namesOk_step hP (fun n => ?_) h hs) hr
      · rintro ⟨k, ext, env, j, hm, hx⟩
        exact ho n ⟨k, ext, env, j, by simp [hm], hx⟩
      · rintro ⟨k, ext, env, j, hm, hx⟩
        exact ho n ⟨k, ext, env, j, by simp only [List.mem_singleton] at hm; simp [hm], hx⟩

/-- C37 over histories: whatever is in the directory, whatever others do there and however often the router crashes, every file the
router adds to the directory has a name that the automatic deletion recognises, with the number at its start as the index; and so
has every log that is open. -/
theorem C37_histories (lim : Limits) (fits : List Char → Bool) (d : List Entry) (evs : List FsEv) (s : LogFs)
    (h : (initial d).run lim fits evs = some s) :
    (∀ e ∈ s.dir, (∃ x ∈ d, x.name = e.name) ∨ ByOthers evs e.name ∨ ∃ i, LogPattern e.name i ∧ Spec.Numbered e.name i) ∧
      ∀ k name, s.file k = some name → ∃ i, LogPattern name i ∧ Spec.Numbered name i :=
  namesOk_run (P := fun n => (∃ x ∈ d, x.name = n) ∨ ByOthers evs n ∨ Recognised n) (fun _ hn => .inr (.inr hn)) evs
    (fun _ hn => .inr (.inl hn)) ⟨fun e he => .inl ⟨e, he, rfl⟩, fun _ _ hn => by cases hn⟩ h

/-- In the sample history the router adds logs to a directory with a file of somebody else. -/
example : ((initial [{ name := "readme.txt".toList }]).run ⟨0, 2⟩ (fun _ => true) Sample.logHistory).map
    (fun s => (s.dir.map fun e => scanLog e.name, s.file 0)) =
    some ([none, some 1, some 2, some 3], some "00003-2024-03-09_07-05-01.ulg".toList) := by decide +kernel

end Verif
