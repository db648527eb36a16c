/- C127: the number of log files in the log directory over histories of the router. -/
import Verif.Props.LogHist

namespace Verif

namespace Spec

/-- The log files of a directory, finished or not. -/
noncomputable def logFiles (d : List Entry) : List Entry :=
  haveI : DecidablePred fun e : Entry => ∃ i, LogPattern e.name i := fun _ => Classical.propDecidable _
  d.filter fun e => decide (∃ i, LogPattern e.name i)

/-- Whenever one of the endpoints below `n` starts a log, the system does what it is asked for: the free space is known, the directory
can be read, old logs can be removed, timers can be created, nobody else creates files there and the numbers are sane. No other
endpoint starts logs. -/
def Working (lim : Limits) (n : Nat) : LogFs → List FsEv → Prop
  | _, [] => True
  | s, ev :: evs =>
    (match ev with
     | .start e _ env => e < n ∧ env.dirOk = true ∧ env.timers = true ∧ (∀ x, env.rm.fits x = true) ∧
        (∀ x, env.rm.removes x = true) ∧ (∀ j, env.openEnv.others j = []) ∧
        ∃ f, env.vfs = .free f ∧ Sane lim f s.dir
     | _ => True) ∧
    ∀ s', s.step lim (fun _ => true) ev = some s' → Working lim n s' evs

end Spec

open Spec (LogPattern Finished finishedLogs DistinctIndices starts Alone TimersOk Foreign initial Sane Exceeded removed
  logFiles Working)

theorem logFiles_eq (d : List Entry) : logFiles d = d.filter fun e => (scanLog e.name).isSome := by
  unfold logFiles
  congr 1
  funext e
  cases h : scanLog e.name with
  | none =>
    simp only [Option.isSome_none, decide_eq_false_iff_not]
    rintro ⟨i, hi⟩
    rw [(scan_of_pattern hi).1] at h
    cases h
  | some u =>
    simp only [Option.isSome_some, decide_eq_true_eq]
    exact ⟨u.toNat, pattern_of_scan h⟩

theorem length_filter_split {α : Type} (p : α → Bool) (l : List α) :
    l.length = (l.filter p).length + (l.filter fun x => !p x).length := by
  induction l with
  | nil => rfl
  | cons x l ih =>
    simp only [List.filter_cons, List.length_cons]
    cases p x <;> simp <;> omega

theorem finished_after {calls : List (Entry × Bool)} {d : List Entry}
    (hn : (calls.map fun c => c.1.name).Nodup) (hin : ∀ c ∈ calls, c.1 ∈ d ∧ ∃ i, Finished c.1 i)
    (hok : ∀ c ∈ calls, c.2 = true) :
    (finishedLogs (applyRemoves calls d)).length + removed calls ≤ (finishedLogs d).length := by
  have hr : removed calls = calls.length := by
    unfold removed
    rw [List.filter_eq_self.2 hok]
  rw [hr, finishedLogs_eq, finishedLogs_eq]
  have h1 : (calls.map fun c => c.1.name).length ≤
      (((d.filter fun e => (candidate e).isSome).filter fun e => calls.any fun c => c.2 && c.1.name == e.name).map
        Entry.name).length := by
    refine hn.length_le_of_subset ?_
    intro x hx
    rw [List.mem_map] at hx
    obtain ⟨c, hc, rfl⟩ := hx
    obtain ⟨h1, i, h2⟩ := hin c hc
    rw [List.mem_map]
    refine ⟨c.1, ?_, rfl⟩
    rw [List.mem_filter, List.mem_filter]
    refine ⟨⟨h1, by rw [(candidate_iff _ _).2 h2]; rfl⟩, ?_⟩
    rw [List.any_eq_true]
    exact ⟨c, hc, by simp [hok c hc]⟩
  rw [List.length_map, List.length_map] at h1
  have h2 : (applyRemoves calls d).filter (fun e => (candidate e).isSome) =
      (d.filter fun e => (candidate e).isSome).filter fun e => !calls.any fun c => c.2 && c.1.name == e.name := by
    unfold applyRemoves
    rw [List.filter_filter, List.filter_filter]
    congr 1
    funext e
    exact Bool.and_comm _ _
  rw [h2]
  have := length_filter_split (fun e : Entry => calls.any fun c => c.2 && c.1.name == e.name)
    (d.filter fun e => (candidate e).isSome)
  omega

/-- What is known of a state of such a history: the invariant of the directory, writable logs are open, logs are open in the
endpoints below `n` only. -/
structure CountInv (n c : Nat) (s : LogFs) : Prop where
  inv : FsInv c s
  only : OpenOnly s
  below : ∀ k m, s.file k = some m → k < n

/-- Logs that are not finished are open. -/
theorem unfinished_open {n c : Nat} {s : LogFs} (h : CountInv n c s) (e : Entry) (he : e ∈ s.dir)
    (hl : (scanLog e.name).isSome = true) : (candidate e).isSome = true ∨ ∃ k, k < n ∧ s.file k = some e.name := by
  cases hq : scanLog e.name with
  | none => rw [hq] at hl; cases hl
  | some u =>
    have hp := scanLog_prefix hq
    rcases h.inv.mine e he with hm | ⟨-, hs, hk⟩
    · rw [hp] at hm; cases hm
    · cases hw : e.ownerW with
      | false =>
        left
        unfold candidate
        rw [hq]
        simp [hs, hk, hw]
      | true =>
        right
        obtain ⟨k, hk⟩ := h.only e he (by rw [hp]; simp) hw
        exact ⟨k, h.below k _ hk, hk⟩

/-- Logs of a part of the directory: finished ones and at most one for each endpoint other than `e`. -/
theorem logs_le {n c : Nat} {s : LogFs} (h : CountInv n c s) {d : List Entry} (hd : d.Sublist s.dir) {e : Nat}
    (he : e < n) (hf : s.file e = none) :
    (logFiles d).length + 1 ≤ (finishedLogs d).length + n := by
  rw [logFiles_eq, finishedLogs_eq]
  have h0 := length_filter_split (fun x => (candidate x).isSome) (d.filter fun x => (scanLog x.name).isSome)
  have h1 : ((d.filter fun x => (scanLog x.name).isSome).filter fun x => (candidate x).isSome).length ≤
      (d.filter fun x => (candidate x).isSome).length :=
    (List.filter_sublist.filter _).length_le
  have h2 : ((d.filter fun x => (scanLog x.name).isSome).filter fun x => !(candidate x).isSome).length ≤
      (((List.range n).erase e).filterMap s.file).length := by
    rw [← List.length_map (f := Entry.name)]
    refine List.Nodup.length_le_of_subset ?_ ?_
    · have := (h.inv.apart.sublist hd).sublist ((List.filter_sublist (p := fun x : Entry => !(candidate x).isSome)).trans
        (List.filter_sublist (p := fun x : Entry => (scanLog x.name).isSome)))
      unfold List.Nodup
      rw [List.pairwise_map]
      exact this.imp fun hab => hab.1
    · intro x hx
      rw [List.mem_map] at hx
      obtain ⟨a, ha, rfl⟩ := hx
      rw [List.mem_filter, List.mem_filter] at ha
      rcases unfinished_open h a (hd.mem ha.1.1) ha.1.2 with h3 | ⟨k, hk, h3⟩
      · rw [h3] at ha; exact absurd ha.2 (by simp)
      · rw [List.mem_filterMap]
        refine ⟨k, ?_, h3⟩
        rw [List.mem_erase_of_ne]
        · exact List.mem_range.2 hk
        · rintro rfl
          rw [hf] at h3
          cases h3
  have h3 : (((List.range n).erase e).filterMap s.file).length ≤ ((List.range n).erase e).length :=
    List.length_filterMap_le _ _
  have h4 : ((List.range n).erase e).length = n - 1 := by
    rw [List.length_erase_of_mem (List.mem_range.2 he), List.length_range]
  omega

/-- What deletion leaves. -/
theorem deleted_count {lim : Limits} {n c : Nat} {s : LogFs} (h : CountInv n c s) (hmax : 0 < lim.maxFiles.toNat)
    {rm : RmEnv} (hfit : ∀ x, rm.fits x = true) (hrm : ∀ x, rm.removes x = true) {f : UInt64} (hs : Sane lim f s.dir) :
    ∃ calls, deleteCalls lim (.free f) true rm s.dir = some calls ∧
      (finishedLogs (applyRemoves calls s.dir)).length ≤ lim.maxFiles.toNat := by
  have hdist := apart_distinct h.inv.apart
  obtain ⟨calls, h1, h2, h3⟩ := C40_quotas_partial lim f rm s.dir hs hdist (fun e _ => hfit _)
  obtain ⟨calls', h1', h4, -⟩ := C39_order_partial lim f rm s.dir hs
  rw [h1] at h1'
  cases h1'
  have hok : ∀ x ∈ calls, x.2 = true := fun x hx => by rw [h2 x hx]; exact hrm _
  have hmem := deleteCalls_mem h1
  refine ⟨calls, h1, ?_⟩
  rcases h3 with h3 | h3
  · have : finishedLogs (applyRemoves calls s.dir) = [] := by
      rw [finishedLogs_eq, List.filter_eq_nil_iff]
      intro a ha hc
      unfold applyRemoves at ha
      rw [List.mem_filter] at ha
      obtain ⟨i, hi⟩ := Option.isSome_iff_exists.1 hc
      obtain ⟨ok, hok'⟩ := h3 a ha.1 i ((candidate_iff _ _).1 hi)
      have : (calls.any fun c => c.2 && c.1.name == a.name) = true := by
        rw [List.any_eq_true]
        exact ⟨(a, ok), hok', by have := hok _ hok'; simp at this; simp [this]⟩
      rw [this] at ha
      exact absurd ha.2 (by simp)
    rw [this]
    exact Nat.zero_le _
  · have hn : (calls.map fun c => c.1.name).Nodup := by
      unfold List.Nodup
      rw [List.pairwise_map]
      refine List.Pairwise.imp_of_mem ?_ h4
      intro a b ha hb hab heq
      obtain ⟨a1, i, hi⟩ := hmem a ha
      obtain ⟨b1, -⟩ := hmem b hb
      have := apart_unique h.inv.apart a.1 a1 b.1 b1 heq
      have h5 := hab i i hi (this ▸ hi)
      omega
    have := finished_after hn hmem hok
    unfold Exceeded at h3
    omega

theorem logFiles_map {d : List Entry} {f : Entry → Entry} (hf : ∀ e, (f e).name = e.name) :
    (logFiles (d.map f)).length = (logFiles d).length := by
  rw [logFiles_eq, logFiles_eq, List.filter_map, List.length_map]
  congr 1
  refine List.filter_congr fun e _ => ?_
  simp [hf]

/-- Writing, stopping and restarting leave the number of logs alone. -/
theorem logFiles_step {lim : Limits} {s s' : LogFs} {ev : FsEv} (hev : ∀ e ext env, ev ≠ .start e ext env)
    (h : s.step lim (fun _ => true) ev = some s') :
    (logFiles s'.dir).length = (logFiles s.dir).length ∧ ∀ k m, s'.file k = some m → s.file k = some m := by
  cases ev with
  | start e ext env => exact absurd rfl (hev e ext env)
  | boot =>
    simp only [LogFs.step, Option.some.injEq] at h
    subst h
    refine ⟨logFiles_map ?_, fun k m hk => by cases hk⟩
    intro e
    split <;> rfl
  | write e f =>
    simp only [LogFs.step, Option.some.injEq] at h
    subst h
    unfold LogFs.write
    split
    · exact ⟨rfl, fun _ _ h => h⟩
    · refine ⟨logFiles_map ?_, fun _ _ h => h⟩
      intro e
      split <;> rfl
  | stop e =>
    simp only [LogFs.step, Option.some.injEq] at h
    subst h
    unfold LogFs.stop
    split
    · exact ⟨rfl, fun _ _ h => h⟩
    · refine ⟨?_, ?_⟩
      · simp only [if_true]
        refine logFiles_map ?_
        intro e
        split <;> rfl
      · intro k m hk
        simp only at hk
        split at hk
        · cases hk
        · exact hk

/-- The start of a log. -/
theorem start_count {lim : Limits} {n c : Nat} {s : LogFs} (h : CountInv n c s) (hmax : 0 < lim.maxFiles.toNat)
    (hc : c < 4294967295) {e : Nat} (he : e < n) {ext : List Char} {env : StartEnv} (hdir : env.dirOk = true)
    (hfit : ∀ x, env.rm.fits x = true) (hrm : ∀ x, env.rm.removes x = true) (hal : ∀ j, env.openEnv.others j = [])
    {f : UInt64} (hv : env.vfs = .free f) (hs : Sane lim f s.dir) (hle : (logFiles s.dir).length ≤ lim.maxFiles.toNat + n) :
    ∃ s', s.start lim ext env e = some s' ∧ (logFiles s'.dir).length ≤ lim.maxFiles.toNat + n ∧
      (∀ k m, s'.file k = some m → k < n) ∧
      (s.file e = none → (finishedLogs s'.dir).length ≤ lim.maxFiles.toNat) := by
  obtain ⟨calls, h1, h2⟩ := deleted_count h hmax hfit hrm hs
  have hsome : ∃ s', s.start lim ext env e = some s' := by
    unfold LogFs.start
    split
    · exact ⟨_, rfl⟩
    · rw [hv, hdir, h1]
      simp only
      split
      · split <;> exact ⟨_, rfl⟩
      · exact ⟨_, rfl⟩
  obtain ⟨s', hst⟩ := hsome
  refine ⟨s', hst, ?_⟩
  by_cases hfe : s.file e = none
  · have hnew : ∀ nm : List Char, (logFiles (applyRemoves calls s.dir ++ [{ name := nm }])).length ≤
        (logFiles (applyRemoves calls s.dir)).length + 1 := by
      intro nm
      rw [logFiles_eq, logFiles_eq, List.filter_append, List.length_append]
      have := List.length_filter_le (fun e : Entry => (scanLog e.name).isSome) [{ name := nm }]
      simp only [List.length_singleton] at this
      omega
    have hfin : ∀ nm : List Char, finishedLogs (applyRemoves calls s.dir ++ [{ name := nm }]) =
        finishedLogs (applyRemoves calls s.dir) := by
      intro nm
      rw [finishedLogs_eq, finishedLogs_eq, List.filter_append]
      have : candidate { name := nm } = none := by
        unfold candidate
        split <;> rfl
      simp [this]
    have hlogs := logs_le h (applyRemoves_sub calls s.dir) he hfe
    rcases start_cases h.inv hc hal hst with rfl | ⟨calls', d, h3, rfl, -, h5⟩
    · -- unchanged although no log was open: nothing was removed
      have hu : (finishedLogs s'.dir).length ≤ lim.maxFiles.toNat := by
        have hst2 := hst
        unfold LogFs.start at hst2
        rw [hfe, hv, hdir, h1] at hst2
        simp only [Option.isSome_none, Bool.false_eq_true, if_false] at hst2
        rcases getFile_alone (t := env.date) (ext := ext) (c := c) hal hc
          (fun x hx => h.inv.mine x ((applyRemoves_sub calls s'.dir).mem hx)) with hg | ⟨hg, -⟩
        · rw [hg] at hst2
          simp only [Option.some.injEq] at hst2
          rw [← hst2]
          exact h2
        · rw [hg] at hst2
          simp only at hst2
          split at hst2
          · simp only [Option.some.injEq] at hst2
            rw [← hst2]
            simp only [hfin]
            exact h2
          · simp only [Option.some.injEq] at hst2
            rw [← hst2]
            simp only [hfin]
            exact h2
      exact ⟨hle, h.below, fun _ => hu⟩
    · rw [hv, hdir, h1] at h3
      cases h3
      rcases h5 with rfl | ⟨-, ⟨rfl, -⟩ | rfl⟩
      · exact ⟨by show (logFiles (applyRemoves calls s.dir)).length ≤ _; omega, h.below, fun _ => h2⟩
      · refine ⟨?_, h.below, fun _ => by simp only [hfin]; exact h2⟩
        have := hnew (logName (getPrefix (applyRemoves calls s.dir)) env.date ext)
        simp only
        omega
      · refine ⟨?_, ?_, fun _ => by simp only [hfin]; exact h2⟩
        · have := hnew (logName (getPrefix (applyRemoves calls s.dir)) env.date ext)
          simp only
          omega
        · intro k m hk
          simp only at hk
          split at hk
          · rename_i hke; rw [hke]; exact he
          · exact h.below k m hk
  · have : s' = s := by
      unfold LogFs.start at hst
      have : (s.file e).isSome = true := by
        cases hq : s.file e with
        | none => exact absurd hq hfe
        | some _ => rfl
      rw [if_pos this] at hst
      cases hst
      rfl
    subst this
    exact ⟨hle, h.below, fun hn => absurd hn hfe⟩

theorem count_run {lim : Limits} {n : Nat} (hmax : 0 < lim.maxFiles.toNat) (evs : List FsEv) {s : LogFs} {c : Nat}
    (h : CountInv n c s) (hle : (logFiles s.dir).length ≤ lim.maxFiles.toNat + n)
    (hc : c + starts evs < 4294967295) (hw : Working lim n s evs) :
    ∃ s', s.run lim (fun _ => true) evs = some s' ∧ (logFiles s'.dir).length ≤ lim.maxFiles.toNat + n ∧
      CountInv n (c + starts evs) s' := by
  induction evs generalizing s c with
  | nil => exact ⟨s, rfl, hle, h⟩
  | cons ev evs ih =>
    rw [starts_cons] at hc
    obtain ⟨h1, h2⟩ := hw
    have key : ∃ s1, s.step lim (fun _ => true) ev = some s1 ∧ (logFiles s1.dir).length ≤ lim.maxFiles.toNat + n ∧
        (∀ k m, s1.file k = some m → k < n) ∧ Alone [ev] ∧ TimersOk [ev] := by
      cases ev with
      | start e ext env =>
        obtain ⟨he, hdir, ht, hfit, hrm, hal, f, hv, hs⟩ := h1
        obtain ⟨s1, g1, g2, g3, -⟩ := start_count (ext := ext) h hmax (by omega) he hdir hfit hrm hal hv hs hle
        refine ⟨s1, g1, g2, g3, ?_, ?_⟩
        · intro x hx
          simp only [List.mem_singleton] at hx
          subst hx
          exact hal
        · intro x hx
          simp only [List.mem_singleton] at hx
          subst hx
          exact ht
      | boot =>
        obtain ⟨g1, g2⟩ := logFiles_step (lim := lim) (s := s) (ev := .boot) (fun _ _ _ => by simp) rfl
        exact ⟨_, rfl, by omega, fun k m hk => h.below k m (g2 k m hk), by simp [Alone], by simp [TimersOk]⟩
      | write e f =>
        obtain ⟨g1, g2⟩ := logFiles_step (lim := lim) (s := s) (ev := .write e f) (fun _ _ _ => by simp) rfl
        exact ⟨_, rfl, by omega, fun k m hk => h.below k m (g2 k m hk), by simp [Alone], by simp [TimersOk]⟩
      | stop e =>
        obtain ⟨g1, g2⟩ := logFiles_step (lim := lim) (s := s) (ev := .stop e) (fun _ _ _ => by simp) rfl
        exact ⟨_, rfl, by omega, fun k m hk => h.below k m (g2 k m hk), by simp [Alone], by simp [TimersOk]⟩
    obtain ⟨s1, g1, g2, g3, g4, g5⟩ := key
    have hi := h.inv.step (by omega) g4 g1
    have ho := openOnly_step h.inv h.only (by omega) g4 g5 g1
    obtain ⟨s', k1, k2, k3⟩ := ih ⟨hi, ho, g3⟩ g2 (by omega) (h2 s1 g1)
    refine ⟨s', ?_, k2, ?_⟩
    · simp only [LogFs.run, g1]
      exact k1
    · rw [starts_cons, ← Nat.add_assoc]
      exact k3

theorem countInv_initial {d : List Entry} (hd : Foreign d) (n : Nat) :
    CountInv n 0 (initial d) ∧ logFiles (initial d).dir = [] := by
  have hf := foreign_inv hd
  refine ⟨⟨hf, ?_, fun k m hk => by cases hk⟩, ?_⟩
  · intro e he hp
    rcases hf.mine e he with hm | ⟨⟨i, t, ext, -, hc⟩, -⟩
    · exact absurd hm hp
    · omega
  · rw [logFiles_eq, List.filter_eq_nil_iff]
    intro e he hs
    rcases hf.mine e he with hm | ⟨⟨i, t, ext, -, hc⟩, -⟩
    · obtain ⟨u, hu⟩ := Option.isSome_iff_exists.1 hs
      rw [scanLog_prefix hu] at hm
      cases hm
    · omega

/-- **C127** (part): with `MaxLogFiles` set and `n` log endpoints, the directory never holds more than `MaxLogFiles + n` log files, at
any point of any history of logs started, written, stopped and cut short by crashes, as long as the system does what it is asked for;
and nothing undefined happens. Missing: at most `MaxLogFiles` files (`C127_violated`). -/
theorem C127_bounded_partial (lim : Limits) (hmax : 0 < lim.maxFiles.toNat) (n : Nat) (d : List Entry) (evs : List FsEv)
    (hd : Foreign d) (hfew : starts evs < 2 ^ 32 - 1) (hw : Working lim n (initial d) evs) :
    ∃ s, (initial d).run lim (fun _ => true) evs = some s ∧ (logFiles s.dir).length ≤ lim.maxFiles.toNat + n := by
  obtain ⟨h1, h2⟩ := countInv_initial hd n
  obtain ⟨s, g1, g2, -⟩ := count_run hmax evs h1 (by rw [h2]; exact Nat.zero_le _) (by omega) hw
  exact ⟨s, g1, g2⟩

/-- **C127** (part): right after a log was started at most `MaxLogFiles` finished logs are there besides the open ones. -/
theorem C127_started_partial (lim : Limits) (hmax : 0 < lim.maxFiles.toNat) (n : Nat) (d : List Entry) (evs : List FsEv)
    (hd : Foreign d) (hfew : starts evs < 2 ^ 32 - 1) (hw : Working lim n (initial d) evs) (s : LogFs)
    (h : (initial d).run lim (fun _ => true) evs = some s) (e : Nat) (ext : List Char) (env : StartEnv)
    (hnew : Working lim n s [.start e ext env]) (hno : s.file e = none) :
    ∃ s', s.step lim (fun _ => true) (.start e ext env) = some s' ∧
      (finishedLogs s'.dir).length ≤ lim.maxFiles.toNat := by
  obtain ⟨h1, h2⟩ := countInv_initial hd n
  obtain ⟨s1, g1, g2, g3⟩ := count_run hmax evs h1 (by rw [h2]; exact Nat.zero_le _) (by omega) hw
  rw [h] at g1
  cases g1
  obtain ⟨⟨he, hdir, ht, hfit, hrm, hal, f, hv, hs⟩, -⟩ := hnew
  obtain ⟨s', k1, -, -, k2⟩ := start_count (ext := ext) g3 hmax (by omega) he hdir hfit hrm hal hv hs g2
  exact ⟨s', k1, k2 hno⟩

namespace Sample

/-- Three logs one after the other. -/
def threeLogs : List FsEv :=
  [.start 0 "ulg".toList startEnv, .write 0 (fun l => l ++ [1, 2]), .stop 0, .start 0 "ulg".toList startEnv, .stop 0,
   .start 0 "ulg".toList startEnv, .stop 0]

end Sample

theorem working_cons {lim : Limits} {n : Nat} {s : LogFs} {ev : FsEv} {evs : List FsEv}
    (h : match ev with
      | .start e _ env => e < n ∧ env.dirOk = true ∧ env.timers = true ∧ (∀ x, env.rm.fits x = true) ∧
        (∀ x, env.rm.removes x = true) ∧ (∀ j, env.openEnv.others j = []) ∧ ∃ f, env.vfs = .free f ∧ Sane lim f s.dir
      | _ => True)
    (hs : (s.step lim (fun _ => true) ev).isSome = true)
    (hr : Working lim n ((s.step lim (fun _ => true) ev).get hs) evs) : Working lim n s (ev :: evs) := by
  refine ⟨h, fun s' h' => ?_⟩
  have : (s.step lim (fun _ => true) ev).get hs = s' := by simp [h']
  rw [← this]
  exact hr

/-- The hypotheses hold for the sample, with two logs allowed and one endpoint. -/
theorem threeLogs_working : Working ⟨0, 2⟩ 1 (initial [{ name := "readme.txt".toList }]) Sample.threeLogs := by
  have hd : ∀ {x : LogFs}, Sane ⟨0, 2⟩ 1000 x.dir →
      (0 < 1 ∧ Sample.startEnv.dirOk = true ∧ Sample.startEnv.timers = true ∧
        (∀ y, Sample.startEnv.rm.fits y = true) ∧ (∀ y, Sample.startEnv.rm.removes y = true) ∧
        (∀ j, Sample.startEnv.openEnv.others j = []) ∧ ∃ f, Sample.startEnv.vfs = .free f ∧ Sane ⟨0, 2⟩ f x.dir) :=
    fun h => ⟨by decide, rfl, rfl, fun _ => rfl, fun _ => rfl, fun _ => rfl, 1000, rfl, h⟩
  refine working_cons (hd (by unfold Sane; decide +kernel)) (by decide +kernel) ?_
  refine working_cons trivial rfl ?_
  refine working_cons trivial rfl ?_
  refine working_cons (hd (by unfold Sane; decide +kernel)) (by decide +kernel) ?_
  refine working_cons trivial rfl ?_
  refine working_cons (hd (by unfold Sane; decide +kernel)) (by decide +kernel) ?_
  refine working_cons trivial rfl ?_
  trivial

theorem threeLogs_some :
    ((initial [{ name := "readme.txt".toList }]).run ⟨0, 2⟩ (fun _ => true) Sample.threeLogs).isSome = true := by
  decide +kernel

/-- The hypotheses of `C127_started_partial` hold before the third start: no log is open, and it is the one that makes three. -/
example : ∃ s, (initial [{ name := "readme.txt".toList }]).run ⟨0, 2⟩ (fun _ => true) (Sample.threeLogs.take 5) = some s ∧
    s.file 0 = none ∧ (finishedLogs s.dir).length = 2 := by
  have h : ((initial [{ name := "readme.txt".toList }]).run ⟨0, 2⟩ (fun _ => true)
      (Sample.threeLogs.take 5)).map (fun s => (s.file 0, (s.dir.filter fun e => (candidate e).isSome).length)) =
      some (none, 2) := by decide +kernel
  obtain ⟨s, h1, h2⟩ := Option.map_eq_some_iff.1 h
  refine ⟨s, h1, ?_⟩
  rw [finishedLogs_eq]
  simpa using h2

example : ∃ s, (initial [{ name := "readme.txt".toList }]).run ⟨0, 2⟩ (fun _ => true) Sample.threeLogs = some s ∧
    (logFiles s.dir).length ≤ 2 + 1 :=
  C127_bounded_partial ⟨0, 2⟩ (by decide) 1 _ _ foreign_readme (by decide) threeLogs_working

/-- **C127 is false** of the code: old logs are removed before the new one is created. With `MaxLogFiles` 2 and one log endpoint, three
logs are in the directory after the third start, and three finished ones after the third log was stopped. -/
theorem C127_violated :
    ∃ s, (initial [{ name := "readme.txt".toList }]).run ⟨0, 2⟩ (fun _ => true) Sample.threeLogs = some s ∧
      (logFiles s.dir).length = 3 ∧ (finishedLogs s.dir).length = 3 := by
  refine ⟨_, (Option.some_get threeLogs_some).symm, ?_, ?_⟩
  · rw [logFiles_eq]
    decide +kernel
  · rw [finishedLogs_eq]
    decide +kernel

end Verif
