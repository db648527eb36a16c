/-
Log directory properties C36 - C41 for every directory content.  The properties of whole
histories of the log directory are in Verif.Props.LogHist.
-/
import Verif.Lemmas.LogDir

namespace Verif

open Spec (value Digit Space Numbered NumText LogPattern Finished finishedLogs DistinctIndices
  freed removed Exceeded Sane)

namespace Sample

/-- 2024-03-09 07:05:01. -/
def date : Date := ⟨2024, 3, 9, 7, 5, 1⟩

/-- A quiet system: no other process, no failure. -/
def quiet : OpenEnv := ⟨fun _ => [], fun _ => false⟩

/-- Removals work. -/
def rmOk : RmEnv := ⟨fun _ => true, fun _ => true⟩

/-- A finished log of 10 bytes with the given number. -/
def oldLog (i : UInt32) : Entry :=
  { name := logName i date "ulg".toList, ownerW := false, data := List.replicate 10 0 }

/-- A directory with three finished logs out of order, a log in progress, a foreign file. -/
def logDir : List Entry :=
  [oldLog 7, { name := "readme.txt".toList }, oldLog 3,
   { name := logName 8 date "bin".toList, data := [1, 2] }, oldLog 5]

end Sample

/-! ## C36: new log files -/

/-- C36. Whatever the directory contains, whatever other processes create meanwhile and
whichever `openat` calls fail: if a log file is created then it is a new entry with a name no
other entry has, and every entry that was there before is left exactly as it was. -/
theorem C36_never_overwrites (env : OpenEnv) (t : Date) (ext : List Char) (d d' : List Entry)
    (r : Option (List Char)) (h : getFile env t ext d = (d', r)) :
    ∃ extra, (∀ e ∈ extra, ∃ k, e ∈ env.others k) ∧
      match r with
      | some name => d' = d ++ extra ++ [{ name := name }] ∧ ∀ e ∈ d ++ extra, e.name ≠ name
      | none => d' = d ++ extra := by
  cases r with
  | some name =>
    obtain ⟨extra, h1, h2, -, h4⟩ := tryOpen_some _ _ _ h
    exact ⟨extra, h4, h1, h2⟩
  | none =>
    obtain ⟨extra, h1, h4⟩ := tryOpen_none _ _ _ h
    exact ⟨extra, h4, h1⟩

/-- The fields of a date as the calendar has them, with a year of four digits. -/
def Date.Ok (t : Date) : Prop :=
  0 ≤ t.year ∧ t.year < 10000 ∧ t.mon < 100 ∧ t.day < 100 ∧ t.hour < 100 ∧ t.min < 100 ∧
    t.sec < 100

theorem decimal_length (k n : Nat) (h : n < 10 ^ (k + 1)) : (decimal n).length ≤ k + 1 := by
  induction k generalizing n with
  | zero =>
    rw [decimal, if_pos (by simpa using h)]
    simp
  | succ k ih =>
    rw [decimal]
    split
    · simp
    · have : n / 10 < 10 ^ (k + 1) := by
        rw [Nat.pow_succ] at h
        omega
      have := ih _ this
      simp
      omega

theorem padded_length (w k n : Nat) (h : n < 10 ^ (k + 1)) (hw : w ≤ k + 1) :
    (padded w n).length ≤ k + 1 := by
  have := decimal_length k n h
  simp only [padded, List.length_append, List.length_replicate]
  omega

theorem logName_length {t : Date} (ht : t.Ok) (i : UInt32) (ext : List Char) :
    (logName i t ext).length ≤ 31 + ext.length := by
  obtain ⟨y0, y1, h1, h2, h3, h4, h5⟩ := ht
  have hi := i.toNat_lt
  have a1 := padded_length 5 9 i.toNat (by omega) (by omega)
  have a2 := padded_length 2 1 t.mon (by omega) (by omega)
  have a3 := padded_length 2 1 t.day (by omega) (by omega)
  have a4 := padded_length 2 1 t.hour (by omega) (by omega)
  have a5 := padded_length 2 1 t.min (by omega) (by omega)
  have a6 := padded_length 2 1 t.sec (by omega) (by omega)
  have a7 : (decimalI t.year).length ≤ 4 := by
    unfold decimalI
    rw [if_neg (by omega)]
    exact decimal_length 3 _ (by omega)
  simp only [logName, List.length_append, List.length_cons]
  omega

/-- C36. Without other creators and if the directory contains no number above 2^32-2, the new
log file is created at the first attempt and its number is strictly larger than the number of
every file in the directory. -/
theorem C36_larger (env : OpenEnv) (t : Date) (ext : List Char) (d : List Entry)
    (ht : t.Ok) (hext : ext.length ≤ 30) (hothers : ∀ j, env.others j = [])
    (hok : env.fails 0 = false)
    (hnum : ∀ e ∈ d, ∀ n, Numbered e.name n → n < 2 ^ 32 - 1) :
    ∃ name m, getFile env t ext d = (d ++ [{ name := name }], some name) ∧ Numbered name m ∧
      ∀ e ∈ d, ∀ n, Numbered e.name n → n < m := by
  have hlt : ∀ e ∈ d, ∀ n, Numbered e.name n → n < (getPrefix d).toNat := by
    intro e he n hn
    have h1 := hnum e he n hn
    have h2 := scanPrefix_numbered hn (by omega)
    have h4 : n < 4294967296 := by omega
    have h3 : (UInt32.ofNat n).toNat = n := by
      rw [UInt32.toNat_ofNat']
      exact Nat.mod_eq_of_lt h4
    have := getPrefix_gt he h2 (by rw [UInt32.lt_iff_toNat_lt, h3]; exact h1)
    rw [UInt32.lt_iff_toNat_lt, h3] at this
    exact this
  refine ⟨logName (getPrefix d) t ext, (getPrefix d).toNat, ?_, numbered_logName _ _ _, hlt⟩
  have hlen := logName_length ht (getPrefix d) ext
  unfold getFile
  have e0 : getPrefix d + UInt32.ofNat 0 = getPrefix d := by simp
  simp only [maxRetries, tryOpen, e0, hothers, List.append_nil, hok]
  rw [if_neg (by unfold filenameSize; omega)]
  simp only [Bool.false_eq_true, if_false]
  rw [if_neg]
  intro hc
  rw [List.any_eq_true] at hc
  obtain ⟨e, he, hen⟩ := hc
  have hen' : e.name = logName (getPrefix d) t ext := by simpa using hen
  have := hlt e he _ (by rw [hen']; exact numbered_logName _ _ _)
  omega

/-- C36 for successive logs: a log started while an older log of the router is in the directory
gets a larger number, whatever else is there. -/
theorem C36_after (env : OpenEnv) (t t0 : Date) (ext ext0 : List Char) (i : UInt32)
    (d d' : List Entry) (name : List Char)
    (hi : i < 4294967295) (hin : ∃ e ∈ d, e.name = logName i t0 ext0)
    (hfew : (getPrefix d).toNat + 10 < 2 ^ 32)
    (h : getFile env t ext d = (d', some name)) :
    ∃ m, Numbered name m ∧ i.toNat < m := by
  obtain ⟨e, he, hen⟩ := hin
  have hlt := getPrefix_gt he (by rw [hen]; exact scanPrefix_logName i t0 ext0) hi
  rw [UInt32.lt_iff_toNat_lt] at hlt
  -- the attempt number is at most 10
  have key : ∀ (p : UInt32) (n j : Nat) (d d' : List Entry), n + j ≤ 11 →
      tryOpen env p t ext n j d = (d', some name) →
      ∃ k, k ≤ 10 ∧ name = logName (p + UInt32.ofNat k) t ext := by
    intro p n
    induction n with
    | zero => intro j d d' _ h; simp [tryOpen] at h
    | succ n ih =>
      intro j d d' hj h
      simp only [tryOpen] at h
      split at h
      · simp at h
      · split at h
        · simp at h
        · split at h
          · exact ih (j + 1) _ _ (by omega) h
          · simp only [Prod.mk.injEq, Option.some.injEq] at h
            exact ⟨j, by omega, h.2.symm⟩
  obtain ⟨k, hk, hname⟩ := key (getPrefix d) 11 0 d d' (by omega) h
  refine ⟨_, by rw [hname]; exact numbered_logName _ _ _, ?_⟩
  have hk' : k % 4294967296 = k := Nat.mod_eq_of_lt (by omega)
  rw [UInt32.toNat_add, UInt32.toNat_ofNat']
  omega

/-- C36 is not vacuous: in the sample directory the next log gets number 9. -/
example : getFile Sample.quiet Sample.date "ulg".toList Sample.logDir =
    (Sample.logDir ++ [{ name := "00009-2024-03-09_07-05-01.ulg".toList }],
      some "00009-2024-03-09_07-05-01.ulg".toList) := by decide +kernel

example : Sample.date.Ok := by unfold Date.Ok; decide

example : ∀ e ∈ Sample.logDir, ∀ n, Numbered e.name n → n < 2 ^ 32 - 1 := by
  intro e he n hn
  obtain ⟨ds, rest, hname, hne, hd, hr, rfl⟩ := hn
  have h5 : ∀ e ∈ Sample.logDir, decVal (e.name.takeWhile isDig) ≤ 8 := by decide +kernel
  have h6 := h5 e he
  rw [hname, (takeWhile_digits (fun c hc => (isDig_iff c).2 (hd c hc)) ((stops_iff _).2 hr)).1,
    decVal_eq_value] at h6
  omega

/-- Beyond 2^32-2 the number restarts at 0: with the two largest numbers present (the second with
the current time stamp) the next log is number 0. -/
theorem C36_wrap_witness :
    (getFile Sample.quiet Sample.date "ulg".toList
      [Sample.oldLog 4294967294, Sample.oldLog 4294967295]).2 =
    some "00000-2024-03-09_07-05-01.ulg".toList := by decide +kernel

/-! ## C37: names are recognised -/

/-- C37. Every name the router generates matches the pattern of the automatic deletion, with the
same index; once the file is marked finished the deletion takes it into account under that
index.  This holds for every index, every date and every extension. -/
theorem C37_recognised (i : UInt32) (t : Date) (ext : List Char) :
    LogPattern (logName i t ext) i.toNat ∧
      ∀ e : Entry, e.name = logName i t ext → e.stat = true → e.kind = .reg →
        e.ownerW = false → candidate e = some i.toNat := by
  have hp := pattern_of_scan (scanLog_logName i t ext)
  refine ⟨hp, fun e hn hs hk hw => (candidate_iff e _).2 ⟨by rw [hn]; exact hp, hs, ?_, hw⟩⟩
  rw [hk]
  decide

/-- C37. Two names with different indices are different, and the index can be read back. -/
theorem C37_injective (i j : UInt32) (t u : Date) (ext ext' : List Char)
    (h : logName i t ext = logName j u ext') : i = j := by
  have h1 := scanPrefix_logName i t ext
  rw [h, scanPrefix_logName] at h1
  exact (Option.some.inj h1).symm

example : logName 42 Sample.date "bin".toList = "00042-2024-03-09_07-05-01.bin".toList := by
  decide +kernel

example : candidate (Sample.oldLog 4294967295) = some 4294967295 := by decide +kernel

/-! ## C38: only finished logs are removed -/

/-- C38. Every file the automatic deletion tries to remove is a file of the log directory with a
log name, is not a directory and is not writable by its owner; for every directory content,
configuration and reading of the free space. -/
theorem C38_only_finished (lim : Limits) (vfs : VfsRes) (dirOk : Bool) (env : RmEnv)
    (d : List Entry) (calls : List (Entry × Bool))
    (h : deleteCalls lim vfs dirOk env d = some calls) (c : Entry × Bool) (hc : c ∈ calls) :
    c.1 ∈ d ∧ (∃ i, LogPattern c.1.name i) ∧ c.1.stat = true ∧ c.1.kind ≠ .dir ∧
      c.1.ownerW = false := by
  obtain ⟨h1, i, h2⟩ := deleteCalls_mem h c hc
  exact ⟨h1, ⟨i, h2.1⟩, h2.2⟩

/-- C38. In a directory (where names are unique) everything else is still there afterwards. -/
theorem C38_rest_kept (lim : Limits) (vfs : VfsRes) (dirOk : Bool) (env : RmEnv)
    (d : List Entry) (calls : List (Entry × Bool)) (hu : d.Pairwise fun a b => a.name ≠ b.name)
    (h : deleteCalls lim vfs dirOk env d = some calls) (e : Entry) (he : e ∈ d)
    (hk : e.ownerW = true ∨ e.kind = .dir ∨ ¬∃ i, LogPattern e.name i) :
    e ∈ applyRemoves calls d := by
  have uniq : ∀ a ∈ d, ∀ b ∈ d, a.name = b.name → a = b := by
    clear h he hk
    induction d with
    | nil => intro a ha; cases ha
    | cons x d ih =>
      rw [List.pairwise_cons] at hu
      intro a ha b hb hab
      simp only [List.mem_cons] at ha hb
      rcases ha with rfl | ha <;> rcases hb with rfl | hb
      · rfl
      · exact absurd hab (hu.1 b hb)
      · exact absurd hab.symm (hu.1 a ha)
      · exact ih hu.2 a ha b hb hab
  unfold applyRemoves
  rw [List.mem_filter]
  refine ⟨he, ?_⟩
  rw [Bool.not_eq_true']
  cases hq : calls.any fun c => c.2 && c.1.name == e.name with
  | false => rfl
  | true =>
    rw [List.any_eq_true] at hq
    obtain ⟨c, hc, hcn⟩ := hq
    simp only [Bool.and_eq_true, beq_iff_eq] at hcn
    obtain ⟨h1, ⟨i, h2⟩, h3, h4, h5⟩ := C38_only_finished lim vfs dirOk env d calls h c hc
    have := uniq _ h1 _ he hcn.2
    rw [this] at h2 h4 h5
    rcases hk with hk | hk | hk
    · rw [hk] at h5; cases h5
    · exact absurd hk h4
    · exact absurd ⟨i, h2⟩ hk

/-- The sample directory, at most one log allowed: numbers 3 and 5 are removed, in this order. -/
example : deleteCalls ⟨0, 1⟩ (.free 1000) true Sample.rmOk Sample.logDir =
    some [(Sample.oldLog 3, true), (Sample.oldLog 5, true)] := by decide +kernel

/-! ## C39: oldest first and no more than needed -/

/-- C39, order. With sane numbers the removals are attempted in strictly increasing index
order and no finished log is skipped: a finished log with a smaller index than one whose removal
is attempted has been attempted before it, unless its path is too long (or it shares its index
with another file). -/
theorem C39_order_partial (lim : Limits) (free : UInt64) (env : RmEnv) (d : List Entry)
    (hs : Sane lim free d) :
    ∃ calls, deleteCalls lim (.free free) true env d = some calls ∧
      (calls.Pairwise fun a b => ∀ i j, Finished a.1 i → Finished b.1 j → i < j) ∧
      ∀ c ∈ calls, ∀ i, Finished c.1 i →
        ∀ e ∈ d, ∀ j, Finished e j → j < i → DistinctIndices d → env.fits e.name = true →
          ∃ ok, (e, ok) ∈ calls := by
  obtain ⟨F, hF, -⟩ := deleteCalls_sane (env := env) hs
  refine ⟨_, hF, ?_, ?_⟩
  all_goals
    obtain ⟨k, h1, -, -⟩ :=
      idealLoop_prefix (env := env) (gather d) ((lim.minFree.toNat : Int) - free.toNat) F
    generalize idealLoop env (gather d) ((lim.minFree.toNat : Int) - free.toNat) F = calls at h1
    have hsort := gather_sorted d
    have hfin : ∀ x ∈ gather d, Finished x.2 x.1 := fun x hx => (gather_mem hx).2
  · have hm : (calls.map (·.1)).Pairwise fun a b => ∀ i j, Finished a i → Finished b j → i < j := by
      rw [h1]
      apply List.Pairwise.filter
      rw [List.pairwise_map]
      have hst : ((gather d).take k).Pairwise fun a b => a.1 < b.1 := hsort.take
      refine hst.imp_of_mem ?_
      intro a b ha hb hab i j hi hj
      rw [finished_unique hi (hfin a (List.mem_of_mem_take ha)),
        finished_unique hj (hfin b (List.mem_of_mem_take hb))]
      exact hab
    rw [List.pairwise_map] at hm
    exact hm
  · intro c hc i hi e he j hj hji hdist hfits
    have hcm : c.1 ∈ calls.map (·.1) := List.mem_map.2 ⟨c, hc, rfl⟩
    rw [h1, List.mem_filter, List.mem_map] at hcm
    obtain ⟨⟨x, hx, hxc⟩, -⟩ := hcm
    -- the entry is in the map
    have hem : e ∈ (gather d).map (·.2) := by
      rw [(gather_perm hdist).mem_iff, finishedLogs_eq, List.mem_filter]
      exact ⟨he, by rw [(candidate_iff e j).2 hj]; rfl⟩
    rw [List.mem_map] at hem
    obtain ⟨y, hy, hye⟩ := hem
    have hx1 : x.1 = i := by
      refine finished_unique ?_ hi
      rw [← hxc]
      exact hfin x (List.mem_of_mem_take hx)
    have hy1 : y.1 = j := by
      refine finished_unique ?_ hj
      rw [← hye]
      exact hfin y hy
    -- it comes before x, hence among the first k
    have hyk : y ∈ (gather d).take k := by
      rw [← List.take_append_drop k (gather d)] at hy hsort
      unfold Sorted at hsort
      rw [List.pairwise_append] at hsort
      rw [List.mem_append] at hy
      rcases hy with hy | hy
      · exact hy
      · have := hsort.2.2 x hx y hy
        omega
    have : e ∈ calls.map (·.1) := by
      rw [h1, List.mem_filter]
      exact ⟨List.mem_map.2 ⟨y, hyk, hye⟩, hfits⟩
    rw [List.mem_map] at this
    obtain ⟨c', hc', rfl⟩ := this
    exact ⟨c'.2, hc'⟩

/-- C39, minimality. With sane numbers and distinct indices, whenever a removal is attempted a
limit is still exceeded, counting the removals done so far. -/
theorem C39_needed_partial (lim : Limits) (free : UInt64) (env : RmEnv) (d : List Entry)
    (hs : Sane lim free d) (hdist : DistinctIndices d) :
    ∃ calls, deleteCalls lim (.free free) true env d = some calls ∧
      ∀ pre c post, calls = pre ++ c :: post →
        Exceeded lim free.toNat (finishedLogs d).length pre := by
  obtain ⟨F, hF, hFeq⟩ := deleteCalls_sane (env := env) hs
  refine ⟨_, hF, fun pre c post hsplit => ?_⟩
  have := idealLoop_needed _ _ _ hsplit
  unfold Exceeded
  rw [hFeq, gather_length hdist] at this
  split at this <;> omega

/-- C39 does not hold when measuring the free space fails: with no `MinFreeSpace` and at most 100
logs allowed, a failing `statvfs` makes the code remove a log although no limit is exceeded
(2^64-1 bytes are assumed to be free, and the difference wraps to 1 byte missing). -/
theorem C39_violated_statvfs :
    deleteCalls ⟨0, 100⟩ .fail true Sample.rmOk Sample.logDir =
      some [(Sample.oldLog 3, true)] := by
  decide +kernel

/-- The same with `MinFreeSpace` 1000: everything is removed. -/
theorem C39_violated_statvfs_all :
    deleteCalls ⟨1000, 100⟩ .fail true Sample.rmOk Sample.logDir =
      some [(Sample.oldLog 3, true), (Sample.oldLog 5, true), (Sample.oldLog 7, true)] := by
  decide +kernel

/-- C39 does not hold for very large limits: `MaxLogFiles = 2^64-1` ("keep everything") removes
every finished log. -/
theorem C39_violated_maxfiles :
    deleteCalls ⟨0, 0xFFFFFFFFFFFFFFFF⟩ (.free 1000) true Sample.rmOk Sample.logDir =
      some [(Sample.oldLog 3, true), (Sample.oldLog 5, true), (Sample.oldLog 7, true)] := by
  decide +kernel

/-- One value of `MaxLogFiles` even leads to signed overflow (undefined behaviour). -/
theorem C39_overflow_witness :
    deleteCalls ⟨2000, 0x8000000000000003⟩ (.free 1000) true Sample.rmOk Sample.logDir = none := by
  decide +kernel

/-! ## C40: quotas are reached -/

/-- C40. With sane numbers, distinct indices and paths that fit: either the removal of every
finished log was attempted, or no limit is exceeded afterwards.  If in addition every removal
succeeds, "attempted" means removed. -/
theorem C40_quotas_partial (lim : Limits) (free : UInt64) (env : RmEnv) (d : List Entry)
    (hs : Sane lim free d) (hdist : DistinctIndices d) (hfits : ∀ e ∈ d, env.fits e.name = true) :
    ∃ calls, deleteCalls lim (.free free) true env d = some calls ∧
      (∀ c ∈ calls, c.2 = env.removes c.1.name) ∧
      ((∀ e ∈ d, ∀ i, Finished e i → ∃ ok, (e, ok) ∈ calls) ∨
        ¬Exceeded lim free.toNat (finishedLogs d).length calls) := by
  obtain ⟨F, hF, hFeq⟩ := deleteCalls_sane (env := env) hs
  obtain ⟨k, h1, h2, h3⟩ :=
    idealLoop_prefix (env := env) (gather d) ((lim.minFree.toNat : Int) - free.toNat) F
  refine ⟨_, hF, h2, ?_⟩
  by_cases hk : k < (gather d).length
  · right
    have := h3 hk
    unfold Exceeded
    generalize idealLoop env (gather d) ((lim.minFree.toNat : Int) - free.toNat) F = calls at this ⊢
    rw [hFeq, gather_length hdist] at this
    split at this <;> omega
  · left
    intro e he i hi
    have hem : e ∈ (gather d).map (·.2) := by
      rw [(gather_perm hdist).mem_iff, finishedLogs_eq, List.mem_filter]
      exact ⟨he, by rw [(candidate_iff e i).2 hi]; rfl⟩
    rw [List.take_of_length_le (by omega)] at h1
    have : e ∈ (idealLoop env (gather d) ((lim.minFree.toNat : Int) - free.toNat) F).map (·.1) := by
      rw [h1, List.mem_filter]
      exact ⟨hem, hfits e he⟩
    rw [List.mem_map] at this
    obtain ⟨c, hc, rfl⟩ := this
    exact ⟨c.2, hc⟩

/-- C40 does not hold if finished logs share an index: only one of them is considered, and more
than `MaxLogFiles` logs remain. -/
theorem C40_violated :
    let d := [Sample.oldLog 1, { Sample.oldLog 1 with name := logName 1 Sample.date "bin".toList }]
    deleteCalls ⟨0, 1⟩ (.free 1000) true Sample.rmOk d = some [] ∧
      (finishedLogs d).length = 2 := by
  refine ⟨by decide +kernel, ?_⟩
  rw [finishedLogs_eq]
  decide +kernel

/-- C40 does not hold for very large `MinFreeSpace`: 2^64-1 is never freed, nor tried. -/
theorem C40_violated_minfree :
    deleteCalls ⟨0xFFFFFFFFFFFFFFFF, 0⟩ (.free 1000) true Sample.rmOk Sample.logDir =
      some [] := by decide +kernel

/-- The hypotheses of C39 and C40 hold for the sample directory. -/
example : Sane ⟨1015, 2⟩ 1000 Sample.logDir ∧ DistinctIndices Sample.logDir := by
  refine ⟨by unfold Sane; decide +kernel, ?_⟩
  have key : Sample.logDir.Pairwise fun a b => (candidate a).isNone ∨ candidate a ≠ candidate b := by
    decide +kernel
  unfold DistinctIndices
  refine key.imp ?_
  intro a b hab i ha hb
  rw [← candidate_iff] at ha hb
  rw [ha, hb] at hab
  simp at hab

/-- And the deletion has something to do there: 15 bytes are missing, so two logs go. -/
example : deleteCalls ⟨1015, 2⟩ (.free 1000) true Sample.rmOk Sample.logDir =
    some [(Sample.oldLog 3, true), (Sample.oldLog 5, true)] := by decide +kernel

/-! ## C41: unfinished logs are marked at start -/

/-- C41. After the marking no regular file with a name starting with a number (in particular no
log) is writable any more. -/
theorem C41_marks_partial (fits : List Char → Bool) (d : List Entry) (e : Entry)
    (he : e ∈ markUnfinished fits d) (hf : fits e.name = true) (hs : e.stat = true)
    (hk : e.kind = .reg) (hn : (∃ i, LogPattern e.name i) ∨ ∃ n, n < 2 ^ 32 ∧ Numbered e.name n) :
    e.ownerW = false := by
  unfold markUnfinished at he
  rw [List.mem_map] at he
  obtain ⟨x, hx, hxe⟩ := he
  have hp : (scanPrefix e.name).isSome = true := by
    rcases hn with ⟨i, hi⟩ | ⟨n, h1, h2⟩
    · rw [scanLog_prefix (scan_of_pattern hi).1]; rfl
    · rw [scanPrefix_numbered h2 h1]; rfl
  split at hxe
  · rw [← hxe]
  · rename_i hc
    subst hxe
    cases hw : x.ownerW with
    | false => rfl
    | true =>
      rw [hp, hf, hs, hk, hw] at hc
      simp at hc

/-- C41. The marking changes nothing but the write permission, and changes it only for regular
writable files whose name starts with a number. -/
theorem C41_nothing_else (fits : List Char → Bool) (d : List Entry) :
    (markUnfinished fits d).length = d.length ∧
    ∀ (k : Nat) (e : Entry), d[k]? = some e →
      (markUnfinished fits d)[k]? = some e ∨
      ((markUnfinished fits d)[k]? = some { e with ownerW := false } ∧ e.kind = .reg ∧
        ∃ w r v, e.name = w ++ r ∧ NumText w v) := by
  refine ⟨by simp [markUnfinished], fun k e hk => ?_⟩
  unfold markUnfinished
  rw [List.getElem?_map, hk, Option.map_some]
  split
  · rename_i hc
    right
    simp only [Bool.and_eq_true, beq_iff_eq] at hc
    refine ⟨rfl, hc.1.2, ?_⟩
    have hp := hc.1.1.1.1
    unfold scanPrefix at hp
    cases hq : scanU e.name with
    | none => rw [hq] at hp; cases hp
    | some x =>
      obtain ⟨u, r⟩ := x
      obtain ⟨w, h1, h2, -⟩ := numText_of_scan hq
      exact ⟨w, r, _, h1, h2⟩
  · exact .inl rfl

/-- C41, "touches no other files", does not hold: a file that is not a log but whose name starts
with a digit is made read-only. -/
theorem C41_violated :
    markUnfinished (fun _ => true) [{ name := "2024notes.txt".toList, ownerW := true }] =
      [{ name := "2024notes.txt".toList, ownerW := false }] ∧
    ¬∃ i, LogPattern "2024notes.txt".toList i := by
  refine ⟨by decide +kernel, ?_⟩
  rintro ⟨i, hi⟩
  have h1 := (scan_of_pattern hi).1
  have h2 : scanLog "2024notes.txt".toList = none := by decide +kernel
  rw [h2] at h1
  cases h1

/-- The hypotheses of `C41_marks_partial` are met: the log in progress of the sample gets
marked. -/
example : (markUnfinished (fun _ => true) Sample.logDir)[3]? =
    some { name := logName 8 Sample.date "bin".toList, ownerW := false, data := [1, 2] } := by
  decide +kernel

end Verif
