/- Invariant of the log directory over histories of starts, writes, stops and reboots. -/
import Verif.Props.LogDir

namespace Verif

open Spec (LogPattern Finished finishedLogs DistinctIndices starts Alone TimersOk)

/-- Different names, and different numbers if both have one. -/
def Apart (a b : Entry) : Prop :=
  a.name ≠ b.name ∧ ∀ u, scanPrefix a.name = some u → scanPrefix b.name ≠ some u

/-- A log of the router with a number below `c`, or a file whose name has no number. -/
def Mine (c : Nat) (e : Entry) : Prop :=
  scanPrefix e.name = none ∨
    (∃ i t ext, e.name = logName i t ext ∧ i.toNat < c) ∧ e.stat = true ∧ e.kind = .reg

/-- The invariant; `c` bounds the numbers in use. -/
structure FsInv (c : Nat) (s : LogFs) : Prop where
  mine : ∀ e ∈ s.dir, Mine c e
  apart : s.dir.Pairwise Apart
  opened : ∀ k n, s.file k = some n →
    ∃ e ∈ s.dir, e.name = n ∧ e.ownerW = true ∧ scanPrefix e.name ≠ none
  excl : ∀ k k' n, s.file k = some n → s.file k' = some n → k = k'

theorem Mine.mono {c c' : Nat} {e : Entry} (h : Mine c e) (hc : c ≤ c') : Mine c' e := by
  rcases h with h | ⟨⟨i, t, ext, h1, h2⟩, h3⟩
  · exact .inl h
  · exact .inr ⟨⟨i, t, ext, h1, by omega⟩, h3⟩

theorem Mine.number {c : Nat} {e : Entry} (h : Mine c e) :
    ∀ u, scanPrefix e.name = some u → u.toNat < c := by
  intro u hu
  rcases h with h | ⟨⟨i, t, ext, h1, h2⟩, -⟩
  · rw [h] at hu; cases hu
  · rw [h1, scanPrefix_logName] at hu
    cases hu
    exact h2

theorem FsInv.mono {c c' : Nat} {s : LogFs} (h : FsInv c s) (hc : c ≤ c') : FsInv c' s :=
  ⟨fun e he => (h.mine e he).mono hc, h.apart, h.opened, h.excl⟩

/-- Maps that keep names, type and readability. -/
theorem map_apart {d : List Entry} {f : Entry → Entry} (hf : ∀ e, (f e).name = e.name)
    (h : d.Pairwise Apart) : (d.map f).Pairwise Apart := by
  rw [List.pairwise_map]
  refine h.imp ?_
  intro a b hab
  unfold Apart at hab ⊢
  rw [hf, hf]
  exact hab

theorem map_mine {c : Nat} {d : List Entry} {f : Entry → Entry} (hf : ∀ e, (f e).name = e.name)
    (hs : ∀ e, (f e).stat = e.stat) (hk : ∀ e, (f e).kind = e.kind) (h : ∀ e ∈ d, Mine c e) :
    ∀ e ∈ d.map f, Mine c e := by
  intro e he
  rw [List.mem_map] at he
  obtain ⟨x, hx, rfl⟩ := he
  have := h x hx
  unfold Mine at this ⊢
  rw [hf, hs, hk]
  exact this

theorem apart_unique {d : List Entry} (h : d.Pairwise Apart) :
    ∀ a ∈ d, ∀ b ∈ d, a.name = b.name → a = b := by
  induction d with
  | nil => intro a ha; cases ha
  | cons x d ih =>
    rw [List.pairwise_cons] at h
    intro a ha b hb hab
    simp only [List.mem_cons] at ha hb
    rcases ha with rfl | ha <;> rcases hb with rfl | hb
    · rfl
    · exact absurd hab (h.1 b hb).1
    · exact absurd hab.symm (h.1 a ha).1
    · exact ih h.2 a ha b hb hab

theorem apart_distinct {d : List Entry} (h : d.Pairwise Apart) : DistinctIndices d := by
  refine h.imp ?_
  intro a b hab i ha hb
  exact hab.2 _ (scanLog_prefix (scan_of_pattern ha.1).1) (scanLog_prefix (scan_of_pattern hb.1).1)

/-- Creating a file when alone: nothing, or one new file with the next number. -/
theorem getFile_alone {env : OpenEnv} {t : Date} {ext : List Char} {d : List Entry} {c : Nat}
    (hothers : ∀ j, env.others j = []) (hc : c < 4294967295) (h : ∀ e ∈ d, Mine c e) :
    (getFile env t ext d = (d, none)) ∨
      (getFile env t ext d = (d ++ [{ name := logName (getPrefix d) t ext }],
        some (logName (getPrefix d) t ext)) ∧
       ∀ e ∈ d, ∀ u, scanPrefix e.name = some u → u < getPrefix d) := by
  have hlt : ∀ e ∈ d, ∀ u, scanPrefix e.name = some u → u < getPrefix d := by
    intro e he u hu
    refine getPrefix_gt he hu ?_
    have := (h e he).number u hu
    rw [UInt32.lt_iff_toNat_lt]
    exact Nat.lt_trans this hc
  have e0 : getPrefix d + UInt32.ofNat 0 = getPrefix d := by simp
  unfold getFile
  generalize maxRetries = n
  rw [tryOpen.eq_def]
  simp only [e0, hothers, List.append_nil]
  split
  · exact .inl rfl
  · split
    · exact .inl rfl
    · rw [if_neg]
      · exact .inr ⟨rfl, hlt⟩
      · intro hc
        rw [List.any_eq_true] at hc
        obtain ⟨e, he, hen⟩ := hc
        have hen' : e.name = logName (getPrefix d) t ext := by simpa using hen
        have := hlt e he (getPrefix d) (by rw [hen', scanPrefix_logName])
        exact absurd this (UInt32.lt_irrefl _)

theorem applyRemoves_sub (calls : List (Entry × Bool)) (d : List Entry) :
    (applyRemoves calls d).Sublist d := List.filter_sublist

/-- What `start` does in a well formed directory. -/
theorem start_cases {lim : Limits} {ext : List Char} {env : StartEnv} {e : Nat} {s s' : LogFs}
    {c : Nat} (hi : FsInv c s) (hc : c < 4294967295)
    (hal : ∀ j, env.openEnv.others j = []) (h : s.start lim ext env e = some s') :
    s' = s ∨ ∃ calls d, deleteCalls lim env.vfs env.dirOk env.rm s.dir = some calls ∧
      d = applyRemoves calls s.dir ∧ s.file e = none ∧
      (s' = { s with dir := d } ∨
       ((∀ x ∈ d, ∀ u, scanPrefix x.name = some u → u < getPrefix d) ∧
        (s' = { s with dir := d ++ [{ name := logName (getPrefix d) env.date ext }] } ∧
            env.timers = false ∨
         s' = { dir := d ++ [{ name := logName (getPrefix d) env.date ext }]
                file := fun k => if k = e then some (logName (getPrefix d) env.date ext)
                  else s.file k }))) := by
  unfold LogFs.start at h
  split at h
  · simp only [Option.some.injEq] at h
    exact .inl h.symm
  · rename_i hno
    have hnone : s.file e = none := by
      cases hq : s.file e with
      | none => rfl
      | some x => rw [hq] at hno; simp at hno
    cases hd : deleteCalls lim env.vfs env.dirOk env.rm s.dir with
    | none => rw [hd] at h; cases h
    | some calls =>
      rw [hd] at h
      simp only at h
      right
      refine ⟨calls, _, rfl, rfl, hnone, ?_⟩
      have hm : ∀ x ∈ applyRemoves calls s.dir, Mine c x := fun x hx =>
        hi.mine x ((applyRemoves_sub calls s.dir).mem hx)
      rcases getFile_alone (t := env.date) (ext := ext) hal hc hm with hg | ⟨hg, hlt⟩
      · rw [hg] at h
        simp only [Option.some.injEq] at h
        exact .inl h.symm
      · rw [hg] at h
        simp only at h
        right
        refine ⟨hlt, ?_⟩
        split at h
        · simp only [Option.some.injEq] at h
          exact .inr h.symm
        · rename_i ht
          simp only [Option.some.injEq] at h
          exact .inl ⟨h.symm, by simpa using ht⟩

theorem FsInv.step {lim : Limits} {fits : List Char → Bool} {s s' : LogFs} {ev : FsEv} {c : Nat}
    (hi : FsInv c s) (hc : c < 4294967295) (hal : Alone [ev])
    (h : s.step lim fits ev = some s') : FsInv (c + starts [ev]) s' := by
  cases ev with
  | boot =>
    simp only [LogFs.step, Option.some.injEq] at h
    subst h
    have e1 : ∀ e : Entry, (if (scanPrefix e.name).isSome && fits e.name && e.stat &&
        (e.kind == .reg) && e.ownerW then { e with ownerW := false } else e).name = e.name := by
      intro e; split <;> rfl
    have e2 : ∀ e : Entry, (if (scanPrefix e.name).isSome && fits e.name && e.stat &&
        (e.kind == .reg) && e.ownerW then { e with ownerW := false } else e).stat = e.stat := by
      intro e; split <;> rfl
    have e3 : ∀ e : Entry, (if (scanPrefix e.name).isSome && fits e.name && e.stat &&
        (e.kind == .reg) && e.ownerW then { e with ownerW := false } else e).kind = e.kind := by
      intro e; split <;> rfl
    refine ⟨map_mine e1 e2 e3 hi.mine, map_apart e1 hi.apart, ?_, ?_⟩
    · intro k n hk; cases hk
    · intro k k' n hk; cases hk
  | write e f =>
    simp only [LogFs.step, Option.some.injEq] at h
    subst h
    unfold LogFs.write
    cases hf : s.file e with
    | none => exact hi
    | some name =>
      simp only
      have e1 : ∀ x : Entry, (if x.name = name then { x with data := f x.data } else x).name
          = x.name := by intro x; split <;> rfl
      have e2 : ∀ x : Entry, (if x.name = name then { x with data := f x.data } else x).stat
          = x.stat := by intro x; split <;> rfl
      have e3 : ∀ x : Entry, (if x.name = name then { x with data := f x.data } else x).kind
          = x.kind := by intro x; split <;> rfl
      have e4 : ∀ x : Entry, (if x.name = name then { x with data := f x.data } else x).ownerW
          = x.ownerW := by intro x; split <;> rfl
      refine ⟨map_mine e1 e2 e3 hi.mine, map_apart e1 hi.apart, ?_, hi.excl⟩
      intro k n hk
      obtain ⟨x, hx, h1, h2, h3⟩ := hi.opened k n hk
      exact ⟨_, List.mem_map.2 ⟨x, hx, rfl⟩, by rw [e1]; exact h1, by rw [e4]; exact h2,
        by rw [e1]; exact h3⟩
  | stop e =>
    simp only [LogFs.step, Option.some.injEq] at h
    subst h
    unfold LogFs.stop
    cases hf : s.file e with
    | none => exact hi
    | some name =>
      simp only
      have hother : ∀ k n, (if k = e then none else s.file k) = some n →
          s.file k = some n ∧ k ≠ e := by
        intro k n hk
        split at hk
        · cases hk
        · rename_i hke
          exact ⟨hk, hke⟩
      have hexcl : ∀ k k' n, (if k = e then none else s.file k) = some n →
          (if k' = e then none else s.file k') = some n → k = k' := by
        intro k k' n hk hk'
        exact hi.excl k k' n (hother k n hk).1 (hother k' n hk').1
      by_cases hfit : fits name = true
      · rw [if_pos hfit]
        have e1 : ∀ x : Entry, (if x.name = name then { x with ownerW := false } else x).name
            = x.name := by intro x; split <;> rfl
        have e2 : ∀ x : Entry, (if x.name = name then { x with ownerW := false } else x).stat
            = x.stat := by intro x; split <;> rfl
        have e3 : ∀ x : Entry, (if x.name = name then { x with ownerW := false } else x).kind
            = x.kind := by intro x; split <;> rfl
        refine ⟨map_mine e1 e2 e3 hi.mine, map_apart e1 hi.apart, ?_, hexcl⟩
        intro k n hk
        obtain ⟨hk1, hk2⟩ := hother k n hk
        obtain ⟨x, hx, h1, h2, h3⟩ := hi.opened k n hk1
        have hne : x.name ≠ name := by
          intro hc
          rw [h1] at hc
          subst hc
          exact hk2 (hi.excl k e n hk1 hf)
        exact ⟨x, List.mem_map.2 ⟨x, hx, by rw [if_neg hne]⟩, h1, h2, h3⟩
      · rw [if_neg hfit]
        exact ⟨hi.mine, hi.apart, fun k n hk => hi.opened k n (hother k n hk).1, hexcl⟩
  | start e ext env =>
    have hal' : ∀ j, env.openEnv.others j = [] := by
      have := hal (.start e ext env) (by simp)
      simpa using this
    have hst : starts [FsEv.start e ext env] = 1 := rfl
    rw [hst]
    rcases start_cases hi hc hal' h with rfl | ⟨calls, d, hdel, hd, hnone, hs'⟩
    · exact hi.mono (by omega)
    · have hsub := applyRemoves_sub calls s.dir
      rw [← hd] at hsub
      have hm : ∀ x ∈ d, Mine c x := fun x hx => hi.mine x (hsub.mem hx)
      have hap : d.Pairwise Apart := hi.apart.sublist hsub
      have huniq : s.dir.Pairwise fun a b => a.name ≠ b.name := hi.apart.imp fun h => h.1
      have hop : ∀ k n, s.file k = some n →
          ∃ x ∈ d, x.name = n ∧ x.ownerW = true ∧ scanPrefix x.name ≠ none := by
        intro k n hk
        obtain ⟨x, hx, h1, h2, h3⟩ := hi.opened k n hk
        refine ⟨x, ?_, h1, h2, h3⟩
        rw [hd]
        exact C38_rest_kept lim env.vfs env.dirOk env.rm s.dir calls huniq hdel x hx (.inl h2)
      rcases hs' with rfl | ⟨hlt, hs'⟩
      · exact FsInv.mono ⟨hm, hap, hop, hi.excl⟩ (by omega)
      · have hple : (getPrefix d).toNat ≤ c := getPrefix_le fun x hx => (hm x hx).number
        have hap' : (d ++ [({ name := logName (getPrefix d) env.date ext } : Entry)]).Pairwise Apart := by
          rw [List.pairwise_append]
          refine ⟨hap, List.pairwise_singleton _ _, ?_⟩
          intro a ha b hb
          simp only [List.mem_singleton] at hb
          subst hb
          constructor
          · intro hc
            have := hlt a ha (getPrefix d) (by rw [hc]; exact scanPrefix_logName _ _ _)
            exact UInt32.lt_irrefl _ this
          · intro u hu hu'
            rw [scanPrefix_logName] at hu'
            cases hu'
            exact UInt32.lt_irrefl _ (hlt a ha _ hu)
        have hm' : ∀ x ∈ d ++ [({ name := logName (getPrefix d) env.date ext } : Entry)],
            Mine (c + 1) x := by
          intro x hx
          rw [List.mem_append] at hx
          rcases hx with hx | hx
          · exact (hm x hx).mono (by omega)
          · simp only [List.mem_singleton] at hx
            subst hx
            exact .inr ⟨⟨_, _, _, rfl, by omega⟩, rfl, rfl⟩
        have hop' : ∀ k n, s.file k = some n →
            ∃ x ∈ d ++ [({ name := logName (getPrefix d) env.date ext } : Entry)],
              x.name = n ∧ x.ownerW = true ∧ scanPrefix x.name ≠ none := by
          intro k n hk
          obtain ⟨x, hx, hr⟩ := hop k n hk
          exact ⟨x, by simp [hx], hr⟩
        rcases hs' with ⟨rfl, -⟩ | rfl
        · exact ⟨hm', hap', hop', hi.excl⟩
        · refine ⟨hm', hap', ?_, ?_⟩
          · intro k n hk
            simp only at hk
            split at hk
            · cases hk
              refine ⟨{ name := logName (getPrefix d) env.date ext }, by simp, rfl, rfl, ?_⟩
              rw [scanPrefix_logName]
              simp
            · exact hop' k n hk
          · -- a file already open has a smaller number
            have hnew : ∀ k n, s.file k = some n → n ≠ logName (getPrefix d) env.date ext := by
              intro k n hk hc
              obtain ⟨x, hx, hxn, -⟩ := hop k n hk
              have := hlt x hx (getPrefix d) (by rw [hxn, hc]; exact scanPrefix_logName _ _ _)
              exact UInt32.lt_irrefl _ this
            intro k k' n hk hk'
            simp only at hk hk'
            split at hk <;> split at hk'
            · rename_i h1 h2
              rw [h1, h2]
            · cases hk
              exact absurd rfl (hnew k' _ hk')
            · cases hk'
              exact absurd rfl (hnew k _ hk)
            · exact hi.excl k k' n hk hk'

theorem starts_cons (ev : FsEv) (evs : List FsEv) :
    starts (ev :: evs) = starts [ev] + starts evs := by
  unfold starts
  rw [show ev :: evs = [ev] ++ evs from rfl, List.filter_append, List.length_append]

theorem FsInv.run {lim : Limits} {fits : List Char → Bool} (evs : List FsEv) {s s' : LogFs}
    {c : Nat} (hi : FsInv c s) (hc : c + starts evs < 4294967295) (hal : Alone evs)
    (h : s.run lim fits evs = some s') : FsInv (c + starts evs) s' := by
  induction evs generalizing s c with
  | nil =>
    simp only [LogFs.run, Option.some.injEq] at h
    subst h
    exact hi.mono (by omega)
  | cons ev evs ih =>
    rw [starts_cons] at hc ⊢
    simp only [LogFs.run] at h
    split at h
    · cases h
    · rename_i s1 h1
      have hi1 := hi.step (by omega) (fun x hx => hal x (by simp at hx; simp [hx])) h1
      have := ih hi1 (by omega) (fun x hx => hal x (by simp [hx])) h
      rw [← Nat.add_assoc]
      exact this

end Verif
