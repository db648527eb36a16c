import Verif.Spec.ConfDir
import Verif.Props.Cli
import Verif.Props.Conf

/-
C64: the configuration directory.
-/

namespace Verif
open Spec.Conf

theorem Spec.Conf.Precedes.cons {a : UInt8} {x y : List UInt8} (h : Precedes x y) : Precedes (a :: x) (a :: y) := by
  cases h with
  | start _ b => exact .start (a :: x) b
  | differ p as bs hlt => exact .differ (a :: p) as bs hlt

theorem strLe_precedes {a b : List UInt8} (h : strLe a b = true) : Precedes a b := by
  induction a generalizing b with
  | nil => exact .start [] b
  | cons x a ih =>
    cases b with
    | nil => simp [strLe] at h
    | cons y b =>
      unfold strLe at h
      split at h
      · next hlt => exact .differ [] a b (UInt8.lt_iff_toNat_lt.1 hlt)
      · split at h
        · next he => subst he; exact (ih h).cons
        · cases h

theorem strLe_total (a b : List UInt8) : strLe a b = true ∨ strLe b a = true := by
  induction a generalizing b with
  | nil => exact .inl rfl
  | cons x a ih =>
    cases b with
    | nil => exact .inr rfl
    | cons y b =>
      simp only [strLe]
      by_cases h1 : x < y
      · simp [h1]
      · by_cases h2 : x = y
        · subst h2; simpa [h1] using ih b
        · right
          have : y < x := by
            rw [UInt8.lt_iff_toNat_lt] at *
            have : x.toNat ≠ y.toNat := fun h => h2 (UInt8.toNat_inj.1 h)
            omega
          simp [this]

theorem strLe_trans {a b c : List UInt8} (h : strLe a b = true) (h' : strLe b c = true) : strLe a c = true := by
  induction a generalizing b c with
  | nil => rfl
  | cons x a ih =>
    cases b with
    | nil => simp [strLe] at h
    | cons y b =>
      cases c with
      | nil => simp [strLe] at h'
      | cons z c =>
        simp only [strLe] at h h' ⊢
        by_cases h1 : x < y
        · by_cases h2 : y < z
          · have : x < z := by rw [UInt8.lt_iff_toNat_lt] at *; omega
            simp [this]
          · by_cases h3 : y = z
            · subst h3; simp [h1]
            · simp [h2, h3] at h'
        · by_cases h3 : x = y
          · subst h3
            by_cases h2 : x < z
            · simp [h2]
            · by_cases h4 : x = z
              · subst h4
                simp only [h1, if_false, if_true] at h h' ⊢
                exact ih h h'
              · simp [h2, h4] at h'
          · simp [h1, h3] at h

theorem insertEnt_perm (p : List UInt8 × FileState) (l : List (List UInt8 × FileState)) :
    (insertEnt p l).Perm (p :: l) := by
  induction l with
  | nil => exact .refl _
  | cons q l ih =>
    unfold insertEnt
    split
    · exact .refl _
    · exact (ih.cons q).trans (.swap ..)

theorem sortEnts_perm (l : List (List UInt8 × FileState)) : (sortEnts l).Perm l := by
  induction l with
  | nil => exact .refl _
  | cons p l ih => exact (insertEnt_perm p _).trans (ih.cons p)

theorem insertEnt_sorted {p : List UInt8 × FileState} {l : List (List UInt8 × FileState)}
    (h : l.Pairwise fun a b => strLe a.1 b.1 = true) :
    (insertEnt p l).Pairwise fun a b => strLe a.1 b.1 = true := by
  induction l with
  | nil => simp [insertEnt]
  | cons q l ih =>
    obtain ⟨h1, h2⟩ := List.pairwise_cons.1 h
    unfold insertEnt
    split
    · next hle =>
      refine List.pairwise_cons.2 ⟨?_, h⟩
      intro r hr
      rcases List.mem_cons.1 hr with rfl | hr
      · exact hle
      · exact strLe_trans hle (h1 r hr)
    · next hle =>
      refine List.pairwise_cons.2 ⟨?_, ih h2⟩
      intro r hr
      rcases List.mem_cons.1 ((insertEnt_perm p l).mem_iff.1 hr) with rfl | hr
      · rcases strLe_total r.1 q.1 with h | h
        · exact absurd h hle
        · exact h
      · exact h1 r hr

theorem sortEnts_sorted (l : List (List UInt8 × FileState)) :
    (sortEnts l).Pairwise fun a b => strLe a.1 b.1 = true := by
  induction l with
  | nil => exact .nil
  | cons p l ih => exact insertEnt_sorted ih

theorem strLe_path (dir a b : List UInt8) : strLe (dir ++ 47 :: a) (dir ++ 47 :: b) = strLe a b := by
  induction dir with
  | nil => simp [strLe]
  | cons x dir ih => simpa [strLe] using ih

/-- The path of an entry. -/
def inDir (dir : List UInt8) (p : List UInt8 × FileState) : List UInt8 × FileState := (dir ++ 47 :: p.1, p.2)

theorem insertEnt_inDir (dir : List UInt8) (p : List UInt8 × FileState) (l : List (List UInt8 × FileState)) :
    insertEnt (inDir dir p) (l.map (inDir dir)) = (insertEnt p l).map (inDir dir) := by
  induction l with
  | nil => rfl
  | cons q l ih =>
    simp only [List.map_cons, insertEnt]
    rw [show strLe (inDir dir p).1 (inDir dir q).1 = strLe p.1 q.1 from strLe_path dir p.1 q.1, ih]
    split <;> rfl

theorem sortEnts_inDir (dir : List UInt8) (l : List (List UInt8 × FileState)) :
    sortEnts (l.map (inDir dir)) = (sortEnts l).map (inDir dir) := by
  induction l with
  | nil => rfl
  | cons p l ih =>
    simp only [List.map_cons, sortEnts]
    rw [ih, insertEnt_inDir]

theorem collectEnts_eq (dir : List UInt8) (i : Nat) (es : List DirEnt)
    (hp : ∀ e ∈ es, dir.length + 1 + e.name.length < 4096) :
    collectEnts dir i es =
      if i + (regularFiles es).length ≤ 128 ∨ regularFiles es = [] then .ok ((regularFiles es).map (inDir dir)) else .ub := by
  induction es generalizing i with
  | nil => simp [collectEnts, regularFiles]
  | cons e es ih =>
    have h1 := hp e (by simp)
    have h2 : ¬ (dir ++ 47 :: e.name).length ≥ 4096 := by simp; omega
    have ih := fun j => ih j fun e he => hp e (by simp [he])
    unfold collectEnts
    simp only [if_neg h2]
    cases hf : e.file with
    | none =>
      have : regularFiles (e :: es) = regularFiles es := by simp [regularFiles, hf]
      simp only [this, ih]
    | some f =>
      have : regularFiles (e :: es) = (e.name, f) :: regularFiles es := by simp [regularFiles, hf]
      simp only [this, ih]
      by_cases h3 : i ≥ 128
      · rw [if_pos h3, if_neg (by simp; omega)]
      · rw [if_neg h3]
        simp only [List.length_cons, reduceCtorEq, or_false]
        by_cases h4 : i + ((regularFiles es).length + 1) ≤ 128
        · rw [if_pos (by left; omega), if_pos h4]; rfl
        · rw [if_neg, if_neg h4]
          · rfl
          · rintro (h | h)
            · omega
            · rw [h] at h4; simp at h4; omega

theorem parseEnts_inDir (dir : List UInt8) (ss : List CfgSection) (l : List (List UInt8 × FileState)) :
    parseEnts ss (l.map (inDir dir)) = parseEnts ss l := by
  induction l generalizing ss with
  | nil => rfl
  | cons p l ih =>
    obtain ⟨n, f⟩ := p
    cases f with
    | missing => rfl
    | unreadable => rfl
    | content b => simp only [List.map_cons, inDir, parseEnts, ih]

theorem parseConf_good {ss : List CfgSection} {ds : List Decl} (h : ConfOk ss ds) (f : List UInt8) :
    (parseConf ss f).2 = true ↔ GoodFile f := by
  obtain ⟨ds', ok, h1, h2, h3, _⟩ := parseConf_reads h f
  obtain ⟨rest, hl⟩ := confLines_spec f
  constructor
  · intro hok
    refine ⟨?_, _, rest, ds', hl, h2 hok ▸ h1⟩
    rintro rfl
    simp [parseConf] at hok
  · rintro ⟨hne, ls, rest', ds'', hl', hr⟩
    rw [h3 hne]
    rw [← confLines_unique hl'] at hr
    exact (h1.unique hr).2

theorem parseEnts_spec {ss : List CfgSection} {ds : List Decl} (h : ConfOk ss ds) (l : List (List UInt8 × FileState)) :
    parseEnts ss l ≠ .ub ∧ ∀ ss', parseEnts ss l = .ok ss' ↔
      ∃ cs, Contents l cs ∧ (∀ c ∈ cs, GoodFile c) ∧ ss' = parseConfs ss cs := by
  induction l generalizing ss ds with
  | nil =>
    refine ⟨by simp [parseEnts], fun ss' => ?_⟩
    simp only [parseEnts, ConfRes.ok.injEq, Contents]
    constructor
    · rintro rfl; exact ⟨[], rfl, by simp, rfl⟩
    · rintro ⟨cs, h1, _, rfl⟩
      cases cs with
      | nil => rfl
      | cons c cs => cases h1
  | cons p l ih =>
    obtain ⟨n, f⟩ := p
    have hbad : (∀ b, f ≠ .content b) → ∀ cs, ¬ Contents ((n, f) :: l) cs := by
      intro hb cs hc
      cases cs with
      | nil => cases hc
      | cons c cs =>
        simp only [Contents, List.map_cons, List.cons.injEq] at hc
        exact hb _ hc.1
    cases f with
    | missing =>
      refine ⟨by simp [parseEnts], fun ss' => ⟨fun h => by simp [parseEnts] at h, ?_⟩⟩
      rintro ⟨cs, h1, _⟩; exact absurd h1 (hbad (by simp) cs)
    | unreadable =>
      refine ⟨by simp [parseEnts], fun ss' => ⟨fun h => by simp [parseEnts] at h, ?_⟩⟩
      rintro ⟨cs, h1, _⟩; exact absurd h1 (hbad (by simp) cs)
    | content b =>
      obtain ⟨ds', ok, _, _, _, h4⟩ := parseConf_reads h b
      have hg := parseConf_good h b
      obtain ⟨i1, i2⟩ := ih h4
      simp only [parseEnts]
      by_cases hb : (parseConf ss b).2 = true
      · rw [if_pos hb]
        refine ⟨i1, fun ss' => (i2 ss').trans ?_⟩
        constructor
        · rintro ⟨cs, h1, h2, rfl⟩
          refine ⟨b :: cs, by simp only [Contents, List.map_cons] at h1 ⊢; rw [h1], ?_, rfl⟩
          intro c hc
          rcases List.mem_cons.1 hc with rfl | hc
          · exact hg.1 hb
          · exact h2 c hc
        · rintro ⟨cs, h1, h2, rfl⟩
          cases cs with
          | nil => cases h1
          | cons c cs =>
            simp only [Contents, List.map_cons, List.cons.injEq, FileState.content.injEq] at h1
            obtain ⟨rfl, h1⟩ := h1
            exact ⟨cs, h1, fun c hc => h2 c (by simp [hc]), rfl⟩
      · rw [if_neg hb]
        refine ⟨by simp, fun ss' => ⟨fun h => by simp at h, ?_⟩⟩
        rintro ⟨cs, h1, h2, _⟩
        cases cs with
        | nil => cases h1
        | cons c cs =>
          simp only [Contents, List.map_cons, List.cons.injEq, FileState.content.injEq] at h1
          exact absurd (hg.2 (h1.1 ▸ h2 c (by simp))) hb

/-- What the main file contributes. -/
theorem main_spec (main : FileState) (ss : List CfgSection) :
    readMain main = .ok ss ↔ ∃ ms, MainContent main ms ∧ (∀ c ∈ ms, GoodFile c) ∧ ss = parseConfs [] ms := by
  cases main with
  | missing =>
    simp only [readMain, ConfRes.ok.injEq]
    constructor
    · rintro rfl; exact ⟨[], .inl ⟨rfl, rfl⟩, by simp, rfl⟩
    · rintro ⟨ms, h | ⟨c, h, _⟩, _, rfl⟩
      · rw [h.2]; rfl
      · cases h
  | unreadable =>
    refine ⟨fun h => by simp [readMain] at h, ?_⟩
    rintro ⟨ms, h | ⟨c, h, _⟩, _⟩
    · cases h.1
    · cases h
  | content b =>
    have hg := parseConf_good ConfOk.nil b
    simp only [readMain]
    constructor
    · intro h
      split at h
      · next hb =>
        cases h
        exact ⟨[b], .inr ⟨b, rfl, rfl⟩, by simpa using hg.1 hb, rfl⟩
      · cases h
    · rintro ⟨ms, h | ⟨c, h, h'⟩, h2, rfl⟩
      · cases h.1
      · cases h; subst h'
        rw [if_pos (hg.2 (h2 b (by simp)))]; rfl

/-- C64 for at most 128 regular files: the regular files are read in alphabetical order of their
names, all of them, behind the main file; reading succeeds exactly if all can be read and are correct,
and yields the settings of them all.  Missing: more than 128 files, see `C64_violated`. -/
theorem C64_files_partial (main : FileState) (dir : List UInt8) (es : List DirEnt)
    (hn : (regularFiles es).length ≤ 128) (hp : ∀ e ∈ es, dir.length + 1 + e.name.length < 4096) :
    readConfFiles main dir (some es) ≠ .ub ∧
    ∃ order, order.Perm (regularFiles es) ∧ order.Pairwise (fun a b => Precedes a.1 b.1) ∧
      ∀ ss, readConfFiles main dir (some es) = .ok ss ↔
        ∃ ms cs, MainContent main ms ∧ Contents order cs ∧ (∀ c ∈ ms ++ cs, GoodFile c) ∧ ss = parseConfs [] (ms ++ cs) := by
  have hm := main_spec main
  have hub : readMain main ≠ .ub := by
    cases main with
    | missing => simp [readMain]
    | unreadable => simp [readMain]
    | content b => simp only [readMain]; split <;> simp
  unfold readConfFiles
  simp only []
  generalize hs : readMain main = start at hm hub
  rw [collectEnts_eq dir 0 es hp, if_pos (by left; omega)]
  have hok : ∀ ms, ∃ ds, ConfOk (parseConfs [] ms) ds := fun ms =>
    ⟨_, (parseConfs_reads ConfOk.nil ms).choose_spec.2⟩
  have hgo : (start.bind fun ss =>
      (ConfRes.ok ((regularFiles es).map (inDir dir))).bind fun fs => parseEnts ss (sortEnts fs)) =
      start.bind fun ss => parseEnts ss (sortEnts (regularFiles es)) := by
    congr 1; funext ss
    simp only [ConfRes.bind]
    rw [sortEnts_inDir, parseEnts_inDir]
  rw [hgo]
  constructor
  · cases start with
    | ub => exact absurd rfl hub
    | err => simp [ConfRes.bind]
    | ok s =>
      obtain ⟨ms, _, _, rfl⟩ := (hm s).1 rfl
      obtain ⟨ds, hd⟩ := hok ms
      exact (parseEnts_spec hd _).1
  · refine ⟨sortEnts (regularFiles es), sortEnts_perm _, (sortEnts_sorted _).imp strLe_precedes, fun ss => ?_⟩
    constructor
    · intro h
      cases start with
      | ub => exact absurd rfl hub
      | err => cases h
      | ok s =>
        obtain ⟨ms, h1, h2, rfl⟩ := (hm s).1 rfl
        obtain ⟨ds, hd⟩ := hok ms
        obtain ⟨cs, h3, h4, rfl⟩ := ((parseEnts_spec hd _).2 ss).1 h
        refine ⟨ms, cs, h1, h3, ?_, by simp [parseConfs, List.foldl_append]⟩
        intro c hc
        rcases List.mem_append.1 hc with hc | hc
        · exact h2 c hc
        · exact h4 c hc
    · rintro ⟨ms, cs, h1, h3, h4, rfl⟩
      have := (hm (parseConfs [] ms)).2 ⟨ms, h1, fun c hc => h4 c (by simp [hc]), rfl⟩
      subst this
      obtain ⟨ds, hd⟩ := hok ms
      exact ((parseEnts_spec hd _).2 _).2 ⟨cs, h3, fun c hc => h4 c (by simp [hc]), by simp [parseConfs, List.foldl_append]⟩

/-- C64 on the values: a key has the value set last, in the order main file, then the files of the
directory in alphabetical order. -/
theorem C64_values_partial (main : FileState) (dir : List UInt8) (es : List DirEnt) (ss : List CfgSection)
    (hn : (regularFiles es).length ≤ 128) (hp : ∀ e ∈ es, dir.length + 1 + e.name.length < 4096)
    (h : readConfFiles main dir (some es) = .ok ss) :
    ∃ order ms cs ds, order.Perm (regularFiles es) ∧ order.Pairwise (fun a b => Precedes a.1 b.1) ∧
      MainContent main ms ∧ Contents order cs ∧ FilesRead (ms ++ cs) ds ∧
      ∀ sec key, confValue ss sec key = lastSet ds sec key := by
  obtain ⟨_, order, h1, h2, h3⟩ := C64_files_partial main dir es hn hp
  obtain ⟨ms, cs, h4, h5, _, rfl⟩ := (h3 ss).1 h
  obtain ⟨ds, hd⟩ := filesRead_exists (ms ++ cs)
  exact ⟨order, ms, cs, ds, h1, h2, h4, h5, hd, C54_last_wins _ _ hd⟩

/-- A directory with two files, found in the wrong order, and a subdirectory. -/
def Sample.confDir : List DirEnt :=
  [⟨ascii "b.conf", some (.content Sample.confB)⟩, ⟨ascii "sub", none⟩, ⟨ascii "a.conf", some (.content Sample.confA)⟩]

example : (∃ ss, readConfFiles .missing (ascii "/etc/mavlink-router/config.d") (some Sample.confDir) = .ok ss ∧
      ss = parseConfs [] [Sample.confA, Sample.confB]) ∧
    (regularFiles Sample.confDir).length ≤ 128 ∧
    ∀ e ∈ Sample.confDir, (ascii "/etc/mavlink-router/config.d").length + 1 + e.name.length < 4096 :=
  ⟨⟨_, by decide +kernel, rfl⟩, by decide +kernel, by decide +kernel⟩

/-- C55 for the files of a program start: one bad line, in the main file or in any file of the directory, and the program does not
start; nothing of what follows the line is lost unnoticed.  Missing: more than 128 files, and last lines without newline
(`C55_violated`). -/
theorem C55_refused_partial (main : FileState) (dir : List UInt8) (es : List DirEnt)
    (hn : (regularFiles es).length ≤ 128) (hp : ∀ e ∈ es, dir.length + 1 + e.name.length < 4096)
    (f : List UInt8) (hf : main = .content f ∨ ∃ n, (n, FileState.content f) ∈ regularFiles es)
    (ls : List (List UInt8)) (rest : List UInt8) (ds : List Decl) (hl : Lines f ls rest) (hr : Reads none ls ds false) :
    readConfFiles main dir (some es) = .err := by
  obtain ⟨hub, order, h1, -, h3⟩ := C64_files_partial main dir es hn hp
  cases hres : readConfFiles main dir (some es) with
  | ub => exact absurd hres hub
  | err => rfl
  | ok ss =>
    exfalso
    obtain ⟨ms, cs, hm, hc, hg, -⟩ := (h3 ss).1 hres
    have hin : f ∈ ms ++ cs := by
      rcases hf with hf | ⟨n, hf⟩
      · rcases hm with ⟨hm, -⟩ | ⟨c, hm, rfl⟩
        · rw [hm] at hf; cases hf
        · rw [hm] at hf; cases hf; simp
      · have : FileState.content f ∈ order.map (·.2) := List.mem_map.2 ⟨_, h1.mem_iff.2 hf, rfl⟩
        rw [hc] at this
        obtain ⟨c, hcm, he⟩ := List.mem_map.1 this
        cases he
        simp [hcm]
    obtain ⟨-, ls', rest', ds', hl', hr'⟩ := hg f hin
    have e := (confLines_unique hl).symm.trans (confLines_unique hl')
    subst e
    exact absurd (hr.unique hr').2 (by simp)

/-- A word outside of any section in one of the files of the directory. -/
example : readConfFiles .missing (ascii "/etc") (some (⟨ascii "c.conf", some (.content (ascii "oops\n"))⟩ :: Sample.confDir)) = .err := by
  obtain ⟨ds, ok, h1, -, h3, -⟩ := parseConf_reads ConfOk.nil (ascii "oops\n")
  have h2 : (parseConf [] (ascii "oops\n")).2 = false := by decide +kernel
  rw [← h3 (by decide), h2] at h1
  obtain ⟨rest, hl⟩ := confLines_spec (ascii "oops\n")
  exact C55_refused_partial _ _ _ (by decide +kernel) (by decide +kernel) (ascii "oops\n")
    (.inr ⟨ascii "c.conf", by simp [regularFiles]⟩) _ rest ds hl h1

/-- C64 is false: with more than 128 regular files the table is written beyond its end, whatever they
contain. -/
theorem C64_violated (dir : List UInt8) (es : List DirEnt) (hn : 128 < (regularFiles es).length)
    (hp : ∀ e ∈ es, dir.length + 1 + e.name.length < 4096) : readConfFiles .missing dir (some es) = .ub := by
  simp only [readConfFiles, readMain, ConfRes.bind]
  rw [collectEnts_eq dir 0 es hp, if_neg]
  rintro (h | h)
  · omega
  · rw [h] at hn; simp at hn

example : 128 < (regularFiles ((List.range 129).map fun n => ⟨[UInt8.ofNat n], some (.content Sample.confA)⟩)).length ∧
    ∀ e ∈ (List.range 129).map fun n => (⟨[UInt8.ofNat n], some (.content Sample.confA)⟩ : DirEnt),
      (ascii "/etc").length + 1 + e.name.length < 4096 := by
  constructor
  · simp [regularFiles, List.filterMap_map, Function.comp_def]
  · intro e he
    obtain ⟨n, _, rfl⟩ := List.mem_map.1 he
    have : (ascii "/etc").length = 4 := by decide +kernel
    simp [this]

end Verif
