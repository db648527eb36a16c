import Verif.Lemmas.ConfState

/-
C54–C58: reading configuration files.
-/

namespace Verif
open Spec.Conf

namespace Sample

/-- Two files; the second changes a value of the first, written differently. -/
def confA : List UInt8 := ascii "# base\n[General]\nTcpServerPort = 5760\n\n[UdpEndpoint gcs]\n  Mode=Normal \nPort = 14550\n"
/-- The second file. -/
def confB : List UInt8 := ascii "[udpendpoint GCS]\nPORT=14551\n"

end Sample

/-! ### C54 -/

/-- C54: whatever files are read, the value of a key of a section (names compared ignoring case) is
the one of the last line that sets it. -/
theorem C54_last_wins (files : List (List UInt8)) (ds : List Decl) (h : FilesRead files ds)
    (sec key : List UInt8) : confValue (parseConfs [] files) sec key = lastSet ds sec key :=
  (parseConfs_ok h).values sec key

/-- Every sequence of files has a reading, and only one. -/
theorem C54_reading_exists (files : List (List UInt8)) :
    ∃ ds, FilesRead files ds ∧ ∀ ds', FilesRead files ds' → ds' = ds := by
  obtain ⟨ds, h⟩ := filesRead_exists files
  exact ⟨ds, h, fun ds' h' => h'.unique h⟩

theorem filesRead_append {fs gs : List (List UInt8)} {ds es : List Decl} (h : FilesRead fs ds)
    (h' : FilesRead gs es) : FilesRead (fs ++ gs) (ds ++ es) := by
  induction h with
  | nil => exact h'
  | cons hl hr _ ih =>
    rw [List.append_assoc]
    exact .cons hl hr ih

theorem lastSet_append_list (ds es : List Decl) (sec key : List UInt8) :
    lastSet (ds ++ es) sec key = (lastSet es sec key).or (lastSet ds sec key) := by
  have h : ∀ (es : List Decl) (r : Option (List UInt8)),
      es.foldl (setStep sec key) r = (lastSet es sec key).or r := by
    intro es
    induction es with
    | nil => intro r; rfl
    | cons d es ih =>
      intro r
      unfold lastSet
      rw [List.foldl_cons, List.foldl_cons, ih, ih (setStep sec key none d)]
      cases d with
      | «section» n => simp [setStep]
      | set s k v =>
        unfold setStep
        by_cases hc : Same s sec ∧ Same k key
        · simp only [if_pos hc]
          cases lastSet es sec key <;> rfl
        · simp only [if_neg hc, Option.or_none]
  show (ds ++ es).foldl (setStep sec key) none = _
  rw [List.foldl_append, h es]
  rfl

/-- C54, for one more file: keys the file sets take its value, all others keep theirs. -/
theorem C54_override (files : List (List UInt8)) (f : List UInt8) (es : List Decl) (h : FilesRead [f] es)
    (sec key : List UInt8) :
    confValue (parseConfs [] (files ++ [f])) sec key =
      (lastSet es sec key).or (confValue (parseConfs [] files) sec key) := by
  obtain ⟨ds, hd⟩ := filesRead_exists files
  rw [C54_last_wins _ _ (filesRead_append hd h), C54_last_wins _ _ hd, lastSet_append_list]

example : confValue (parseConfs [] [Sample.confA, Sample.confB]) (ascii "UDPENDPOINT gcs") (ascii "port") =
      some (ascii "14551") ∧
    confValue (parseConfs [] [Sample.confA, Sample.confB]) (ascii "UdpEndpoint gcs") (ascii "mode") =
      some (ascii "Normal") ∧
    confValue (parseConfs [] [Sample.confA, Sample.confB]) (ascii "general") (ascii "tcpserverport") =
      some (ascii "5760") ∧
    ∃ ds, FilesRead [Sample.confA, Sample.confB] ds :=
  ⟨by decide +kernel, by decide +kernel, by decide +kernel, filesRead_exists _⟩

/-! ### C55 -/

/-- All lines of a text, the unterminated one included. -/
def Spec.Conf.allLines (ls : List (List UInt8)) (rest : List UInt8) : List (List UInt8) :=
  if rest = [] then ls else ls ++ [rest]

/-- C55 in full: if a file is read without error then every line counted. -/
def Spec.Conf.EveryLineCounts (f : List UInt8) : Prop :=
  ∀ ls rest, Lines f ls rest → (parseConf [] f).2 = true →
    ∃ ds, Reads none (allLines ls rest) ds true ∧
      ∀ sec key, confValue (parseConf [] f).1 sec key = lastSet ds sec key

theorem Spec.Conf.Reads.append_nothing {cur : Option (List UInt8)} {ls : List (List UInt8)} {ds : List Decl}
    (h : Reads cur ls ds true) {r : List UInt8} (hr : ¬ TooLong r) (hm : Means r .nothing) :
    Reads cur (ls ++ [r]) ds true := by
  generalize hok : true = ok at h
  induction h with
  | done => exact .nothing hr hm .done
  | nothing h1 h2 _ ih => exact .nothing h1 h2 (ih hok)
  | header h1 h2 _ ih => exact .header h1 h2 (ih hok)
  | setting h1 h2 _ ih => exact .setting h1 h2 (ih hok)
  | orphan => cases hok
  | bad => cases hok

/-- C55 for files whose text behind the last newline says nothing (in particular files ending with a
newline): each line is applied, or the file is refused.  Missing from C55: see `C55_violated`. -/
theorem C55_lines_partial (f : List UInt8)
    (hend : ∀ ls rest, Lines f ls rest → ¬ TooLong rest ∧ Means rest .nothing) : EveryLineCounts f := by
  intro ls rest hl hok
  obtain ⟨ds, ok, h1, h2, _, h4⟩ := parseConf_reads ConfOk.nil f
  rw [h2 hok] at h1
  rw [confLines_unique hl] at h1
  refine ⟨ds, ?_, ?_⟩
  · unfold allLines
    split
    · exact h1
    · exact h1.append_nothing (hend ls rest hl).1 (hend ls rest hl).2
  · intro sec key
    simpa using h4.values sec key

/-- The result says whether there was a bad line (a file without any text counts as bad). -/
theorem C55_errors_reported (f : List UInt8) (hne : f ≠ []) (ls : List (List UInt8)) (rest : List UInt8)
    (hl : Lines f ls rest) : ∃ ds, Reads none ls ds (parseConf [] f).2 := by
  obtain ⟨ds, ok, h1, _, h3, _⟩ := parseConf_reads ConfOk.nil f
  rw [confLines_unique hl] at h1
  exact ⟨ds, by rw [h3 hne]; exact h1⟩

/-- C55 is false: a setting on the last line is dropped silently if the line does not end with a
newline. -/
theorem C55_violated : ∃ f, ¬ EveryLineCounts f := by
  refine ⟨ascii "[General]\nTcpServerPort=0", fun h => ?_⟩
  have hl : Lines (ascii "[General]\nTcpServerPort=0") [ascii "[General]"] (ascii "TcpServerPort=0") := by
    refine ⟨by decide +kernel, by decide +kernel, by decide +kernel⟩
  obtain ⟨ds, h1, h2⟩ := h _ _ hl (by decide +kernel)
  have hm1 : Means (ascii "[General]") (.header (ascii "General")) :=
    (lineSays_iff _ _).1 (by decide +kernel)
  have hm2 : Means (ascii "TcpServerPort=0") (.setting (ascii "TcpServerPort") (ascii "0")) :=
    (lineSays_iff _ _).1 (by decide +kernel)
  have hr : Reads none (allLines [ascii "[General]"] (ascii "TcpServerPort=0"))
      [.section (ascii "General"), .set (ascii "General") (ascii "TcpServerPort") (ascii "0")] true := by
    have e : allLines [ascii "[General]"] (ascii "TcpServerPort=0") = [ascii "[General]", ascii "TcpServerPort=0"] := by
      decide +kernel
    rw [e]
    exact .header (by unfold TooLong; decide +kernel) hm1 (.setting (by unfold TooLong; decide +kernel) hm2 .done)
  rw [(h1.unique hr).1] at h2
  have := h2 (ascii "General") (ascii "TcpServerPort")
  revert this
  decide +kernel

example : (∀ ls rest, Lines Sample.confA ls rest → ¬ TooLong rest ∧ Means rest .nothing) ∧
    (parseConf [] Sample.confA).2 = true := by
  refine ⟨?_, by decide +kernel⟩
  intro ls rest hl
  have e := confLines_unique hl
  have h1 : rest = [] := by
    have hlen := congrArg List.length hl.1
    rw [← e] at hlen
    have : (((confLines Sample.confA).map (· ++ [10])).flatten).length = Sample.confA.length := by
      decide +kernel
    rw [List.length_append, this] at hlen
    exact List.length_eq_zero_iff.1 (by omega)
  rw [h1]
  exact ⟨by unfold TooLong; decide, .blank blank_nil⟩

/-! ### C56 -/

/-- Two lists of lines that differ only in lines that say nothing, in white space around lines, and
in how a line with a meaning is laid out. -/
inductive Spec.Conf.SameLines : List (List UInt8) → List (List UInt8) → Prop
  | nil : SameLines [] []
  | dropLeft {l ls ls'} : ¬ TooLong l → Means l .nothing → SameLines ls ls' → SameLines (l :: ls) ls'
  | dropRight {l ls ls'} : ¬ TooLong l → Means l .nothing → SameLines ls ls' → SameLines ls (l :: ls')
  | means {l l' m ls ls'} : ¬ TooLong l → ¬ TooLong l' → Means l m → Means l' m → SameLines ls ls' →
      SameLines (l :: ls) (l' :: ls')
  | pad {w v w' v' l ls ls'} : Blank w → Blank v → Blank w' → Blank v' → ¬ TooLong (w ++ (l ++ v)) →
      ¬ TooLong (w' ++ (l ++ v')) → SameLines ls ls' →
      SameLines ((w ++ (l ++ v)) :: ls) ((w' ++ (l ++ v')) :: ls')

theorem confLine_nothing {st : CfgState} {l : List UInt8} (hl : ¬ TooLong l) (hm : Means l .nothing) :
    confLine st l = some st := by
  have h := (lineSays_iff l _).2 hm
  unfold confLine
  have hl' : ¬ l.length > intMax := hl
  rw [if_neg hl']
  unfold lineSays at h
  cases ht : trimB l with
  | nil => rfl
  | cons b bs =>
    simp only [ht] at h ⊢
    split
    · rfl
    · next hc =>
      rw [if_neg hc] at h
      split at h
      · rw [Option.bind_eq_some_iff] at h
        obtain ⟨n, _, h⟩ := h
        split at h <;> cases h
      · simp at h

theorem confLine_trim {st : CfgState} {l l' : List UInt8} (hl : ¬ TooLong l) (hl' : ¬ TooLong l')
    (h : trimB l = trimB l') : confLine st l = confLine st l' := by
  unfold confLine
  have h1 : ¬ l.length > intMax := hl
  have h2 : ¬ l'.length > intMax := hl'
  rw [if_neg h1, if_neg h2, h]

theorem confLine_means {st : CfgState} {l l' : List UInt8} {m : Says} (hl : ¬ TooLong l) (hl' : ¬ TooLong l')
    (hm : Means l m) (hm' : Means l' m) : confLine st l = confLine st l' := by
  cases m with
  | nothing => rw [confLine_nothing hl hm, confLine_nothing hl' hm']
  | header n =>
    have key : ∀ {l}, Means l (.header n) → trimB l = 91 :: (n ++ [93]) := by
      intro l hm
      cases hm with
      | header hw _ hw' =>
        have := trimB_pad hw hw' (tight_header n)
        simpa using this
    exact confLine_trim hl hl' ((key hm).trans (key hm').symm)
  | setting k v =>
    have key : ∀ {l}, Means l (.setting k v) → ∃ b bs, trimB l = b :: bs ∧ ¬ (b = 59 ∨ b = 35) ∧ b ≠ 91 ∧
        settingOf (b :: bs) = some (k, v) := by
      intro l hm
      have h := (lineSays_iff l _).2 hm
      unfold lineSays at h
      cases ht : trimB l with
      | nil => simp [ht] at h
      | cons b bs =>
        simp only [ht] at h
        split at h
        · cases h
        · next hc =>
          split at h
          · rw [Option.bind_eq_some_iff] at h
            obtain ⟨n, _, h⟩ := h
            split at h <;> cases h
          · next hb =>
            simp only [Option.map_eq_some_iff] at h
            obtain ⟨kv, h1, h2⟩ := h
            cases h2
            exact ⟨b, bs, rfl, hc, hb, h1⟩
    obtain ⟨b, bs, h1, h2, h3, h4⟩ := key hm
    obtain ⟨b', bs', h1', h2', h3', h4'⟩ := key hm'
    unfold confLine
    have hl1 : ¬ l.length > intMax := hl
    have hl2 : ¬ l'.length > intMax := hl'
    simp only [if_neg hl1, if_neg hl2, h1, h1', if_neg h2, if_neg h2', if_neg h3, if_neg h3',
      addConfig_eq, h4, h4']

theorem blank_append {w v : List UInt8} (h : Blank w) (h' : Blank v) : Blank (w ++ v) := by
  intro b hb
  rcases List.mem_append.1 hb with hb | hb
  · exact h b hb
  · exact h' b hb

theorem trimB_around (w l v : List UInt8) (hw : Blank w) (hv : Blank v) : trimB (w ++ (l ++ v)) = trimB l := by
  rcases trimB_spec l with ⟨hb, h⟩ | ⟨x, y, hx, hy, ht, hl⟩
  · rw [h, trimB_nil_iff]
    exact blank_append hw (blank_append hb hv)
  · have : w ++ (l ++ v) = (w ++ x) ++ (trimB l ++ (y ++ v)) := by
      conv => lhs; rw [hl]
      simp
    rw [this, trimB_pad (blank_append hw hx) (blank_append hy hv) ht]

theorem parseLines_same {ls ls' : List (List UInt8)} (h : SameLines ls ls') (st : CfgState) :
    parseLines st ls = parseLines st ls' := by
  induction h generalizing st with
  | nil => rfl
  | dropLeft hl hm _ ih => simp only [parseLines, confLine_nothing hl hm, ih]
  | dropRight hl hm _ ih => simp only [parseLines, confLine_nothing hl hm, ih]
  | means hl hl' hm hm' _ ih =>
    simp only [parseLines, confLine_means hl hl' hm hm']
    split
    · rfl
    · exact ih _
  | pad h1 h2 h3 h4 hl hl' _ ih =>
    have e := confLine_trim (st := st) hl hl'
      ((trimB_around _ _ _ h1 h2).trans (trimB_around _ _ _ h3 h4).symm)
    simp only [parseLines, e]
    split
    · rfl
    · exact ih _

/-- C56: white space around lines, keys and values, blank lines and comments make no difference: the
same sections with the same options result, or the same error.  Missing: files without any text (`C56_violated`). -/
theorem C56_layout_partial (ss : List CfgSection) (f f' : List UInt8) (ls ls' : List (List UInt8))
    (rest rest' : List UInt8) (hf : Lines f ls rest) (hf' : Lines f' ls' rest') (hne : f ≠ [])
    (hne' : f' ≠ []) (h : SameLines ls ls') : parseConf ss f = parseConf ss f' := by
  unfold parseConf
  rw [if_neg hne, if_neg hne', confLines_unique hf, confLines_unique hf']
  exact parseLines_same h _

/-- C56 is false: a file with a comment and nothing else sets nothing; without the comment, and so without any text, it is
refused, because nothing can be mapped into memory. -/
theorem C56_violated : ∃ (f f' : List UInt8) (ls ls' : List (List UInt8)), Lines f ls [] ∧ Lines f' ls' [] ∧ SameLines ls ls' ∧
    parseConf [] f = ([], true) ∧ parseConf [] f' = ([], false) := by
  refine ⟨ascii "# nothing\n", [], [ascii "# nothing"], [], ?_, ?_, ?_, by decide +kernel, by decide +kernel⟩
  · exact ⟨by decide +kernel, by decide +kernel, by decide⟩
  · exact ⟨rfl, by simp, by simp⟩
  · exact .dropLeft (by unfold TooLong; decide +kernel) ((lineSays_iff _ _).1 (by decide +kernel)) .nil

/-- C56: stored keys and values are never empty, so the option parsers' `assert(val_len)` holds. -/
theorem C56_nonempty (files : List (List UInt8)) (s : CfgSection) (hs : s ∈ parseConfs [] files)
    (c : CfgOpt) (hc : c ∈ s.configs) :
    c.key ≠ [] ∧ c.value ≠ [] ∧ Tight c.key ∧ Tight c.value := by
  obtain ⟨ds, hd⟩ := filesRead_exists files
  have h := ((parseConfs_ok hd).ok.opts s hs).2 c hc
  have ht : ∀ {t}, Tight t → t ≠ [] := by
    rintro t ⟨⟨b, r, rfl, _⟩, _⟩; simp
  exact ⟨ht h.1, ht h.2, h.1, h.2⟩

/-- The extra text of `Sample.confA` is layout. -/
example : parseConf [] (ascii "[General]\nTcpServerPort=5760\n[UdpEndpoint gcs]\nMode=Normal\nPort=14550\n") =
      parseConf [] Sample.confA ∧
    SameLines [ascii "# base", ascii "  Mode = Normal "] [ascii "Mode=Normal", ascii " ;"] := by
  have hm : ∀ l m, lineSays l = some m → Means l m := fun l m => (lineSays_iff l m).1
  refine ⟨by decide +kernel, ?_⟩
  refine .dropLeft (by unfold TooLong; decide +kernel) (hm _ _ (by decide +kernel)) ?_
  refine .means (m := .setting (ascii "Mode") (ascii "Normal")) (by unfold TooLong; decide +kernel)
    (by unfold TooLong; decide +kernel) (hm _ _ (by decide +kernel)) (hm _ _ (by decide +kernel)) ?_
  exact .dropRight (by unfold TooLong; decide +kernel) (hm _ _ (by decide +kernel)) .nil

/-! ### C57 -/

/-- C57 for names of at most 99 bytes: looking for the next section, from any place in the list, does
not leave the buffer.  Missing: names of 100 bytes, which are accepted, see `C57_violated`. -/
theorem C57_iterate_partial (files : List (List UInt8)) (ds : List Decl) (h : FilesRead files ds)
    (hn : ∀ n, Decl.section n ∈ ds → n.length < 100) (pre : List UInt8) (done rest : List CfgSection)
    (hs : parseConfs [] files = done ++ rest) : getSections pre rest ≠ .ub := by
  have ok := parseConfs_ok h
  have hlen : ∀ s ∈ rest, s.name.length < 100 := by
    intro s hs'
    obtain ⟨n, h1, h2⟩ := (ok.declared s.name).1 ⟨s, by show s ∈ parseConfs [] files; rw [hs]; simp [hs'], Same.rfl' _⟩
    rw [← h2.1]; exact hn n h1
  clear hs
  induction rest with
  | nil => simp [getSections]
  | cons s rest ih =>
    have h1 : ¬ s.name.length ≥ maxSectionName := by
      have := hlen s (by simp); unfold maxSectionName; omega
    simp only [getSections, if_neg h1]
    split
    · simp
    · exact ih fun t ht => hlen t (by simp [ht])

/-- C57 is false: a file with a section name of 100 bytes is read without error, and iterating the
sections then writes behind the buffer. -/
theorem C57_violated : ∃ f, (parseConf [] f).2 = true ∧
    getSections (ascii "uartendpoint ") (parseConf [] f).1 = .ub :=
  ⟨ascii "[" ++ List.replicate 100 97 ++ ascii "]\n", by decide +kernel, by decide +kernel⟩

example : ∃ ds, FilesRead [Sample.confA] ds ∧ (∀ n, Decl.section n ∈ ds → n.length < 100) ∧ ds.length = 5 := by
  obtain ⟨rest, hl⟩ := confLines_spec Sample.confA
  have hm : ∀ l m, lineSays l = some m → Means l m := fun l m => (lineSays_iff l m).1
  have hr : Reads none (confLines Sample.confA)
      [.section (ascii "General"), .set (ascii "General") (ascii "TcpServerPort") (ascii "5760"),
       .section (ascii "UdpEndpoint gcs"), .set (ascii "UdpEndpoint gcs") (ascii "Mode") (ascii "Normal"),
       .set (ascii "UdpEndpoint gcs") (ascii "Port") (ascii "14550")] true := by
    have e : confLines Sample.confA = [ascii "# base", ascii "[General]", ascii "TcpServerPort = 5760", [],
        ascii "[UdpEndpoint gcs]", ascii "  Mode=Normal ", ascii "Port = 14550"] := by decide +kernel
    rw [e]
    refine .nothing (by unfold TooLong; decide +kernel) (hm _ _ (by decide +kernel)) ?_
    refine .header (by unfold TooLong; decide +kernel) (hm _ _ (by decide +kernel)) ?_
    refine .setting (by unfold TooLong; decide +kernel) (hm _ _ (by decide +kernel)) ?_
    refine .nothing (by unfold TooLong; decide +kernel) (hm _ _ (by decide +kernel)) ?_
    refine .header (by unfold TooLong; decide +kernel) (hm _ _ (by decide +kernel)) ?_
    refine .setting (by unfold TooLong; decide +kernel) (hm _ _ (by decide +kernel)) ?_
    exact .setting (by unfold TooLong; decide +kernel) (hm _ _ (by decide +kernel)) .done
  have hf := FilesRead.cons hl hr .nil
  simp only [List.append_nil] at hf
  refine ⟨_, hf, ?_, rfl⟩
  intro n hn
  simp only [List.mem_cons, Decl.section.injEq, reduceCtorEq, List.not_mem_nil, or_false, false_or] at hn
  rcases hn with rfl | rfl <;> decide +kernel

end Verif
