import Verif.Lemmas.Conf

/- The section list of the configuration parser represents the declarations read so far. -/

namespace Verif
open Spec.Conf

/-! ### Options of a section -/

/-- Value of a key among options. -/
def optValue (cs : List CfgOpt) (key : List UInt8) : Option (List UInt8) := (findConfig key cs).map (·.value)

/-- Keys are pairwise different; keys and values are not empty and begin and end with something
other than white space. -/
def OptsOk (cs : List CfgOpt) : Prop :=
  cs.Pairwise (fun a b => ¬ Same a.key b.key) ∧ ∀ c ∈ cs, Tight c.key ∧ Tight c.value

theorem findConfig_cons (key : List UInt8) (c : CfgOpt) (cs : List CfgOpt) :
    findConfig key (c :: cs) = if Same key c.key then some c else findConfig key cs := by
  unfold findConfig
  rw [List.find?_cons]
  by_cases h : Same key c.key
  · simp [h, (memCaseEq_iff _ _).2 h]
  · simp [h, memCaseEq_false.2 h]

theorem setConfig_cons (key value : List UInt8) (c : CfgOpt) (cs : List CfgOpt) :
    setConfig key value (c :: cs) =
      if Same key c.key then { c with value } :: cs else c :: setConfig key value cs := by
  show (if memCaseEq key c.key = true then _ else _) = _
  by_cases h : Same key c.key
  · simp [h, (memCaseEq_iff _ _).2 h]
  · simp [h, memCaseEq_false.2 h]

theorem optValue_set {cs : List CfgOpt} {key : List UInt8} (value : List UInt8) {c : CfgOpt}
    (h : findConfig key cs = some c) (key' : List UInt8) :
    optValue (setConfig key value cs) key' = if Same key key' then some value else optValue cs key' := by
  unfold optValue
  induction cs with
  | nil => cases h
  | cons d cs ih =>
    rw [findConfig_cons] at h
    rw [setConfig_cons]
    by_cases hd : Same key d.key
    · rw [if_pos hd]
      simp only [findConfig_cons]
      by_cases hk : Same key key'
      · rw [if_pos hk, if_pos (hk.symm.trans hd)]; rfl
      · rw [if_neg hk, if_neg (fun e => hk (hd.trans e.symm))]
        rw [if_neg (fun e => hk (hd.trans e.symm))]
    · rw [if_neg hd]
      rw [if_neg hd] at h
      simp only [findConfig_cons]
      by_cases hk' : Same key' d.key
      · rw [if_pos hk', if_pos hk', if_neg (fun e => hd (e.trans hk'))]
      · rw [if_neg hk', if_neg hk', ih h]

theorem optValue_upsert (cs : List CfgOpt) (key value key' : List UInt8) :
    optValue (upsert cs key value) key' = if Same key key' then some value else optValue cs key' := by
  unfold upsert
  cases h : findConfig key cs with
  | some c => exact optValue_set value h key'
  | none =>
    simp only [optValue, findConfig_cons]
    by_cases hk : Same key key'
    · rw [if_pos hk, if_pos hk.symm]; rfl
    · rw [if_neg hk, if_neg (fun e => hk e.symm)]

theorem setConfig_keys (key value : List UInt8) (cs : List CfgOpt) :
    (setConfig key value cs).map (·.key) = cs.map (·.key) := by
  induction cs with
  | nil => rfl
  | cons c cs ih =>
    rw [setConfig_cons]
    split
    · rfl
    · simp [ih]

theorem pairwise_keys (cs : List CfgOpt) :
    cs.Pairwise (fun a b => ¬ Same a.key b.key) ↔ (cs.map (·.key)).Pairwise (fun a b => ¬ Same a b) := by
  rw [List.pairwise_map]

theorem setConfig_mem {key value : List UInt8} {cs : List CfgOpt} {c : CfgOpt}
    (h : c ∈ setConfig key value cs) : (∃ d ∈ cs, c.key = d.key ∧ (c.value = d.value ∨ c.value = value)) := by
  induction cs with
  | nil => cases h
  | cons d cs ih =>
    rw [setConfig_cons] at h
    split at h
    · rcases List.mem_cons.1 h with rfl | h
      · exact ⟨d, by simp, rfl, Or.inr rfl⟩
      · exact ⟨c, by simp [h], rfl, Or.inl rfl⟩
    · rcases List.mem_cons.1 h with rfl | h
      · exact ⟨c, by simp, rfl, Or.inl rfl⟩
      · obtain ⟨d', hd', h⟩ := ih h
        exact ⟨d', by simp [hd'], h⟩

theorem OptsOk.upsert {cs : List CfgOpt} (h : OptsOk cs) {key value : List UInt8} (hk : Tight key)
    (hv : Tight value) : OptsOk (upsert cs key value) := by
  unfold Verif.upsert
  cases hf : findConfig key cs with
  | some c =>
    constructor
    · rw [pairwise_keys]
      show ((setConfig key value cs).map (·.key)).Pairwise _
      rw [setConfig_keys, ← pairwise_keys]; exact h.1
    · intro d hd
      obtain ⟨e, he, h1, h2⟩ := setConfig_mem hd
      rw [h1]
      refine ⟨(h.2 e he).1, ?_⟩
      rcases h2 with h2 | h2
      · rw [h2]; exact (h.2 e he).2
      · rw [h2]; exact hv
  | none =>
    constructor
    · refine List.Pairwise.cons ?_ h.1
      intro d hd hs
      unfold findConfig at hf
      rw [List.find?_eq_none] at hf
      exact hf d hd ((memCaseEq_iff _ _).2 hs)
    · intro d hd
      rcases List.mem_cons.1 hd with rfl | hd
      · exact ⟨hk, hv⟩
      · exact h.2 d hd

/-! ### Sections -/

theorem findSection_cons (name : List UInt8) (s : CfgSection) (ss : List CfgSection) :
    findSection name (s :: ss) = if Same name s.name then some ss.length else findSection name ss := by
  show (if memCaseEq name s.name = true then _ else _) = _
  by_cases h : Same name s.name
  · simp [h, (memCaseEq_iff _ _).2 h]
  · simp [h, memCaseEq_false.2 h]

theorem findSection_some {name : List UInt8} {ss : List CfgSection} {k : Nat}
    (h : findSection name ss = some k) :
    ∃ pre s post, ss = pre ++ s :: post ∧ post.length = k ∧ Same name s.name := by
  induction ss with
  | nil => cases h
  | cons s ss ih =>
    rw [findSection_cons] at h
    split at h
    · next hs => cases h; exact ⟨[], s, ss, rfl, rfl, hs⟩
    · obtain ⟨pre, t, post, rfl, hk, ht⟩ := ih h
      exact ⟨s :: pre, t, post, rfl, hk, ht⟩

theorem findSection_none {name : List UInt8} {ss : List CfgSection}
    (h : findSection name ss = none) : ∀ s ∈ ss, ¬ Same name s.name := by
  induction ss with
  | nil => intro s hs; cases hs
  | cons s ss ih =>
    rw [findSection_cons] at h
    split at h
    · cases h
    · next hs =>
      intro t ht
      rcases List.mem_cons.1 ht with rfl | ht
      · exact hs
      · exact ih h t ht

theorem sectionAt_mid (pre : List CfgSection) (s : CfgSection) (post : List CfgSection) :
    sectionAt post.length (pre ++ s :: post) = some s := by
  induction pre with
  | nil => simp [sectionAt]
  | cons p pre ih =>
    have : (pre ++ s :: post).length ≠ post.length := by simp; omega
    simp only [List.cons_append, sectionAt, if_neg this, ih]

theorem sectionAt_some {k : Nat} {ss : List CfgSection} {s : CfgSection} (h : sectionAt k ss = some s) :
    ∃ pre post, ss = pre ++ s :: post ∧ post.length = k := by
  induction ss with
  | nil => cases h
  | cons t ss ih =>
    simp only [sectionAt] at h
    split at h
    · next hk => cases h; exact ⟨[], ss, rfl, hk⟩
    · obtain ⟨pre, post, rfl, hk⟩ := ih h
      exact ⟨t :: pre, post, rfl, hk⟩

theorem updateSection_mid (f : CfgSection → CfgSection) (pre : List CfgSection) (s : CfgSection)
    (post : List CfgSection) : updateSection post.length f (pre ++ s :: post) = pre ++ f s :: post := by
  induction pre with
  | nil => simp [updateSection]
  | cons p pre ih =>
    have : (pre ++ s :: post).length ≠ post.length := by simp; omega
    simp only [List.cons_append, updateSection, if_neg this, ih]

theorem confValue_cons (s : CfgSection) (ss : List CfgSection) (sec key : List UInt8) :
    confValue (s :: ss) sec key = if Same sec s.name then optValue s.configs key else confValue ss sec key := by
  unfold confValue
  rw [findSection_cons]
  by_cases h : Same sec s.name
  · simp [h, sectionAt, optValue]
  · simp only [if_neg h]
    cases hf : findSection sec ss with
    | none => rfl
    | some k =>
      obtain ⟨pre, t, post, rfl, rfl, _⟩ := findSection_some hf
      have h1 := sectionAt_mid pre t post
      have h2 := sectionAt_mid (s :: pre) t post
      simp only [List.cons_append] at h2
      simp only [h1, h2]

theorem confValue_none {ss : List CfgSection} {sec : List UInt8} (h : ∀ s ∈ ss, ¬ Same sec s.name)
    (key : List UInt8) : confValue ss sec key = none := by
  induction ss with
  | nil => rfl
  | cons s ss ih =>
    rw [confValue_cons, if_neg (h s (by simp))]
    exact ih fun t ht => h t (by simp [ht])

/-- Section names are pairwise different and at most 100 bytes long; the options of each are fine. -/
structure SectionsOk (ss : List CfgSection) : Prop where
  distinct : ss.Pairwise fun a b => ¬ Same a.name b.name
  short : ∀ s ∈ ss, SectionName s.name
  opts : ∀ s ∈ ss, OptsOk s.configs

theorem confValue_same {ss : List CfgSection} {sec sec' key : List UInt8} (h : Same sec sec') :
    confValue ss sec key = confValue ss sec' key := by
  induction ss with
  | nil => rfl
  | cons s ss ih =>
    rw [confValue_cons, confValue_cons, ih]
    by_cases hs : Same sec s.name
    · rw [if_pos hs, if_pos (h.symm.trans hs)]
    · rw [if_neg hs, if_neg (fun e => hs (h.trans e))]

theorem confValue_mid {pre : List CfgSection} {s : CfgSection} {post : List CfgSection}
    (h : (pre ++ s :: post).Pairwise fun a b => ¬ Same a.name b.name) (sec key : List UInt8) :
    confValue (pre ++ s :: post) sec key =
      if Same sec s.name then optValue s.configs key else confValue (pre ++ post) sec key := by
  induction pre with
  | nil => exact confValue_cons s post sec key
  | cons p pre ih =>
    rw [List.cons_append, List.pairwise_cons] at h
    simp only [List.cons_append]
    rw [confValue_cons, confValue_cons, ih h.2]
    by_cases hs : Same sec s.name
    · rw [if_pos hs, if_neg (fun e => h.1 s (by simp) (e.symm.trans hs)), if_pos hs]
    · rw [if_neg hs, if_neg hs]

/-- The state of the parser after the declarations `ds`, inside the section `cur`. -/
structure StateOk (st : CfgState) (ds : List Decl) (cur : Option (List UInt8)) : Prop where
  ok : SectionsOk st.sections
  values : ∀ sec key, confValue st.sections sec key = lastSet ds sec key
  declared : ∀ sec, (∃ s ∈ st.sections, Same s.name sec) ↔ Declared ds sec
  inside : match cur, st.cur with
    | none, none => True
    | some n, some k => ∃ s, sectionAt k st.sections = some s ∧ Same n s.name
    | _, _ => False

theorem lastSet_append (ds : List Decl) (d : Decl) (sec key : List UInt8) :
    lastSet (ds ++ [d]) sec key =
      match d with
      | .set s k v => if Same s sec ∧ Same k key then some v else lastSet ds sec key
      | .section _ => lastSet ds sec key := by
  unfold lastSet
  rw [List.foldl_append]
  cases d <;> rfl

theorem declared_append_set (ds : List Decl) (s k v sec : List UInt8) :
    Declared (ds ++ [.set s k v]) sec ↔ Declared ds sec := by
  unfold Declared; simp

theorem declared_append_section (ds : List Decl) (n sec : List UInt8) :
    Declared (ds ++ [.section n]) sec ↔ Declared ds sec ∨ Same n sec := by
  unfold Declared
  constructor
  · rintro ⟨m, hm, hs⟩
    simp at hm
    rcases hm with hm | rfl
    · exact Or.inl ⟨m, hm, hs⟩
    · exact Or.inr hs
  · rintro (⟨m, hm, hs⟩ | hs)
    · exact ⟨m, by simp [hm], hs⟩
    · exact ⟨n, by simp, hs⟩

/-- What `confLine` does, by the meaning of the line. -/
theorem confLine_eq {st : CfgState} (line : List UInt8) (hok : SectionsOk st.sections) :
    confLine st line =
      if line.length > intMax then none
      else (lineSays line).bind fun
        | .nothing => some st
        | .header n =>
          match findSection n st.sections with
          | some k => some { sections := st.sections, cur := some k }
          | none => some { sections := { name := n } :: st.sections, cur := some st.sections.length }
        | .setting key value =>
          st.cur.bind fun k => (sectionAt k st.sections).map fun s =>
            { st with sections :=
                updateSection k (fun t => { t with configs := upsert s.configs key value }) st.sections } := by
  unfold confLine
  split
  · rfl
  · unfold lineSays
    cases htr : trimB line with
    | nil => simp
    | cons b bs =>
      simp only
      split
      · simp
      · split
        · rw [addSection_eq]
          cases headerName (b :: bs) with
          | none => rfl
          | some n =>
            simp only [Option.bind_some]
            cases hf : findSection n st.sections with
            | some k =>
              have hle : n.length ≤ maxSectionName := by
                obtain ⟨pre, s, post, he, _, hs⟩ := findSection_some hf
                rw [hs.1]
                exact (hok.short s (by rw [he]; simp)).2.1
              simp [hle, hf]
            | none =>
              simp only
              by_cases hle : n.length ≤ maxSectionName
              · rw [if_neg (by omega), if_pos hle]; simp [hf]
              · rw [if_pos (by omega), if_neg hle]; rfl
        · cases hc : st.cur with
          | none =>
            cases settingOf (b :: bs) <;> rfl
          | some k =>
            cases hs : sectionAt k st.sections with
            | none => cases settingOf (b :: bs) <;> simp [hs]
            | some s =>
              simp only [hs, Option.bind_some, addConfig_eq]
              cases settingOf (b :: bs) with
              | none => rfl
              | some kv => simp

theorem StateOk.header {st : CfgState} {ds : List Decl} {cur : Option (List UInt8)}
    (h : StateOk st ds cur) {n : List UInt8} (hn : SectionName n) :
    StateOk (match findSection n st.sections with
          | some k => { sections := st.sections, cur := some k }
          | none => { sections := { name := n } :: st.sections, cur := some st.sections.length })
      (ds ++ [.section n]) (some n) := by
  cases hf : findSection n st.sections with
  | some k =>
    obtain ⟨pre, s, post, he, hk, hs⟩ := findSection_some hf
    refine ⟨h.ok, ?_, ?_, ?_⟩
    · intro sec key; rw [lastSet_append]; exact h.values sec key
    · intro sec
      rw [declared_append_section]
      show (∃ s ∈ st.sections, _) ↔ _
      rw [h.declared sec]
      constructor
      · exact Or.inl
      · rintro (h' | h')
        · exact h'
        · exact (h.declared sec).1 ⟨s, by rw [he]; simp, hs.symm.trans h'⟩
    · refine ⟨s, ?_, hs⟩
      show sectionAt k st.sections = _
      rw [he, ← hk, sectionAt_mid]
  | none =>
    have hnew := findSection_none hf
    refine ⟨⟨?_, ?_, ?_⟩, ?_, ?_, ?_⟩
    · exact List.Pairwise.cons (fun s hs => hnew s hs) h.ok.distinct
    · intro s hs
      rcases List.mem_cons.1 hs with rfl | hs
      · exact hn
      · exact h.ok.short s hs
    · intro s hs
      rcases List.mem_cons.1 hs with rfl | hs
      · exact ⟨List.Pairwise.nil, by intro c hc; cases hc⟩
      · exact h.ok.opts s hs
    · intro sec key
      rw [lastSet_append]
      show confValue _ _ _ = lastSet ds sec key
      rw [confValue_cons, ← h.values]
      by_cases hs : Same sec n
      · rw [if_pos hs]
        rw [confValue_none (fun s hs' e => hnew s hs' (hs.symm.trans e))]
        rfl
      · rw [if_neg hs]
    · intro sec
      rw [declared_append_section, ← h.declared sec]
      simp [or_comm]
    · exact ⟨{ name := n }, sectionAt_mid [] _ _, Same.rfl' _⟩

theorem StateOk.setting {st : CfgState} {ds : List Decl} {n : List UInt8}
    (h : StateOk st ds (some n)) {k : Nat} (hc : st.cur = some k) {s : CfgSection}
    (hs : sectionAt k st.sections = some s) {key value : List UInt8} (hk : Tight key) (hv : Tight value) :
    StateOk { st with
        sections := updateSection k (fun t => { t with configs := upsert s.configs key value }) st.sections }
      (ds ++ [.set n key value]) (some n) := by
  obtain ⟨pre, post, he, hk'⟩ := sectionAt_some hs
  have hin := h.inside
  rw [hc] at hin
  obtain ⟨s', hs', hns⟩ := hin
  rw [hs] at hs'
  cases hs'
  let s' : CfgSection := { s with configs := upsert s.configs key value }
  have hu : updateSection k (fun t => { t with configs := upsert s.configs key value }) st.sections =
      pre ++ s' :: post := by
    rw [he, ← hk', updateSection_mid]
  rw [hu]
  have hd : (pre ++ s' :: post).Pairwise fun a b => ¬ Same a.name b.name := by
    have h0 := h.ok.distinct
    rw [he] at h0
    have : (pre ++ s' :: post).map (·.name) = (pre ++ s :: post).map (·.name) := by simp [s']
    have hm : ∀ l : List CfgSection, l.Pairwise (fun a b => ¬ Same a.name b.name) ↔
        (l.map (·.name)).Pairwise (fun a b => ¬ Same a b) := fun l => by rw [List.pairwise_map]
    rw [hm, this, ← hm]; exact h0
  have hmem : ∀ t, t ∈ pre ++ s' :: post → t = s' ∨ t ∈ st.sections := by
    intro t ht
    rw [he]
    simp at ht ⊢
    rcases ht with ht | ht | ht
    · exact Or.inr (Or.inl ht)
    · exact Or.inl ht
    · exact Or.inr (Or.inr (Or.inr ht))
  have hsm : s ∈ st.sections := by rw [he]; simp
  refine ⟨⟨hd, ?_, ?_⟩, ?_, ?_, ?_⟩
  · intro t ht
    rcases hmem t ht with rfl | ht
    · exact h.ok.short s hsm
    · exact h.ok.short t ht
  · intro t ht
    rcases hmem t ht with rfl | ht
    · exact (h.ok.opts s hsm).upsert hk hv
    · exact h.ok.opts t ht
  · intro sec key'
    rw [lastSet_append]
    show confValue (pre ++ s' :: post) sec key' = if Same n sec ∧ Same key key' then some value else lastSet ds sec key'
    rw [confValue_mid hd, ← h.values, he, confValue_mid (he ▸ h.ok.distinct)]
    show (if Same sec s.name then optValue (upsert s.configs key value) key' else _) = _
    rw [optValue_upsert]
    by_cases hsec : Same sec s.name
    · have : Same n sec := hns.trans hsec.symm
      simp only [if_pos hsec, this, true_and]
    · have : ¬ Same n sec := fun e => hsec (e.symm.trans hns)
      simp only [if_neg hsec, this, false_and, if_false]
  · intro sec
    rw [declared_append_set, ← h.declared sec, he]
    have hm : ∀ l : List CfgSection, (∃ t ∈ l, Same t.name sec) ↔ ∃ m ∈ l.map (·.name), Same m sec :=
      fun l => ⟨fun ⟨t, h, s⟩ => ⟨_, List.mem_map_of_mem h, s⟩,
        fun ⟨m, h, s⟩ => by obtain ⟨t, ht, rfl⟩ := List.mem_map.1 h; exact ⟨t, ht, s⟩⟩
    show (∃ t ∈ pre ++ s' :: post, Same t.name sec) ↔ _
    rw [hm, hm]
    simp [s']
  · show match some n, st.cur with
      | none, none => True
      | some n, some k => ∃ s, sectionAt k (pre ++ s' :: post) = some s ∧ Same n s.name
      | _, _ => False
    rw [hc]
    exact ⟨s', by rw [← hk']; exact sectionAt_mid pre s' post, hns⟩

/-- The parser reads lines as specified. -/
theorem parseLines_reads {st : CfgState} {ds : List Decl} {cur : Option (List UInt8)}
    (h : StateOk st ds cur) (ls : List (List UInt8)) :
    ∃ ds' st' cur', Reads cur ls ds' (parseLines st ls).2 ∧
      (parseLines st ls).1 = st'.sections ∧ StateOk st' (ds ++ ds') cur' := by
  induction ls generalizing st ds cur with
  | nil => exact ⟨[], st, cur, .done, rfl, by simpa using h⟩
  | cons l ls ih =>
    have hbad : confLine st l = none → Reads cur (l :: ls) [] false →
        ∃ ds' st' cur', Reads cur (l :: ls) ds' (parseLines st (l :: ls)).2 ∧
          (parseLines st (l :: ls)).1 = st'.sections ∧ StateOk st' (ds ++ ds') cur' := by
      intro hn hr
      refine ⟨[], st, cur, ?_, ?_, by simpa using h⟩
      · simp only [parseLines, hn]; exact hr
      · simp only [parseLines, hn]
    have heq := confLine_eq l h.ok
    by_cases hlong : l.length > intMax
    · rw [if_pos hlong] at heq
      exact hbad heq (.bad (Or.inl hlong))
    · rw [if_neg hlong] at heq
      cases hls : lineSays l with
      | none =>
        rw [hls] at heq
        refine hbad heq (.bad (Or.inr fun m hm => ?_))
        rw [(lineSays_iff l m).2 hm] at hls
        cases hls
      | some m =>
        rw [hls] at heq
        have hm := (lineSays_iff l m).1 hls
        cases m with
        | nothing =>
          have heq : confLine st l = some st := heq
          obtain ⟨ds', st', cur', h1, h2, h3⟩ := ih h
          refine ⟨ds', st', cur', ?_, ?_, h3⟩
          · simp only [parseLines, heq]; exact .nothing hlong hm h1
          · simp only [parseLines, heq]; exact h2
        | header n =>
          have hn : SectionName n := by
            cases hm with
            | header _ hn _ => exact hn
          have hst := h.header hn
          have heq : confLine st l = some (match findSection n st.sections with
            | some k => { sections := st.sections, cur := some k }
            | none => { sections := { name := n } :: st.sections, cur := some st.sections.length }) := by
            rw [heq]
            simp only [Option.bind_some]
            split <;> rfl
          obtain ⟨ds', st', cur', h1, h2, h3⟩ := ih hst
          refine ⟨.section n :: ds', st', cur', ?_, ?_, ?_⟩
          · simp only [parseLines, heq]; exact .header hlong hm h1
          · simp only [parseLines, heq]; exact h2
          · simpa using h3
        | setting k v =>
          have hkv : Tight k ∧ Tight v := by
            cases hm with
            | setting _ _ _ _ hk hv _ _ => exact ⟨hk, hv⟩
          cases cur with
          | none =>
            have hc : st.cur = none := by
              have := h.inside
              cases hc : st.cur with
              | none => rfl
              | some k => rw [hc] at this; exact this.elim
            exact hbad (by rw [heq]; simp [hc]) (.orphan hm)
          | some n =>
            have hin := h.inside
            cases hc : st.cur with
            | none => rw [hc] at hin; exact hin.elim
            | some i =>
              rw [hc] at hin
              obtain ⟨s, hs, hns⟩ := hin
              have hst := h.setting hc hs hkv.1 hkv.2
              have heq := by
                simpa only [Option.bind_some, hc, hs, Option.map_some] using heq
              obtain ⟨ds', st', cur', h1, h2, h3⟩ := ih hst
              have e : ({ st with
                  sections := updateSection i (fun t => { t with configs := upsert s.configs k v }) st.sections } : CfgState) =
                { sections := updateSection i (fun t => { t with configs := upsert s.configs k v }) st.sections,
                  cur := some i } := by rw [← hc]
              rw [e] at h1 h2
              refine ⟨.set n k v :: ds', st', cur', ?_, ?_, ?_⟩
              · simp only [parseLines, heq]; exact .setting hlong hm h1
              · simp only [parseLines, heq]; exact h2
              · simpa using h3

/-! ### Lines of a text -/

theorem confLinesGo_spec (acc : List UInt8) (hacc : 10 ∉ acc) (text : List UInt8) :
    ∃ rest, acc.reverse ++ text = ((confLinesGo acc text).map (· ++ [10])).flatten ++ rest ∧
      (∀ l ∈ confLinesGo acc text, 10 ∉ l) ∧ 10 ∉ rest := by
  induction text generalizing acc with
  | nil => exact ⟨acc.reverse, by simp [confLinesGo], by simp [confLinesGo], by simpa using hacc⟩
  | cons b bs ih =>
    simp only [confLinesGo]
    split
    · next hb =>
      subst hb
      obtain ⟨rest, h1, h2, h3⟩ := ih [] (by simp)
      refine ⟨rest, ?_, ?_, h3⟩
      · simp at h1; simp; exact h1
      · intro l hl
        rcases List.mem_cons.1 hl with rfl | hl
        · simpa using hacc
        · exact h2 l hl
    · next hb =>
      obtain ⟨rest, h1, h2, h3⟩ := ih (b :: acc) (by simpa using ⟨fun h => hb h.symm, hacc⟩)
      refine ⟨rest, ?_, h2, h3⟩
      simpa using h1

theorem confLines_spec (text : List UInt8) : ∃ rest, Lines text (confLines text) rest := by
  obtain ⟨rest, h⟩ := confLinesGo_spec [] (by simp) text
  exact ⟨rest, by simpa [Lines, confLines] using h⟩

theorem confLinesGo_line (acc : List UInt8) {l : List UInt8} (hl : 10 ∉ l) (text : List UInt8) :
    confLinesGo acc (l ++ 10 :: text) = (acc.reverse ++ l) :: confLinesGo [] text := by
  induction l generalizing acc with
  | nil => simp [confLinesGo]
  | cons b l ih =>
    simp at hl
    have hb : b ≠ 10 := fun h => hl.1 h.symm
    simp only [List.cons_append, confLinesGo, if_neg hb]
    rw [ih _ hl.2]
    simp

theorem confLinesGo_rest (acc : List UInt8) {rest : List UInt8} (h : 10 ∉ rest) : confLinesGo acc rest = [] := by
  induction rest generalizing acc with
  | nil => rfl
  | cons b l ih =>
    simp at h
    have hb : b ≠ 10 := fun e => h.1 e.symm
    simp only [confLinesGo, if_neg hb]
    exact ih _ h.2

theorem confLines_unique {text : List UInt8} {ls : List (List UInt8)} {rest : List UInt8}
    (h : Lines text ls rest) : confLines text = ls := by
  obtain ⟨rfl, h1, h2⟩ := h
  unfold confLines
  induction ls with
  | nil => simpa using confLinesGo_rest [] h2
  | cons l ls ih =>
    have := confLinesGo_line [] (h1 l (by simp)) ((ls.map (· ++ [10])).flatten ++ rest)
    simp only [List.map_cons, List.flatten_cons, List.append_assoc, List.cons_append,
      List.reverse_nil, List.nil_append] at this ⊢
    rw [this, ih fun x hx => h1 x (by simp [hx])]

/-! ### Files -/

theorem Spec.Conf.Reads.unique {cur : Option (List UInt8)} {ls : List (List UInt8)} {ds ds' : List Decl}
    {ok ok' : Bool} (h : Reads cur ls ds ok) (h' : Reads cur ls ds' ok') : ds = ds' ∧ ok = ok' := by
  induction h generalizing ds' ok' with
  | done => cases h'; exact ⟨rfl, rfl⟩
  | nothing hl hm _ ih =>
    cases h' with
    | nothing _ _ h => exact ih h
    | header _ h' _ => cases hm.unique h'
    | setting _ h' _ => cases hm.unique h'
    | orphan h' => cases hm.unique h'
    | bad hb =>
      rcases hb with hb | hb
      · exact absurd hb hl
      · exact absurd hm (hb _)
  | header hl hm _ ih =>
    cases h' with
    | nothing _ h' _ => cases hm.unique h'
    | header _ h' h =>
      cases hm.unique h'
      obtain ⟨rfl, rfl⟩ := ih h
      exact ⟨rfl, rfl⟩
    | setting _ h' _ => cases hm.unique h'
    | orphan h' => cases hm.unique h'
    | bad hb =>
      rcases hb with hb | hb
      · exact absurd hb hl
      · exact absurd hm (hb _)
  | setting hl hm _ ih =>
    cases h' with
    | nothing _ h' _ => cases hm.unique h'
    | header _ h' _ => cases hm.unique h'
    | setting _ h' h =>
      cases hm.unique h'
      obtain ⟨rfl, rfl⟩ := ih h
      exact ⟨rfl, rfl⟩
    | bad hb =>
      rcases hb with hb | hb
      · exact absurd hb hl
      · exact absurd hm (hb _)
  | orphan hm =>
    cases h' with
    | nothing _ h' _ => cases hm.unique h'
    | header _ h' _ => cases hm.unique h'
    | orphan _ => exact ⟨rfl, rfl⟩
    | bad _ => exact ⟨rfl, rfl⟩
  | bad hb =>
    have hx : ∀ {l : List UInt8} {m}, TooLong l ∨ (∀ m, ¬ Means l m) → ¬ TooLong l → Means l m → False := by
      intro l m h h1 h2
      rcases h with h | h
      · exact h1 h
      · exact h m h2
    cases h' with
    | nothing h1 h2 _ => exact (hx hb h1 h2).elim
    | header h1 h2 _ => exact (hx hb h1 h2).elim
    | setting h1 h2 _ => exact (hx hb h1 h2).elim
    | orphan _ => exact ⟨rfl, rfl⟩
    | bad _ => exact ⟨rfl, rfl⟩

theorem Spec.Conf.FilesRead.unique {fs : List (List UInt8)} {ds ds' : List Decl} (h : FilesRead fs ds)
    (h' : FilesRead fs ds') : ds = ds' := by
  induction h generalizing ds' with
  | nil => cases h'; rfl
  | cons hl hr _ ih =>
    cases h' with
    | cons hl' hr' hf' =>
      have := (confLines_unique hl).symm.trans (confLines_unique hl')
      subst this
      rw [(hr.unique hr').1, ih hf']

/-- Sections that represent declarations. -/
def ConfOk (ss : List CfgSection) (ds : List Decl) : Prop := StateOk { sections := ss, cur := none } ds none

theorem StateOk.conf {st : CfgState} {ds : List Decl} {cur : Option (List UInt8)} (h : StateOk st ds cur) :
    ConfOk st.sections ds := ⟨h.ok, h.values, h.declared, trivial⟩

theorem ConfOk.nil : ConfOk [] [] :=
  ⟨⟨.nil, (by intro s hs; cases hs), (by intro s hs; cases hs)⟩, fun _ _ => rfl,
    fun sec => ⟨fun ⟨_, h, _⟩ => (by cases h), fun ⟨_, h, _⟩ => (by cases h)⟩, trivial⟩

theorem confLines_nil : confLines [] = [] := rfl

theorem parseConf_fst (ss : List CfgSection) (f : List UInt8) :
    (parseConf ss f).1 = (parseLines { sections := ss, cur := none } (confLines f)).1 := by
  unfold parseConf
  split
  · next h => subst h; rfl
  · rfl

theorem parseConf_reads {ss : List CfgSection} {ds : List Decl} (h : ConfOk ss ds) (f : List UInt8) :
    ∃ ds' ok, Reads none (confLines f) ds' ok ∧ ((parseConf ss f).2 = true → ok = true) ∧
      (f ≠ [] → (parseConf ss f).2 = ok) ∧ ConfOk (parseConf ss f).1 (ds ++ ds') := by
  obtain ⟨ds', st', cur', h1, h2, h3⟩ := parseLines_reads h (confLines f)
  refine ⟨ds', _, h1, ?_, ?_, ?_⟩
  · unfold parseConf
    split
    · intro h; cases h
    · exact id
  · intro hne
    unfold parseConf
    rw [if_neg hne]
  · rw [parseConf_fst, h2]
    exact h3.conf

theorem parseConfs_reads {ss : List CfgSection} {ds : List Decl} (h : ConfOk ss ds) (fs : List (List UInt8)) :
    ∃ ds', FilesRead fs ds' ∧ ConfOk (parseConfs ss fs) (ds ++ ds') := by
  induction fs generalizing ss ds with
  | nil => exact ⟨[], .nil, by simpa [parseConfs] using h⟩
  | cons f fs ih =>
    obtain ⟨ds1, ok, h1, _, _, h3⟩ := parseConf_reads h f
    obtain ⟨ds2, h4, h5⟩ := ih h3
    obtain ⟨rest, hl⟩ := confLines_spec f
    exact ⟨ds1 ++ ds2, .cons hl h1 h4, by simpa [parseConfs] using h5⟩

theorem parseConfs_ok {fs : List (List UInt8)} {ds : List Decl} (h : FilesRead fs ds) :
    ConfOk (parseConfs [] fs) ds := by
  obtain ⟨ds', h1, h2⟩ := parseConfs_reads ConfOk.nil fs
  rw [h.unique h1]
  simpa using h2

theorem filesRead_exists (fs : List (List UInt8)) : ∃ ds, FilesRead fs ds := by
  obtain ⟨ds', h1, _⟩ := parseConfs_reads ConfOk.nil fs
  exact ⟨ds', h1⟩

end Verif
