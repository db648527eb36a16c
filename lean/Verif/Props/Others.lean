import Verif.Props.Start

/-
C126: what the configuration files say about one section does not change what the other sections give.
-/

namespace Verif

open Spec.Conf

/-- The section a declaration is about. -/
def Spec.Conf.Decl.about : Decl → List UInt8
  | .section n => n
  | .set n _ _ => n

/-- The sections after one more declaration: a new section comes first, a setting changes the section of its name. -/
def declStep (ss : List CfgSection) : Decl → List CfgSection
  | .section n => if ss.any fun s => decide (Same n s.name) then ss else { name := n } :: ss
  | .set n k v => ss.map fun s => if Same n s.name then { s with configs := upsert s.configs k v } else s

theorem map_away {n : List UInt8} {f : CfgSection → CfgSection} {ss : List CfgSection} (h : ∀ s ∈ ss, ¬ Same n s.name) :
    (ss.map fun s => if Same n s.name then f s else s) = ss := by
  induction ss with
  | nil => rfl
  | cons s ss ih =>
    rw [List.map_cons, if_neg (h s (by simp)), ih fun t ht => h t (by simp [ht])]

/-- The parser turns lines into sections declaration by declaration. -/
theorem parseLines_steps {cur : Option (List UInt8)} {ls : List (List UInt8)} {ds' : List Decl} {ok : Bool}
    (hr : Reads cur ls ds' ok) {st : CfgState} {ds : List Decl} (h : StateOk st ds cur) :
    (parseLines st ls).1 = ds'.foldl declStep st.sections := by
  have says : ∀ {l : List UInt8} {m}, Means l m → lineSays l = some m := fun hm => (lineSays_iff _ _).2 hm
  induction hr generalizing st ds with
  | done => rfl
  | @nothing cur l ls ds' ok hl hm _ ih =>
    have hl : ¬ l.length > intMax := hl
    have heq := confLine_eq l h.ok
    rw [if_neg hl, says hm] at heq
    simp only [parseLines, heq, Option.bind_some]
    exact ih h
  | @header cur l ls n ds' ok hl hm _ ih =>
    have hn : SectionName n := by
      cases hm with
      | header _ hn _ => exact hn
    have hst := h.header hn
    have hl : ¬ l.length > intMax := hl
    have heq := confLine_eq l h.ok
    rw [if_neg hl, says hm] at heq
    simp only [Option.bind_some] at heq
    rw [List.foldl_cons]
    cases hf : findSection n st.sections with
    | some k =>
      rw [hf] at heq hst
      obtain ⟨pre, s, post, he, _, hs⟩ := findSection_some hf
      have : declStep st.sections (.section n) = st.sections := by
        simp only [declStep]
        rw [if_pos]
        rw [he]; simp [hs]
      simp only [parseLines, heq]
      rw [this]
      exact ih hst
    | none =>
      rw [hf] at heq hst
      have hno := findSection_none hf
      have : declStep st.sections (.section n) = { name := n } :: st.sections := by
        simp only [declStep]
        rw [if_neg]
        simpa using hno
      simp only [parseLines, heq]
      rw [this]
      exact ih hst
  | @setting n l ls k v ds' ok hl hm _ ih =>
    have hkv : Tight k ∧ Tight v := by
      cases hm with
      | setting _ _ _ _ hk hv _ _ => exact ⟨hk, hv⟩
    have hl : ¬ l.length > intMax := hl
    have heq := confLine_eq l h.ok
    rw [if_neg hl, says hm] at heq
    have hin := h.inside
    cases hc : st.cur with
    | none => rw [hc] at hin; exact hin.elim
    | some i =>
      rw [hc] at hin
      obtain ⟨s, hs, hns⟩ := hin
      have hst := h.setting hc hs hkv.1 hkv.2
      simp only [Option.bind_some, hc, hs, Option.map_some] at heq
      rw [List.foldl_cons]
      have : declStep st.sections (.set n k v) =
          updateSection i (fun t => { t with configs := upsert s.configs k v }) st.sections := by
        obtain ⟨pre, post, he, hk⟩ := sectionAt_some hs
        have hd := h.ok.distinct
        rw [he] at hd ⊢
        rw [← hk, updateSection_mid]
        simp only [declStep]
        rw [List.pairwise_append, List.pairwise_cons] at hd
        rw [List.map_append, List.map_cons, if_pos hns, map_away, map_away]
        · intro t ht hx
          exact hd.2.1.1 t ht (hns.symm.trans hx)
        · intro t ht hx
          exact hd.2.2 t ht s (by simp) (hx.symm.trans hns)
      simp only [parseLines, heq]
      rw [this]
      rw [hc] at hst
      exact ih hst
  | @orphan l ls k v hm =>
    have heq := confLine_eq l h.ok
    have hc : st.cur = none := by
      have := h.inside
      cases hc : st.cur with
      | none => rfl
      | some k => rw [hc] at this; exact this.elim
    have : confLine st l = none := by
      rw [heq]; split
      · rfl
      · rw [says hm]; simp [hc]
    simp only [parseLines, this]
    rfl
  | @bad cur l ls hb =>
    have heq := confLine_eq l h.ok
    have : confLine st l = none := by
      rw [heq]; split
      · rfl
      · next hl =>
        rcases hb with hb | hb
        · exact absurd hb hl
        · cases hls : lineSays l with
          | none => rfl
          | some m => exact absurd ((lineSays_iff l m).1 hls) (hb m)
    simp only [parseLines, this]
    rfl

theorem parseConfs_steps {fs : List (List UInt8)} {ds' : List Decl} (hr : FilesRead fs ds') {ss : List CfgSection} {ds : List Decl}
    (h : ConfOk ss ds) : parseConfs ss fs = ds'.foldl declStep ss := by
  induction hr generalizing ss ds with
  | nil => rfl
  | @cons f fs ls rest ds1 ok ds2 hl hr _ ih =>
    have e := parseLines_steps hr h
    rw [← confLines_unique hl, ← parseConf_fst] at e
    obtain ⟨d, o, _, _, _, h3⟩ := parseConf_reads h f
    have := ih h3
    rw [List.foldl_append, ← e]
    exact this

/-- Same sections are treated alike by `q`. -/
def Spec.Conf.Blind (q : List UInt8 → Bool) : Prop := ∀ a b, Same a b → q a = q b

theorem declStep_filter {q : List UInt8 → Bool} (hq : Blind q) (ss : List CfgSection) (d : Decl) :
    (declStep ss d).filter (fun s => q s.name) =
      if q d.about then declStep (ss.filter fun s => q s.name) d else ss.filter fun s => q s.name := by
  cases d with
  | «section» n =>
    show (if ss.any (fun s => decide (Same n s.name)) then ss else { name := n } :: ss).filter (fun s => q s.name) =
      if q n then (if (ss.filter fun s => q s.name).any (fun s => decide (Same n s.name)) then ss.filter fun s => q s.name
        else { name := n } :: ss.filter fun s => q s.name) else ss.filter fun s => q s.name
    by_cases hn : q n = true
    · have : (ss.filter fun s => q s.name).any (fun s => decide (Same n s.name)) = ss.any fun s => decide (Same n s.name) := by
        rw [Bool.eq_iff_iff]
        simp only [List.any_eq_true, List.mem_filter, decide_eq_true_eq]
        constructor
        · rintro ⟨s, ⟨h1, _⟩, h2⟩; exact ⟨s, h1, h2⟩
        · rintro ⟨s, h1, h2⟩; exact ⟨s, ⟨h1, by rw [← hq _ _ h2]; exact hn⟩, h2⟩
      rw [this, if_pos hn]
      split
      · rfl
      · rw [List.filter_cons, if_pos (by simpa using hn)]
    · rw [if_neg hn]
      split
      · rfl
      · rw [List.filter_cons, if_neg (by simpa using hn)]
  | set n k v =>
    show (ss.map fun s => if Same n s.name then { s with configs := upsert s.configs k v } else s).filter (fun s => q s.name) =
      if q n then (ss.filter fun s => q s.name).map fun s => if Same n s.name then { s with configs := upsert s.configs k v } else s
      else ss.filter fun s => q s.name
    have e1 : ∀ ss : List CfgSection, (ss.map fun s => if Same n s.name then { s with configs := upsert s.configs k v } else s).filter
        (fun s => q s.name) = (ss.filter fun s => q s.name).map
          fun s => if Same n s.name then { s with configs := upsert s.configs k v } else s := by
      intro ss
      induction ss with
      | nil => rfl
      | cons s ss ih =>
        rw [List.map_cons, List.filter_cons, List.filter_cons, ih]
        have : (if Same n s.name then { s with configs := upsert s.configs k v } else s : CfgSection).name = s.name := by
          split <;> rfl
        rw [this]
        split <;> rfl
    rw [e1]
    by_cases hn : q n = true
    · rw [if_pos hn]
    · rw [if_neg hn]
      apply map_away
      intro s hs hx
      have := (List.mem_filter.1 hs).2
      rw [← hq _ _ hx] at this
      exact hn this

theorem steps_filter {q : List UInt8 → Bool} (hq : Blind q) (ds : List Decl) (ss : List CfgSection) :
    (ds.foldl declStep ss).filter (fun s => q s.name) =
      (ds.filter fun d => q d.about).foldl declStep (ss.filter fun s => q s.name) := by
  induction ds generalizing ss with
  | nil => rfl
  | cons d ds ih =>
    rw [List.foldl_cons, ih, declStep_filter hq, List.filter_cons]
    split <;> rfl

/-- What is declared about some sections determines these sections. -/
theorem parse_filter {q : List UInt8 → Bool} (hq : Blind q) {fs fs' : List (List UInt8)} {ds ds' : List Decl}
    (h : FilesRead fs ds) (h' : FilesRead fs' ds') (he : ds.filter (fun d => q d.about) = ds'.filter fun d => q d.about) :
    (parseConfs [] fs).filter (fun s => q s.name) = (parseConfs [] fs').filter fun s => q s.name := by
  rw [parseConfs_steps h .nil, parseConfs_steps h' .nil, steps_filter hq, steps_filter hq, he]

/-! ### Endpoints -/

theorem Spec.Conf.EachTo.filter {α β : Type} {R : α → β → Prop} {L : List α} {us : List β} (h : EachTo R L us)
    {p : α → Bool} {p' : β → Bool} (hp : ∀ a ∈ L, ∀ b, R a b → p a = p' b) : EachTo R (L.filter p) (us.filter p') := by
  induction h with
  | nil => exact .nil
  | @cons a b L us h _ ih =>
    have ih := ih fun x hx => hp x (by simp [hx])
    have := hp a (by simp) b h
    rw [List.filter_cons, List.filter_cons, ← this]
    split
    · exact .cons h ih
    · exact ih

theorem Spec.Conf.EachTo.join {α β γ : Type} {R : α → β → Prop} {R' : α → γ → Prop} {S : β → γ → Prop} {L : List α} {us : List β}
    {us' : List γ} (h : EachTo R L us) (hR : ∀ a ∈ L, ∀ b b', R a b → R' a b' → S b b') (h' : EachTo R' L us') :
    EachTo S us us' := by
  induction h generalizing us' with
  | nil => cases h'; exact .nil
  | cons h _ ih =>
    cases h' with
    | cons h1 h2 => exact .cons (hR _ (by simp) _ _ h h1) (ih (fun a ha => hR a (by simp [ha])) h2)

theorem Spec.Conf.EachTo.eq {β : Type} {us us' : List β} (h : EachTo (· = ·) us us') : us = us' := by
  induction h with
  | nil => rfl
  | cons h _ ih => rw [h, ih]

theorem UartFrom.unique {s : CfgSection} {o o' : UartConf} (h : UartFrom s o) (h' : UartFrom s o') : o = o' := by
  obtain ⟨_, x, h1, rfl⟩ := h
  obtain ⟨_, y, h2, rfl⟩ := h'
  rw [h1] at h2; cases h2; rfl

theorem TcpFrom.unique {s : CfgSection} {o o' : TcpConf} (h : TcpFrom s o) (h' : TcpFrom s o') : o = o' := by
  have := h.2.symm.trans h'.2
  cases this; rfl

/-- The section of an endpoint is in the set exactly if the section of its written name is. -/
theorem blind_typed {q : List UInt8 → Bool} (hq : Blind q) {pre type : List UInt8} (hp : 0 ∉ pre) (hs : Same type pre)
    {ss : List CfgSection} {s : CfgSection} (h : s ∈ selected pre ss) : q s.name = q (type ++ s.name.drop pre.length) := by
  obtain ⟨_, name, ht⟩ := (selected_mem hp).1 h
  rw [ht.drop]
  obtain ⟨x, e, hx⟩ := ht
  rw [e]
  exact hq _ _ ((Same.append (hx.nul hp) (hs.nul hp) (hx.1.trans hs.1.symm)).2 ⟨hx.trans hs.symm, Same.rfl' _⟩)

theorem selected_filter (pre : List UInt8) (q : List UInt8 → Bool) (ss : List CfgSection) :
    (selected pre ss).filter (fun s => q s.name) = selected pre (ss.filter fun s => q s.name) := by
  unfold selected
  rw [List.filter_filter, List.filter_filter]
  congr 1
  funext s
  rw [Bool.and_comm]

theorem UdpsFrom.unique {prev : List UdpConf} {L : List CfgSection} {us us' : List UdpConf} (h : UdpsFrom prev L us)
    (h' : UdpsFrom prev L us') : us = us' := by
  induction h generalizing us' with
  | nil => cases h'; rfl
  | cons h _ ih =>
    cases h' with
    | cons h1 h2 =>
      obtain ⟨_, x, e1, rfl⟩ := h
      obtain ⟨_, y, e2, rfl⟩ := h1
      rw [e1] at e2; cases e2
      rw [ih h2]

/-- A configuration without its endpoints. -/
def Spec.Conf.general (c : Config) : Config := { c with uart := [], udp := [], tcp := [] }

theorem readConfig_values {ss : List CfgSection} {c : Config} (h : readConfig ss {} = .ok c) :
    ∃ c1 l, extract (fun k => confValue ss (ascii "General") k) globalOpts {} = some c1 ∧
      extract (fun k => confValue ss (ascii "General") k) logOpts {} = some l ∧ general c = { c1 with log := l } := by
  unfold readConfig at h
  cases h1 : extractNamed ss (ascii "General") globalOpts {} with
  | none => rw [h1] at h; cases h
  | some c1 =>
    rw [h1] at h
    simp only at h
    cases h2 : extractNamed ss (ascii "General") logOpts c1.log with
    | none => rw [h2] at h; cases h
    | some l =>
      rw [h2] at h
      simp only at h
      obtain ⟨f1, f2, f3, hlog⟩ := extract_same_fields h1
      rw [hlog] at h2
      refine ⟨c1, l, extractNamed_value h1 (by decide), extractNamed_value h2 (by decide), ?_⟩
      cases h3 : forSections uartPrefix uartSection ss.length ss { c1 with log := l } with
      | ub => rw [h3] at h; cases h
      | err => rw [h3] at h; cases h
      | ok c3 =>
        rw [h3] at h
        simp only [ConfRes.bind] at h
        cases h4 : forSections udpPrefix udpSection ss.length ss c3 with
        | ub => rw [h4] at h; cases h
        | err => rw [h4] at h; cases h
        | ok c4 =>
          rw [h4] at h
          simp only at h
          obtain ⟨us, rfl, hu⟩ := foldBody_uart (forSections_ok h3)
          obtain ⟨vs, rfl, hv⟩ := foldBody_udp (forSections_ok h4)
          obtain ⟨ws, rfl, hw⟩ := foldBody_tcp (forSections_ok h)
          cases c1
          simp only at f1 f2 f3
          subst f1 f2 f3
          rfl

theorem lastSet_filter {q : List UInt8 → Bool} (hq : Blind q) {sec : List UInt8} (hs : q sec = true) (ds : List Decl)
    (key : List UInt8) : lastSet (ds.filter fun d => q d.about) sec key = lastSet ds sec key := by
  unfold lastSet
  generalize (none : Option (List UInt8)) = r
  induction ds generalizing r with
  | nil => rfl
  | cons d ds ih =>
    rw [List.filter_cons]
    split
    · rw [List.foldl_cons, List.foldl_cons, ih]
    · next hd =>
      rw [ih, List.foldl_cons]
      have : setStep sec key r d = r := by
        cases d with
        | «section» n => rfl
        | set n k v =>
          show (if Same n sec ∧ Same k key then some v else r) = r
          rw [if_neg]
          rintro ⟨hx, _⟩
          exact hd ((hq _ _ hx).trans hs)
      rw [this]

/-- Two UDP endpoints are the same but for a port the router chooses: that of a client whose section gives none. -/
def Spec.Conf.SameButAuto (ds : List Decl) (o o' : UdpConf) : Prop :=
  { o with port := 0 } = { o' with port := 0 } ∧
  (o.mode = .server ∨ (∃ t n, lastSet ds (ascii "UdpEndpoint " ++ o.name) (ascii "Port") = some t ∧ Decimal t n ∧ n < 2 ^ 64 - 1) →
    o.port = o'.port)

/-- C126 except for automatic UDP ports: if two sets of files say the same about the sections `q`, the endpoints of these sections are the same
in both and in the same order, except that the ports of UDP clients that leave them open may differ; also these are the same if `q` contains all
UDP sections.  The other settings are the same if `q` contains the section General.  Missing: automatic ports, see `C126_violated`. -/
theorem C126_others_partial (q : List UInt8 → Bool) (hq : Blind q) (files files' : List (List UInt8)) (ds ds' : List Decl)
    (h : FilesRead files ds) (h' : FilesRead files' ds')
    (he : ds.filter (fun d => q d.about) = ds'.filter fun d => q d.about) (c c' : Config)
    (hc : readConfig (parseConfs [] files) {} = .ok c) (hc' : readConfig (parseConfs [] files') {} = .ok c') :
    c.uart.filter (fun o => q (ascii "UartEndpoint " ++ o.name)) = c'.uart.filter (fun o => q (ascii "UartEndpoint " ++ o.name)) ∧
    c.tcp.filter (fun o => q (ascii "TcpEndpoint " ++ o.name)) = c'.tcp.filter (fun o => q (ascii "TcpEndpoint " ++ o.name)) ∧
    EachTo (SameButAuto ds) (c.udp.filter fun o => q (ascii "UdpEndpoint " ++ o.name))
      (c'.udp.filter fun o => q (ascii "UdpEndpoint " ++ o.name)) ∧
    ((∀ n, q (ascii "UdpEndpoint " ++ n) = true) → c.udp = c'.udp) ∧
    (q (ascii "General") = true → general c = general c') := by
  have ok := parseConfs_ok h
  have ok' := parseConfs_ok h'
  have hpf := parse_filter hq h h' he
  obtain ⟨_, ⟨us, e1, hu⟩, ⟨vs, e2, hv⟩, ⟨ws, e3, hw⟩⟩ := readConfig_ok hc
  obtain ⟨_, ⟨us', e1', hu'⟩, ⟨vs', e2', hv'⟩, ⟨ws', e3', hw'⟩⟩ := readConfig_ok hc'
  have hsel : ∀ pre, (selected pre (parseConfs [] files)).filter (fun s => q s.name) =
      (selected pre (parseConfs [] files')).filter fun s => q s.name := by
    intro pre; rw [selected_filter, selected_filter, hpf]
  refine ⟨?_, ?_, ?_, ?_, ?_⟩
  · rw [e1, e1', List.nil_append, List.nil_append]
    have a := hu.filter (p := fun s => q s.name) (p' := fun o => q (ascii "UartEndpoint " ++ o.name)) (by
      intro s hs o ho
      rw [ho.name]; exact blind_typed hq uartPrefix_nul (by decide) hs)
    have b := hu'.filter (p := fun s => q s.name) (p' := fun o => q (ascii "UartEndpoint " ++ o.name)) (by
      intro s hs o ho
      rw [ho.name]; exact blind_typed hq uartPrefix_nul (by decide) hs)
    rw [hsel] at a
    exact (a.join (S := (· = ·)) (fun _ _ _ _ x y => x.unique y) b).eq
  · rw [e3, e3', List.nil_append, List.nil_append]
    have a := hw.filter (p := fun s => q s.name) (p' := fun o => q (ascii "TcpEndpoint " ++ o.name)) (by
      intro s hs o ho
      rw [(extract_tcp ho.2).1]; exact blind_typed hq tcpPrefix_nul (by decide) hs)
    have b := hw'.filter (p := fun s => q s.name) (p' := fun o => q (ascii "TcpEndpoint " ++ o.name)) (by
      intro s hs o ho
      rw [(extract_tcp ho.2).1]; exact blind_typed hq tcpPrefix_nul (by decide) hs)
    rw [hsel] at a
    exact (a.join (S := (· = ·)) (fun _ _ _ _ x y => x.unique y) b).eq
  · rw [e2, e2', List.nil_append, List.nil_append]
    have a := hv.each.filter (p := fun s => q s.name) (p' := fun o => q (ascii "UdpEndpoint " ++ o.name)) (by
      rintro s hs o ⟨_, ho⟩
      rw [ho.name]; exact blind_typed hq udpPrefix_nul (by decide) hs)
    have b := hv'.each.filter (p := fun s => q s.name) (p' := fun o => q (ascii "UdpEndpoint " ++ o.name)) (by
      rintro s hs o ⟨_, ho⟩
      rw [ho.name]; exact blind_typed hq udpPrefix_nul (by decide) hs)
    rw [← hsel] at b
    refine a.join ?_ b
    rintro s hs o o' ⟨p1, h1⟩ ⟨p2, h2⟩
    have hs := (List.mem_filter.1 hs).1
    have hname := h1.name
    obtain ⟨_, x, x1, x2⟩ := h1
    obtain ⟨_, y, y1, y2⟩ := h2
    rw [x1] at y1
    cases y1
    by_cases hauto : x.mode = .client ∧ x.port = ulongMax
    · rw [if_pos hauto] at x2 y2
      refine ⟨by rw [x2, y2], ?_⟩
      rintro (hm | ⟨t, n, ht, hd, hn⟩)
      · rw [x2] at hm
        exact absurd (hm.symm.trans hauto.1) (by decide)
      · exfalso
        obtain ⟨h3, name, h4⟩ := (selected_mem udpPrefix_nul).1 hs
        have h5 := (extract_udp x1).2.2.2.1
        have h6 : findIn s (ascii "port") = some t := by
          rw [← ht, ← ok.values, hname, h4.drop]
          obtain ⟨z, h7, h8⟩ := h4
          have h9 : Same (ascii "UdpEndpoint " ++ name) s.name := by
            rw [h7]
            have h10 : Same (ascii "UdpEndpoint ") udpPrefix := by decide
            exact (Same.append (h10.nul udpPrefix_nul) (h8.nul udpPrefix_nul) (h10.1.trans h8.1.symm)).2
              ⟨h10.trans h8.symm, Same.rfl' _⟩
          rw [confValue_same h9, ok.values, ← find_lastSet ok.ok ok.values h3]
          exact optValue_key (by decide)
        rw [h6] at h5
        have h7 : parseUl t = some x.port := h5
        rw [parseUl_decimal hd (by omega), hauto.2] at h7
        have : n = ulongMax := Option.some.inj h7
        unfold ulongMax at this
        omega
    · rw [if_neg hauto] at x2 y2
      rw [x2, y2]
      exact ⟨rfl, fun _ => rfl⟩
  · intro hall
    rw [e2, e2', List.nil_append, List.nil_append]
    have hself : ∀ fs, (selected udpPrefix (parseConfs [] fs)).filter (fun s => q s.name) = selected udpPrefix (parseConfs [] fs) := by
      intro fs
      rw [List.filter_eq_self]
      intro s hs
      rw [blind_typed hq udpPrefix_nul (type := ascii "UdpEndpoint ") (by decide) hs]
      exact hall _
    have := hsel udpPrefix
    rw [hself files, hself files'] at this
    rw [this] at hv
    exact hv.unique hv'
  · intro hg
    obtain ⟨c1, l, a1, a2, a3⟩ := readConfig_values hc
    obtain ⟨c1', l', b1, b2, b3⟩ := readConfig_values hc'
    have : (fun k => confValue (parseConfs [] files) (ascii "General") k) = fun k => confValue (parseConfs [] files') (ascii "General") k := by
      funext k
      rw [ok.values, ok'.values, ← lastSet_filter hq hg ds, ← lastSet_filter hq hg ds', he]
    rw [this] at a1 a2
    rw [a1] at b1; rw [a2] at b2
    cases b1; cases b2
    rw [a3, b3]

/-- Whether a section is declared, computed. -/
def declaredB (ds : List Decl) (sec : List UInt8) : Bool :=
  ds.any fun d => match d with
    | .section n => decide (Same n sec)
    | .set _ _ _ => false

theorem declaredB_iff (ds : List Decl) (sec : List UInt8) : declaredB ds sec = true ↔ Declared ds sec := by
  unfold declaredB Declared
  rw [List.any_eq_true]
  constructor
  · rintro ⟨d, hd, hx⟩
    cases d with
    | «section» n => exact ⟨n, hd, by simpa using hx⟩
    | set => cases hx
  · rintro ⟨n, hn, hs⟩
    exact ⟨_, hn, by simpa using hs⟩

/-- A setting of a file is in a section the file declares. -/
theorem Spec.Conf.Reads.about {cur : Option (List UInt8)} {ls : List (List UInt8)} {ds : List Decl} {ok : Bool}
    (h : Reads cur ls ds ok) : ∀ d ∈ ds, Declared ds d.about ∨ cur = some d.about := by
  induction h with
  | done => intro d hd; cases hd
  | nothing _ _ _ ih => exact ih
  | @header cur l ls n ds ok _ _ _ ih =>
    intro d hd
    left
    rcases List.mem_cons.1 hd with rfl | hd
    · exact ⟨n, by simp, Same.rfl' _⟩
    · rcases ih d hd with ⟨m, h1, h2⟩ | h1
      · exact ⟨m, by simp [h1], h2⟩
      · cases h1; exact ⟨d.about, by simp, Same.rfl' _⟩
  | @setting n l ls k v ds ok _ _ _ ih =>
    intro d hd
    rcases List.mem_cons.1 hd with rfl | hd
    · exact .inr rfl
    · rcases ih d hd with ⟨m, h1, h2⟩ | h1
      · exact .inl ⟨m, by simp [h1], h2⟩
      · exact .inr h1
  | orphan => intro d hd; cases hd
  | bad => intro d hd; cases hd

theorem Spec.Conf.FilesRead.append {fs fs' : List (List UInt8)} {ds ds' : List Decl} (h : FilesRead fs ds) (h' : FilesRead fs' ds') :
    FilesRead (fs ++ fs') (ds ++ ds') := by
  induction h with
  | nil => exact h'
  | cons hl hr _ ih => rw [List.append_assoc]; exact .cons hl hr ih

theorem Spec.Conf.EachTo.of_right {α β : Type} {R : α → β → Prop} {L : List α} {us : List β} (h : EachTo R L us)
    {a : α} (ha : a ∈ L) : ∃ b ∈ us, R a b := by
  induction h with
  | nil => cases ha
  | cons h _ ih =>
    rcases List.mem_cons.1 ha with rfl | ha
    · exact ⟨_, by simp, h⟩
    · obtain ⟨s, hs, hr⟩ := ih ha
      exact ⟨s, by simp [hs], hr⟩

/-- **C126** for one more file `f`, read at any place among the others, except for automatic UDP ports: endpoints whose sections the new file does not
mention are in both configurations, exactly as they were; if it mentions no UDP section the UDP endpoints stay as they are, with their ports; if it
does not mention the section General the other settings stay.  Missing: automatic ports, see `C126_violated`. -/
theorem C126_added_partial (pre post : List (List UInt8)) (f : List UInt8) (ds : List Decl) (h : FilesRead (pre ++ post) ds)
    (ls : List (List UInt8)) (rest : List UInt8) (hl : Lines f ls rest) (dx : List Decl) (ok : Bool) (hx : Reads none ls dx ok)
    (c c' : Config) (hc : readConfig (parseConfs [] (pre ++ post)) {} = .ok c)
    (hc' : readConfig (parseConfs [] (pre ++ f :: post)) {} = .ok c') :
    (∀ o, ¬ Declared dx (ascii "UartEndpoint " ++ o.name) → (o ∈ c.uart ↔ o ∈ c'.uart)) ∧
    (∀ o, ¬ Declared dx (ascii "TcpEndpoint " ++ o.name) → (o ∈ c.tcp ↔ o ∈ c'.tcp)) ∧
    (∀ o ∈ c.udp, ¬ Declared dx (ascii "UdpEndpoint " ++ o.name) → ∃ o' ∈ c'.udp, SameButAuto ds o o') ∧
    (∀ o' ∈ c'.udp, ¬ Declared dx (ascii "UdpEndpoint " ++ o'.name) → ∃ o ∈ c.udp, SameButAuto ds o o') ∧
    ((∀ n, ¬ Declared dx (ascii "UdpEndpoint " ++ n)) → c.udp = c'.udp) ∧
    (¬ Declared dx (ascii "General") → general c = general c') := by
  obtain ⟨d1, h1⟩ := filesRead_exists pre
  obtain ⟨d2, h2⟩ := filesRead_exists post
  have e := h.unique (h1.append h2)
  subst e
  have h3 : FilesRead (pre ++ f :: post) (d1 ++ (dx ++ d2)) := h1.append (.cons hl hx h2)
  have hq : Blind fun n => !declaredB dx n := by
    intro a b hab
    have : declaredB dx a = declaredB dx b := by
      rw [Bool.eq_iff_iff, declaredB_iff, declaredB_iff]
      exact ⟨fun ⟨n, x, y⟩ => ⟨n, x, y.trans hab⟩, fun ⟨n, x, y⟩ => ⟨n, x, y.trans hab.symm⟩⟩
    simp only [this]
  have hdx : dx.filter (fun d => !declaredB dx d.about) = [] := by
    rw [List.filter_eq_nil_iff]
    intro d hd
    rcases hx.about d hd with hd | hd
    · simpa using (declaredB_iff _ _).2 hd
    · cases hd
  obtain ⟨k1, k2, k3, k4, k5⟩ := C126_others_partial (fun n => !declaredB dx n) hq (pre ++ post) (pre ++ f :: post) _ _ h h3
    (by simp only [List.filter_append, hdx, List.nil_append]) c c' hc hc'
  have hb : ∀ n, ¬ Declared dx n → (!declaredB dx n) = true := by
    intro n hn
    have : ¬ declaredB dx n = true := fun x => hn ((declaredB_iff _ _).1 x)
    simpa using this
  refine ⟨?_, ?_, ?_, ?_, fun hn => k4 fun n => hb _ (hn n), fun hn => k5 (hb _ hn)⟩
  · intro o ho
    constructor
    · intro hm
      have : o ∈ c.uart.filter (fun o => !declaredB dx (ascii "UartEndpoint " ++ o.name)) := List.mem_filter.2 ⟨hm, hb _ ho⟩
      rw [k1] at this
      exact (List.mem_filter.1 this).1
    · intro hm
      have : o ∈ c'.uart.filter (fun o => !declaredB dx (ascii "UartEndpoint " ++ o.name)) := List.mem_filter.2 ⟨hm, hb _ ho⟩
      rw [← k1] at this
      exact (List.mem_filter.1 this).1
  · intro o ho
    constructor
    · intro hm
      have : o ∈ c.tcp.filter (fun o => !declaredB dx (ascii "TcpEndpoint " ++ o.name)) := List.mem_filter.2 ⟨hm, hb _ ho⟩
      rw [k2] at this
      exact (List.mem_filter.1 this).1
    · intro hm
      have : o ∈ c'.tcp.filter (fun o => !declaredB dx (ascii "TcpEndpoint " ++ o.name)) := List.mem_filter.2 ⟨hm, hb _ ho⟩
      rw [← k2] at this
      exact (List.mem_filter.1 this).1
  · intro o hm ho
    obtain ⟨o', h4, h5⟩ := k3.of_right (List.mem_filter.2 ⟨hm, hb _ ho⟩)
    exact ⟨o', (List.mem_filter.1 h4).1, h5⟩
  · intro o' hm ho
    obtain ⟨o, h4, h5⟩ := k3.mem_right (List.mem_filter.2 ⟨hm, hb _ ho⟩)
    exact ⟨o, (List.mem_filter.1 h4).1, h5⟩

/-- A ground station without a port. -/
def Sample.confAuto : List UInt8 := ascii "[UdpEndpoint old]\nMode=Normal\nAddress=10.0.0.1\n"

/-- Another one at the same address. -/
def Sample.confAuto2 : List UInt8 := ascii "[UdpEndpoint new]\nMode=Normal\nAddress=10.0.0.1\n"

/-- A serial port. -/
def Sample.confUart : List UInt8 := ascii "[UartEndpoint fc]\nDevice=/dev/ttyS0\n"

/-- A file that adds a serial port leaves the UDP endpoint alone. -/
example : ∃ c c', readConfig (parseConfs [] ([Sample.confAuto] ++ [])) {} = .ok c ∧
    readConfig (parseConfs [] ([Sample.confAuto] ++ Sample.confUart :: [])) {} = .ok c' ∧
    c.udp = c'.udp ∧ c.udp.map (·.port) = [14550] ∧ c.uart = [] ∧ c'.uart.map (·.name) = [ascii "fc"] ∧
    (∃ ls rest dx ok, Lines Sample.confUart ls rest ∧ Reads none ls dx ok) := by
  refine ⟨{ udp := [{ name := ascii "old", mode := .client, address := ascii "10.0.0.1", port := 14550 }] },
    { udp := [{ name := ascii "old", mode := .client, address := ascii "10.0.0.1", port := 14550 }],
      uart := [{ name := ascii "fc", device := ascii "/dev/ttyS0", baud := [115200] }] },
    by decide +kernel, by decide +kernel, rfl, rfl, rfl, rfl, ?_⟩
  obtain ⟨rest, h1⟩ := confLines_spec Sample.confUart
  obtain ⟨dx, ok, h2, _⟩ := parseConf_reads .nil Sample.confUart
  exact ⟨_, rest, dx, ok, h1, h2⟩

/-- C126 is false: a further file with a UDP section for the same address moves the endpoint of the section that was there to another port, because
newer sections are read first. -/
theorem C126_violated : ∃ c c', readConfig (parseConfs [] [Sample.confAuto]) {} = .ok c ∧
    readConfig (parseConfs [] [Sample.confAuto, Sample.confAuto2]) {} = .ok c' ∧
    c.udp.map (fun o => (o.name, o.port)) = [(ascii "old", 14550)] ∧
    c'.udp.map (fun o => (o.name, o.port)) = [(ascii "new", 14550), (ascii "old", 14551)] :=
  ⟨{ udp := [{ name := ascii "old", mode := .client, address := ascii "10.0.0.1", port := 14550 }] },
    { udp := [{ name := ascii "new", mode := .client, address := ascii "10.0.0.1", port := 14550 },
              { name := ascii "old", mode := .client, address := ascii "10.0.0.1", port := 14551 }] },
    by decide +kernel, by decide +kernel, rfl, rfl⟩

end Verif
