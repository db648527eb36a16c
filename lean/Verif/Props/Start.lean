/-
C89 - C94: from command line, environment and files to the running router.
-/
import Verif.Spec.Start
import Verif.Props.ConfDir
import Verif.Props.Config
import Verif.Props.Complete

namespace Verif
open Spec Spec.Conf

/-! ### Command line -/

theorem preParse_eq (es : List OptEvent) (p : PreArgs) :
    preParse p es = if (lastArg 86 es).isSome then none
      else some { confFile := (lastArg 99 es).getD p.confFile
                  confDir := (lastArg 100 es).getD p.confDir
                  syslog := p.syslog || (lastArg 121 es).isSome } := by
  induction es generalizing p with
  | nil => simp [preParse, lastArg]
  | cons e es ih =>
    cases e with
    | bad =>
      simp only [preParse, ih, lastArg_cons, argOf, Option.or_none]
    | opt c a =>
      have hne : ∀ x y : UInt8, x ≠ y → argOf y (.opt x a) = none := fun x y h => by simp [argOf, h]
      have heq : ∀ x : UInt8, argOf x (.opt x a) = some a := fun x => by simp [argOf]
      simp only [preParse]
      by_cases h1 : c = 99
      · subst h1
        simp only [if_true, ih, lastArg_cons, heq, hne 99 86 (by decide), hne 99 100 (by decide),
          hne 99 121 (by decide), Option.or_none]
        cases lastArg 99 es <;> rfl
      · rw [if_neg h1]
        by_cases h2 : c = 100
        · subst h2
          simp only [if_true, ih, lastArg_cons, heq, hne 100 86 (by decide), hne 100 99 (by decide),
            hne 100 121 (by decide), Option.or_none]
          cases lastArg 100 es <;> rfl
        · rw [if_neg h2]
          by_cases h3 : c = 121
          · subst h3
            simp only [if_true, ih, lastArg_cons, heq, hne 121 86 (by decide), hne 121 99 (by decide),
              hne 121 100 (by decide), Option.or_none]
            cases lastArg 121 es <;> simp
          · rw [if_neg h3]
            by_cases h4 : c = 86
            · subst h4
              rw [if_pos rfl, lastArg_cons, heq]
              cases lastArg 86 es <;> rfl
            · rw [if_neg h4]
              simp only [ih, lastArg_cons, hne _ _ h1, hne _ _ h2, hne _ _ h3, hne _ _ h4, Option.or_none]

theorem confName_chosen (es : List OptEvent) (letter : UInt8) (var : Option (List UInt8)) (d : String) :
    confName ((lastArg letter es).getD []) var (ascii d) = chosen es letter var d := by
  unfold confName chosen
  cases lastArg letter es with
  | none => cases var <;> simp
  | some a => cases a <;> cases var <;> simp

/-- The program, with the names of file and directory as chosen. -/
theorem mainStart_eq (h : Host) (argv : List (List UInt8)) :
    mainStart h argv = if (lastArg 86 (getopt argv).1).isSome then .exits 0
      else match mainConfig (h.file (confFileOf h argv)) (confDirOf h argv) (h.dir (confDirOf h argv)) h.isChr argv with
        | .ub => .ub
        | .err => .exits 1
        | .ok c => if !h.epoll then .exits 1 else
          match addEndpoints h c with
          | none => .exits 1
          | some r => .runs r := by
  unfold mainStart
  rw [preParse_eq]
  cases hv : (lastArg 86 (getopt argv).1).isSome with
  | true => rfl
  | false =>
    simp only [Bool.false_eq_true, if_false]
    unfold Host.config confFileOf confDirOf defaultConfFile defaultConfDir
    rw [confName_chosen, confName_chosen]
    rfl

theorem collectEnts_ok {dir : List UInt8} : ∀ (es : List DirEnt) (i : Nat) {r}, collectEnts dir i es = .ok r →
    (∀ e ∈ es, dir.length + 1 + e.name.length < 4096) ∧ (i + (regularFiles es).length ≤ 128 ∨ regularFiles es = []) := by
  intro es
  induction es with
  | nil => intro i r _; exact ⟨by simp, .inr rfl⟩
  | cons e es ih =>
    intro i r h
    unfold collectEnts at h
    simp only at h
    split at h
    · cases h
    · next hl =>
      have hl : dir.length + 1 + e.name.length < 4096 := by simp at hl; omega
      cases hf : e.file with
      | none =>
        simp only [hf] at h
        obtain ⟨h1, h2⟩ := ih i h
        have : regularFiles (e :: es) = regularFiles es := by simp [regularFiles, hf]
        rw [this]
        exact ⟨by simpa [hl] using h1, h2⟩
      | some f =>
        simp only [hf] at h
        have hr : regularFiles (e :: es) = (e.name, f) :: regularFiles es := by simp [regularFiles, hf]
        split at h
        · cases h
        · next hi =>
          cases hc : collectEnts dir (i + 1) es with
          | ub => rw [hc] at h; cases h
          | err => rw [hc] at h; cases h
          | ok r' =>
            obtain ⟨h1, h2⟩ := ih (i + 1) hc
            refine ⟨by simpa [hl] using h1, .inl ?_⟩
            rw [hr, List.length_cons]
            rcases h2 with h2 | h2
            · omega
            · rw [h2]; simp; omega

/-- Reading the files successfully means reading all of them, in order. -/
theorem readConfFiles_ok {main : FileState} {dirName : List UInt8} {dir : Option (List DirEnt)} {ss : List CfgSection}
    (h : readConfFiles main dirName dir = .ok ss) :
    ∃ ms cs, MainContent main ms ∧ DirContent dir cs ∧ (∀ c ∈ ms ++ cs, GoodFile c) ∧ ss = parseConfs [] (ms ++ cs) := by
  cases dir with
  | none =>
    have hm : readMain main = .ok ss := by
      unfold readConfFiles at h
      cases hr : readMain main with
      | ub => rw [hr] at h; cases h
      | err => rw [hr] at h; cases h
      | ok s => rw [hr] at h; exact h
    obtain ⟨ms, h1, h2, h3⟩ := (main_spec main ss).1 hm
    exact ⟨ms, [], h1, .inl ⟨rfl, rfl⟩, by simpa using h2, by simpa using h3⟩
  | some es =>
    have hcol : ∃ r, collectEnts dirName 0 es = .ok r := by
      unfold readConfFiles at h
      cases hr : readMain main with
      | ub => rw [hr] at h; cases h
      | err => rw [hr] at h; cases h
      | ok s =>
        rw [hr] at h
        simp only [ConfRes.bind] at h
        cases hc : collectEnts dirName 0 es with
        | ub => rw [hc] at h; cases h
        | err => rw [hc] at h; cases h
        | ok r => exact ⟨r, rfl⟩
    obtain ⟨r, hr⟩ := hcol
    obtain ⟨hp, hn⟩ := collectEnts_ok es 0 hr
    have hn : (regularFiles es).length ≤ 128 := by
      rcases hn with hn | hn
      · omega
      · rw [hn]; simp
    obtain ⟨_, order, h1, h2, h3⟩ := C64_files_partial main dirName es hn hp
    obtain ⟨ms, cs, h4, h5, h6, h7⟩ := (h3 ss).1 h
    exact ⟨ms, cs, h4, .inr ⟨es, order, rfl, h1, h2, h5⟩, h6, h7⟩

/-- Everything that has happened when the router runs. -/
theorem mainStart_runs {h : Host} {argv : List (List UInt8)} {r : Running} (hr : mainStart h argv = .runs r) :
    ∃ files ds c0 c, FilesUsed h argv files ∧ (∀ f ∈ files, GoodFile f) ∧ FilesRead files ds ∧
      readConfig (parseConfs [] files) {} = .ok c0 ∧ parseArgv h.isChr argv c0 = some c ∧ addEndpoints h c = some r ∧
      lastArg 86 (getopt argv).1 = none := by
  rw [mainStart_eq] at hr
  split at hr
  · cases hr
  · next hv =>
    split at hr
    · cases hr
    · cases hr
    · next c hc =>
      split at hr
      · cases hr
      · split at hr
        · cases hr
        · next r' hadd =>
          cases hr
          unfold mainConfig at hc
          cases h1 : readConfFiles (h.file (confFileOf h argv)) (confDirOf h argv) (h.dir (confDirOf h argv)) with
          | ub => rw [h1] at hc; cases hc
          | err => rw [h1] at hc; cases hc
          | ok ss =>
            rw [h1] at hc
            obtain ⟨ms, cs, h2, h3, h4, h5⟩ := readConfFiles_ok h1
            subst h5
            simp only [ConfRes.bind] at hc
            cases h6 : readConfig (parseConfs [] (ms ++ cs)) {} with
            | ub => rw [h6] at hc; cases hc
            | err => rw [h6] at hc; cases hc
            | ok c0 =>
              rw [h6] at hc
              simp only at hc
              cases h7 : parseArgv h.isChr argv c0 with
              | none => rw [h7] at hc; cases hc
              | some c' =>
                rw [h7] at hc
                cases hc
                obtain ⟨ds, hds⟩ := filesRead_exists (ms ++ cs)
                exact ⟨ms ++ cs, ds, c0, c, ⟨ms, cs, h2, h3, rfl⟩, h4, hds, h6, h7, hadd, by simpa using hv⟩

/-! ### C89 -/

/-- A host with files of its own and a serial port. -/
def Sample.host : Host :=
  { file := fun n => if n = ascii "/my.conf" then .content (ascii "[UdpEndpoint g]\nMode=Server\nAddress=10.0.0.1\nPort=14560\n")
      else if n = ascii "/etc/mavlink-router/main.conf" then .content (ascii "[TcpEndpoint t]\nAddress=10.0.0.2\nPort=5790\n")
      else .missing }

/-- **C89**: how the program gets on does not depend on any file or directory but the chosen ones: the argument of the last
`-c` or `--conf-file` (`-d`, `--conf-dir`) if it is not empty, else the environment variable if it is set, else the
default. -/
theorem C89_chosen (h h' : Host) (argv : List (List UInt8)) (hf : h'.file (confFileOf h argv) = h.file (confFileOf h argv))
    (hd : h'.dir (confDirOf h argv) = h.dir (confDirOf h argv)) (hv : h'.varFile = h.varFile) (hv' : h'.varDir = h.varDir)
    (hc : h'.isChr = h.isChr) (he : h'.epoll = h.epoll) (ho : h'.opens = h.opens) (hl : h'.listens = h.listens) :
    mainStart h' argv = mainStart h argv := by
  have e1 : confFileOf h' argv = confFileOf h argv := by unfold confFileOf; rw [hv]
  have e2 : confDirOf h' argv = confDirOf h argv := by unfold confDirOf; rw [hv']
  rw [mainStart_eq, mainStart_eq, e1, e2, hf, hd, hc, he]
  have : ∀ c, addEndpoints h' c = addEndpoints h c := by intro c; unfold addEndpoints; rw [ho, hl]
  simp only [this]

/-- **C89**: when the router runs, its settings were read from exactly these files: the chosen file, then those of the
chosen directory in alphabetical order. -/
theorem C89_read (h : Host) (argv : List (List UInt8)) (r : Running) (hr : mainStart h argv = .runs r) :
    ∃ files ss c0, FilesUsed h argv files ∧ (∀ f ∈ files, GoodFile f) ∧
      (∀ ds, FilesRead files ds → ∀ sec key, confValue ss sec key = lastSet ds sec key) ∧ readConfig ss {} = .ok c0 ∧
      ∃ c, parseArgv h.isChr argv c0 = some c ∧ addEndpoints h c = some r := by
  obtain ⟨files, ds, c0, c, h1, h2, _, h4, h5, h6, _⟩ := mainStart_runs hr
  exact ⟨files, _, c0, h1, h2, fun ds hd => C54_last_wins files ds hd, h4, c, h5, h6⟩

example : (∃ r, mainStart Sample.host [ascii "-c", ascii "/my.conf"] = .runs r ∧ r.eps.map (·.kind) = [.udp]) ∧
    (∃ r, mainStart Sample.host [] = .runs r ∧ r.eps.map (·.kind) = [.tcp]) ∧
    (∃ r, mainStart { Sample.host with varFile := some (ascii "/my.conf") } [ascii "-c", ascii "/x", ascii "--conf-file="] =
      .runs r ∧ r.eps.map (·.kind) = [.udp]) := by
  refine ⟨⟨{ eps := [{ kind := .udp }], sniffer := 0, dedup := 0, server := some 5760, stats := false, log := {} },
      by decide +kernel, by decide +kernel⟩,
    ⟨{ eps := [{ kind := .tcp }], sniffer := 0, dedup := 0, server := some 5760, stats := false, log := {} },
      by decide +kernel, by decide +kernel⟩,
    ⟨{ eps := [{ kind := .udp }], sniffer := 0, dedup := 0, server := some 5760, stats := false, log := {} },
      by decide +kernel, by decide +kernel⟩⟩

/-! ### C90 -/

/-- C90 for files that exist: if the chosen configuration file cannot be read, or has a bad line, the program ends with a
failure status (unless it was only asked for its version).  Missing: a file that does not exist, see `C90_violated`. -/
theorem C90_bad_file_partial (h : Host) (argv : List (List UInt8)) (hv : lastArg 86 (getopt argv).1 = none)
    (hb : h.file (confFileOf h argv) = .unreadable ∨
      ∃ f, h.file (confFileOf h argv) = .content f ∧ ¬ GoodFile f) :
    mainStart h argv = .exits 1 := by
  have hm : readMain (h.file (confFileOf h argv)) = .err := by
    rcases hb with hb | ⟨f, hf, hg⟩
    · rw [hb]; rfl
    · rw [hf]
      have := parseConf_good ConfOk.nil f
      simp only [readMain]
      rw [if_neg (fun x => hg (this.1 x))]
  rw [mainStart_eq, hv]
  simp only [Option.isSome_none, Bool.false_eq_true, if_false, mainConfig, readConfFiles, hm, ConfRes.bind]

example : lastArg 86 (getopt [ascii "-c", ascii "/my.conf"]).1 = none ∧
    ({ file := fun _ => .unreadable } : Host).file (confFileOf {} [ascii "-c", ascii "/my.conf"]) = .unreadable ∧
    mainStart { file := fun _ => .content (ascii "oops\n") } [] = .exits 1 :=
  ⟨by decide +kernel, rfl, by decide +kernel⟩

/-- C90 is false: a configuration file named on the command line that does not exist is passed over, and the router runs
with the defaults. -/
theorem C90_violated : ∃ (h : Host) (argv : List (List UInt8)) (r : Running), lastArg 99 (getopt argv).1 = some (ascii "/my.conf") ∧
    h.file (ascii "/my.conf") = .missing ∧ mainStart h argv = .runs r ∧ r.eps = [] :=
  ⟨{}, [ascii "-c", ascii "/my.conf"],
    { eps := [], sniffer := 0, dedup := 0, server := some 5760, stats := false, log := {} },
    by decide +kernel, rfl, by decide +kernel, rfl⟩

/-! ### C91 -/

theorem argvOptions_help {es : List OptEvent} (hh : (lastArg 104 es).isSome) (c : Config) : argvOptions c es = none := by
  induction es generalizing c with
  | nil => cases hh
  | cons e es ih =>
    unfold argvOptions
    cases ho : argvOption c e with
    | none => rfl
    | some c1 =>
      apply ih
      rw [lastArg_cons] at hh
      cases hl : lastArg 104 es with
      | some v => rfl
      | none =>
        rw [hl] at hh
        cases e with
        | bad => cases hh
        | opt l a =>
          simp only [Option.none_or, argOf] at hh
          split at hh
          · next hl => subst hl; cases ho
          · cases hh

/-- C91 in part: `--version` ends the program successfully whatever else is on the command line and whatever the
configuration is; with `-h` the router is never started.  Missing: `-h` ends the program with a failure status, and only
after the configuration was read, see `C91_violated`. -/
theorem C91_information_partial (h : Host) (argv : List (List UInt8)) :
    ((lastArg 86 (getopt argv).1).isSome → mainStart h argv = .exits 0) ∧
    ((lastArg 104 (getopt argv).1).isSome → ∀ r, mainStart h argv ≠ .runs r) := by
  constructor
  · intro hv; rw [mainStart_eq, if_pos hv]
  · intro hh r hr
    obtain ⟨_, _, c0, c, _, _, _, _, hp, _⟩ := mainStart_runs hr
    rw [parseArgv, argvOptions_help hh] at hp
    cases hp

example : (lastArg 86 (getopt [ascii "-x", ascii "--version"]).1).isSome ∧ (lastArg 104 (getopt [ascii "-rh"]).1).isSome := by
  constructor <;> decide +kernel

/-- C91 is false: `-h` alone ends with a failure status, and with more than 128 files in the configuration directory it
does not even get there. -/
theorem C91_violated : mainStart {} [ascii "-h"] = .exits 1 ∧
    mainStart { dir := fun _ => some ((List.range 129).map fun n => ⟨[UInt8.ofNat (65 + n)], some (.content (ascii "#\n"))⟩) } [ascii "-h"] = .ub := by
  constructor <;> decide +kernel

/-! ### C92 -/

/-- Endpoints added without filters and group. -/
structure PlainAdded (c c' : Config) : Prop where
  uart : ∃ us, c'.uart = c.uart ++ us ∧ ∀ o ∈ us, o.filters = {} ∧ o.group = []
  udp : ∃ us, c'.udp = c.udp ++ us ∧ ∀ o ∈ us, o.filters = {} ∧ o.group = []
  tcp : ∃ us, c'.tcp = c.tcp ++ us ∧ ∀ o ∈ us, o.filters = {} ∧ o.group = []

theorem PlainAdded.same {c c' : Config} (h1 : c'.uart = c.uart) (h2 : c'.udp = c.udp) (h3 : c'.tcp = c.tcp) :
    PlainAdded c c' :=
  ⟨⟨[], by simp [h1], by simp⟩, ⟨[], by simp [h2], by simp⟩, ⟨[], by simp [h3], by simp⟩⟩

theorem PlainAdded.trans {c c' c'' : Config} (x : PlainAdded c c') (y : PlainAdded c' c'') : PlainAdded c c'' := by
  obtain ⟨⟨u1, a1, b1⟩, ⟨u2, a2, b2⟩, ⟨u3, a3, b3⟩⟩ := x
  obtain ⟨⟨v1, c1, d1⟩, ⟨v2, c2, d2⟩, ⟨v3, c3, d3⟩⟩ := y
  refine ⟨⟨u1 ++ v1, by rw [c1, a1, List.append_assoc], ?_⟩, ⟨u2 ++ v2, by rw [c2, a2, List.append_assoc], ?_⟩,
    ⟨u3 ++ v3, by rw [c3, a3, List.append_assoc], ?_⟩⟩
  · intro o ho; exact (List.mem_append.1 ho).elim (b1 o) (d1 o)
  · intro o ho; exact (List.mem_append.1 ho).elim (b2 o) (d2 o)
  · intro o ho; exact (List.mem_append.1 ho).elim (b3 o) (d3 o)

theorem argvOption_plain {e : OptEvent} {c c1 : Config} (h : argvOption c e = some c1) : PlainAdded c c1 := by
  unfold argvOption at h
  split at h
  · cases h
  · cases h
  · split at h
    · cases h
    · next ip port _ _ =>
      simp only at h
      generalize (if port ≠ ulongMax then port else findNextUdpPort [] c.udp) = port' at h
      split at h
      · cases h
      · cases h
        exact ⟨⟨[], by simp, by simp⟩, ⟨[_], rfl, by simp⟩, ⟨[], by simp, by simp⟩⟩
  · cases h; exact .same rfl rfl rfl
  · rw [Option.map_eq_some_iff] at h
    obtain ⟨p, hp, rfl⟩ := h
    exact .same rfl rfl rfl
  · cases h; exact .same rfl rfl rfl
  · cases h; exact .same rfl rfl rfl
  · rw [Option.map_eq_some_iff] at h
    obtain ⟨p, hp, rfl⟩ := h
    exact .same rfl rfl rfl
  · cases h; exact .same rfl rfl rfl
  · simp only at h
    split at h
    · cases h
    · cases h; exact .same rfl rfl rfl
  · split at h
    · cases h
    · simp only at h
      split at h
      · cases h
      · split at h
        · cases h
        · cases h
          exact ⟨⟨[], by simp, by simp⟩, ⟨[], by simp, by simp⟩, ⟨[_], rfl, by simp⟩⟩
  · cases h; exact .same rfl rfl rfl

theorem argvPlain_plain {isChr : List UInt8 → Bool} {a : List UInt8} {c c1 : Config}
    (h : argvPlain isChr c a = some c1) : PlainAdded c c1 := by
  unfold argvPlain at h
  split at h
  · cases h
  · next base number suffix _ =>
    simp only at h
    generalize (if number ≠ ulongMax then (atoiC suffix % 2 ^ 32).toNat else 115200) = baud at h
    split at h
    · split at h
      · cases h
      · split at h
        · cases h
        · cases h
          exact ⟨⟨[], by simp, by simp⟩, ⟨[_], rfl, by simp⟩, ⟨[], by simp, by simp⟩⟩
    · cases h
      exact ⟨⟨[_], rfl, by simp⟩, ⟨[], by simp, by simp⟩, ⟨[], by simp, by simp⟩⟩

theorem parseArgv_plain {isChr : List UInt8 → Bool} {argv : List (List UInt8)} {c c' : Config}
    (h : parseArgv isChr argv c = some c') : PlainAdded c c' := by
  have ho : ∀ (es : List OptEvent) (c : Config) {c'}, argvOptions c es = some c' → PlainAdded c c' := by
    intro es
    induction es with
    | nil => intro c c' h; cases h; exact .same rfl rfl rfl
    | cons e es ih =>
      intro c c' h
      simp only [argvOptions, Option.bind_eq_some_iff] at h
      obtain ⟨c1, h1, h2⟩ := h
      exact (argvOption_plain h1).trans (ih c1 h2)
  have hp : ∀ (as : List (List UInt8)) (c : Config) {c'}, argvPlains isChr c as = some c' → PlainAdded c c' := by
    intro as
    induction as with
    | nil => intro c c' h; cases h; exact .same rfl rfl rfl
    | cons a as ih =>
      intro c c' h
      simp only [argvPlains, Option.bind_eq_some_iff] at h
      obtain ⟨c1, h1, h2⟩ := h
      exact (argvPlain_plain h1).trans (ih c1 h2)
  simp only [parseArgv, Option.bind_eq_some_iff] at h
  obtain ⟨c1, h1, h2⟩ := h
  exact (ho _ _ h1).trans (hp _ _ h2)

theorem addEndpoints_eps {h : Host} {c : Config} {r : Running} (hr : addEndpoints h c = some r) :
    r.eps = c.uart.map (fun o => setupEp .uart o.filters o.group) ++
        c.udp.map (fun o => setupEp .udp o.filters o.group) ++
        c.tcp.zipIdx.map (fun x => tcpEp (h.opens (c.uart.length + c.udp.length + x.2)) x.1) ++ c.log.endpoints := by
  unfold addEndpoints at hr
  simp only at hr
  split at hr
  · cases hr; rfl
  · cases hr

theorem zipIdx_fst {α : Type} {x : α × Nat} {l : List α} (h : x ∈ l.zipIdx) : x.1 ∈ l := by
  have := List.mem_zipIdx_iff_getElem?.1 h
  exact List.mem_of_getElem? this

theorem addEndpoints_ok {h : Host} {c : Config} {r : Running} (hr : addEndpoints h c = some r) : ConfigOk r.eps := by
  rw [addEndpoints_eps hr]
  intro e he
  simp only [List.mem_append, List.mem_map] at he
  have hlog : ∀ e ∈ c.log.endpoints, e = logEp := by
    intro e he
    unfold LogConf.endpoints at he
    split at he
    · cases he
    · split at he
      · simpa using he
      · simpa using he
  rcases he with ((⟨o, _, rfl⟩ | ⟨o, _, rfl⟩) | ⟨o, _, rfl⟩) | he
  · exact ⟨rfl, fun h => by simp [setupEp] at h, fun _ => rfl⟩
  · exact ⟨rfl, fun h => by simp [setupEp] at h, fun _ => rfl⟩
  · exact ⟨rfl, fun h => by simp [tcpEp, setupEp] at h, fun _ => rfl⟩
  · rw [hlog e he]
    exact ⟨rfl, fun _ => ⟨rfl, rfl⟩, fun h => absurd rfl h⟩

theorem groupName_inj {a b : List UInt8} (h : groupName a = groupName b) : a = b := by
  unfold groupName at h
  have h := congrArg String.toList h
  rw [String.toList_ofList, String.toList_ofList] at h
  refine (List.map_inj_right ?_).mp h
  intro x y hxy
  have hx : ∀ z : UInt8, (Char.ofNat z.toNat).toNat = z.toNat := by
    intro z
    have := z.toNat_lt
    unfold Char.ofNat
    rw [dif_pos (.inl (by omega))]
    simp [Char.ofNatAux, Char.toNat, UInt32.toNat]
  have := congrArg Char.toNat hxy
  rw [hx, hx] at this
  exact UInt8.toNat_inj.mp this

theorem lastSet_same {ds : List Decl} {sec sec' : List UInt8} (h : Same sec sec') (key : List UInt8) :
    lastSet ds sec key = lastSet ds sec' key := by
  unfold lastSet
  congr 1
  funext r d
  cases d with
  | «section» n => rfl
  | set s k v =>
    simp only [setStep]
    have : (Same s sec ∧ Same k key) ↔ (Same s sec' ∧ Same k key) :=
      and_congr_left fun _ => ⟨fun x => x.trans h, fun x => x.trans h.symm⟩
    simp only [this]

theorem ids_some (v : Option (List UInt8)) : ∃ l, IdsAre v l := ⟨_, idsAre⟩

theorem fromSection_same {ds : List Decl} {sec sec' : List UInt8} {e : Ep} (h : Same sec sec')
    (hf : FromSection ds sec e) : FromSection ds sec' e := by
  obtain ⟨⟨t, ht, ⟨name, hn⟩, hk⟩, h2, h3, h4⟩ := hf
  have hnul : (0 : UInt8) ∉ ascii t.1 := by
    have : ∀ t ∈ kindNames, (0 : UInt8) ∉ ascii t.1 := by decide
    exact this t ht
  obtain ⟨name', hn', _⟩ := hn.congr hnul h
  have e : (fun k => lastSet ds sec (ascii k)) = fun k => lastSet ds sec' (ascii k) := by
    funext k; exact lastSet_same h _
  rw [e] at h2
  rw [lastSet_same h, lastSet_same h] at h3
  rw [lastSet_same h] at h4
  exact ⟨⟨t, ht, ⟨name', hn'⟩, hk⟩, h2, h3, h4⟩

theorem uart_section {ds : List Decl} {sec : List UInt8} {o : UartConf} (ht : Typed (ascii "UartEndpoint ") sec o.name)
    (ha : UartAsked (fun k => lastSet ds sec (ascii k)) o) : FromSection ds sec (setupEp .uart o.filters o.group) := by
  obtain ⟨l, hl⟩ := ids_some (lastSet ds sec (ascii "Filter"))
  refine ⟨⟨("UartEndpoint ", .uart), by decide, ⟨_, ht⟩, rfl⟩, ha.filters, ⟨l, _, hl, ha.allowOutMsg, by simp [setupEp]⟩, ?_⟩
  show groupName o.group = _
  rw [ha.group]; rfl

theorem udp_section {ds : List Decl} {sec : List UInt8} {o : UdpConf} (ht : Typed (ascii "UdpEndpoint ") sec o.name)
    (ha : UdpAsked (fun k => lastSet ds sec (ascii k)) o) : FromSection ds sec (setupEp .udp o.filters o.group) := by
  obtain ⟨l, l', h1, h2, h3⟩ := ha.allowOutMsg
  refine ⟨⟨("UdpEndpoint ", .udp), by decide, ⟨_, ht⟩, rfl⟩, ha.filters, ⟨l, l', h1, h2, by simpa [setupEp] using h3⟩, ?_⟩
  show groupName o.group = _
  rw [ha.group]; rfl

theorem tcp_section {ds : List Decl} {sec : List UInt8} {o : TcpConf} (b : Bool) (ht : Typed (ascii "TcpEndpoint ") sec o.name)
    (ha : TcpAsked (fun k => lastSet ds sec (ascii k)) o) : FromSection ds sec (tcpEp b o) := by
  obtain ⟨l, hl⟩ := ids_some (lastSet ds sec (ascii "Filter"))
  refine ⟨⟨("TcpEndpoint ", .tcp), by decide, ⟨_, ht⟩, rfl⟩, ha.filters, ⟨l, _, hl, ha.allowOutMsg, by simp [setupEp, tcpEp]⟩, ?_⟩
  show groupName o.group = _
  rw [ha.group]; rfl

/-- **C92**: when the router runs, every endpoint section of the configuration has an endpoint of its type, with the filters
and the group the section gives; all other endpoints have neither. -/
theorem C92_endpoints (h : Host) (argv : List (List UInt8)) (r : Running) (hr : mainStart h argv = .runs r) :
    ∃ files ds, FilesUsed h argv files ∧ FilesRead files ds ∧ ConfigOk r.eps ∧
      (∀ e ∈ r.eps, (∃ sec, Declared ds sec ∧ FromSection ds sec e) ∨ (e.filters = {} ∧ e.group = "")) ∧
      ∀ sec, Declared ds sec → ∀ t ∈ kindNames, ∀ name, Typed (ascii t.1) sec name →
        ∃ e ∈ r.eps, e.kind = t.2 ∧ FromSection ds sec e := by
  obtain ⟨files, ds, c0, c, h1, _, h3, h4, h5, h6, _⟩ := mainStart_runs hr
  refine ⟨files, ds, h1, h3, addEndpoints_ok h6, ?_, ?_⟩
  all_goals
    obtain ⟨a1, a2, a3⟩ := C69_options files ds h3 c0 h4
    obtain ⟨⟨us, e1, p1⟩, ⟨vs, e2, p2⟩, ⟨ws, e3, p3⟩⟩ := parseArgv_plain h5
    rw [addEndpoints_eps h6]
  · intro e he
    simp only [List.mem_append, List.mem_map] at he
    rcases he with ((⟨o, ho, rfl⟩ | ⟨o, ho, rfl⟩) | ⟨x, hx, rfl⟩) | he
    · rw [e1] at ho
      rcases List.mem_append.1 ho with ho | ho
      · obtain ⟨sec, d1, d2, d3⟩ := a1 o ho
        exact .inl ⟨sec, d1, uart_section d2 d3⟩
      · obtain ⟨q1, q2⟩ := p1 o ho
        exact .inr ⟨q1, by show groupName o.group = ""; rw [q2]; rfl⟩
    · rw [e2] at ho
      rcases List.mem_append.1 ho with ho | ho
      · obtain ⟨sec, d1, d2, d3⟩ := a2 o ho
        exact .inl ⟨sec, d1, udp_section d2 d3⟩
      · obtain ⟨q1, q2⟩ := p2 o ho
        exact .inr ⟨q1, by show groupName o.group = ""; rw [q2]; rfl⟩
    · have ho := zipIdx_fst hx
      rw [e3] at ho
      rcases List.mem_append.1 ho with ho | ho
      · obtain ⟨sec, d1, d2, d3⟩ := a3 _ ho
        exact .inl ⟨sec, d1, tcp_section _ d2 d3⟩
      · obtain ⟨q1, q2⟩ := p3 _ ho
        exact .inr ⟨q1, by show groupName x.1.group = ""; rw [q2]; rfl⟩
    · right
      unfold LogConf.endpoints at he
      split at he
      · cases he
      · split at he
        all_goals
          have : e = logEp := by simpa using he
          rw [this]; exact ⟨rfl, rfl⟩
  · obtain ⟨o1, o2, o3⟩ := C58_endpoints_partial files ds h3 c0 h4
    intro sec hd t ht name hn
    simp only [kindNames, List.mem_cons, List.not_mem_nil, or_false] at ht
    rcases ht with rfl | rfl | rfl
    · obtain ⟨n, hn1, hs⟩ := o1.all sec name hd hn
      obtain ⟨o, ho, rfl⟩ := List.mem_map.1 hn1
      obtain ⟨sec', _, d2, d3⟩ := a1 o ho
      refine ⟨_, ?_, ?_, fromSection_same ((d2.same (by decide) hn).2 hs) (uart_section d2 d3)⟩
      · simp only [List.mem_append, List.mem_map]
        exact .inl (.inl (.inl ⟨o, by rw [e1]; exact List.mem_append_left _ ho, rfl⟩))
      · rfl
    · obtain ⟨n, hn1, hs⟩ := o2.all sec name hd hn
      obtain ⟨o, ho, rfl⟩ := List.mem_map.1 hn1
      obtain ⟨sec', _, d2, d3⟩ := a2 o ho
      refine ⟨_, ?_, ?_, fromSection_same ((d2.same (by decide) hn).2 hs) (udp_section d2 d3)⟩
      · simp only [List.mem_append, List.mem_map]
        exact .inl (.inl (.inr ⟨o, by rw [e2]; exact List.mem_append_left _ ho, rfl⟩))
      · rfl
    · obtain ⟨n, hn1, hs⟩ := o3.all sec name hd hn
      obtain ⟨o, ho, rfl⟩ := List.mem_map.1 hn1
      obtain ⟨sec', _, d2, d3⟩ := a3 o ho
      have hz : ∃ k, (o, k) ∈ c.tcp.zipIdx := by
        rw [e3]
        obtain ⟨k, hk, hk'⟩ := List.mem_iff_getElem.1 (List.mem_append_left ws ho)
        exact ⟨k, List.mem_zipIdx_iff_getElem?.2 (by rw [← hk']; exact List.getElem?_eq_getElem hk)⟩
      obtain ⟨k, hk⟩ := hz
      refine ⟨tcpEp (h.opens (c.uart.length + c.udp.length + k)) o, ?_, ?_,
        fromSection_same ((d2.same (by decide) hn).2 hs) (tcp_section _ d2 d3)⟩
      · simp only [List.mem_append, List.mem_map]
        exact .inl (.inr ⟨(o, k), hk, rfl⟩)
      · rfl

theorem oneForEach_map {α : Type} {ds : List Decl} {t : String × EpKind} {os : List α} (name : α → List UInt8)
    (ep : Nat → α → Ep) (hn : OneEach (ascii t.1) ds (os.map name))
    (hs : ∀ o ∈ os, ∃ sec, Declared ds sec ∧ Typed (ascii t.1) sec (name o) ∧
      ∀ k, (ep k o).kind = t.2 ∧ FromSection ds sec (ep k o)) :
    OneForEach ds t (os.zipIdx.map fun x => ep x.2 x.1) := by
  refine ⟨os.map name, hn, by simp, ?_⟩
  intro k n e h1 h2
  rw [List.getElem?_map] at h1 h2
  rw [List.getElem?_zipIdx] at h2
  cases ho : os[k]? with
  | none => rw [ho] at h1; cases h1
  | some o =>
    rw [ho] at h1 h2
    cases h1
    simp only [Option.map_some, Option.some.injEq] at h2
    obtain ⟨sec, d1, d2, d3⟩ := hs o (List.mem_of_getElem? ho)
    subst h2
    exact ⟨(d3 _).1, sec, d1, d2, (d3 _).2⟩

theorem zipIdx_const {α β : Type} (f : α → β) (os : List α) : (os.zipIdx.map fun x => f x.1) = os.map f := by
  rw [show (fun x : α × Nat => f x.1) = f ∘ Prod.fst from rfl, ← List.map_map, List.zipIdx_map_fst]

theorem logEndpoints_kind {l : LogConf} {e : Ep} (h : e ∈ l.endpoints) : e.kind = .log := by
  unfold LogConf.endpoints at h
  split at h
  · cases h
  · split at h
    all_goals
      have : e = logEp := by simpa using h
      rw [this]; rfl

/-- **C92**: the endpoints are, type by type, one for each section of the type, followed by as many as the command line gives,
without filter and group; a TCP endpoint is connected from the start exactly if its first connection succeeds. -/
theorem C92_one_each (h : Host) (argv : List (List UInt8)) (r : Running) (hr : mainStart h argv = .runs r) :
    ∃ files ds us pu vs pv ws pw logs, FilesUsed h argv files ∧ FilesRead files ds ∧
      r.eps = us ++ pu ++ (vs ++ pv) ++ (ws ++ pw) ++ logs ∧
      OneForEach ds ("UartEndpoint ", .uart) us ∧ PlainEps .uart pu ∧
      OneForEach ds ("UdpEndpoint ", .udp) vs ∧ PlainEps .udp pv ∧
      OneForEach ds ("TcpEndpoint ", .tcp) ws ∧ PlainEps .tcp pw ∧ PlainEps .log logs ∧
      pw.length = ((getopt argv).1.countP fun e => (argOf 112 e).isSome) ∧
      pu.length + pv.length = ((getopt argv).1.countP fun e => (argOf 101 e).isSome) + (getopt argv).2.length ∧
      ∀ (j : Nat) e, r.eps[j]? = some e → e.kind = .tcp → e.fdOpen = h.opens j := by
  obtain ⟨files, ds, c0, c, h1, _, h3, h4, h5, h6, _⟩ := mainStart_runs hr
  obtain ⟨a1, a2, a3⟩ := C69_options files ds h3 c0 h4
  obtain ⟨o1, o2, o3⟩ := C58_endpoints_partial files ds h3 c0 h4
  obtain ⟨⟨us, e1, p1⟩, ⟨vs, e2, p2⟩, ⟨ws, e3, p3⟩⟩ := parseArgv_plain h5
  obtain ⟨_, us', vs', ws', f1, f2, f3, _, _, _, g1, g2⟩ := C73_overrides _ _ _ _ h5
  have hu : us' = us := List.append_cancel_left (f1.symm.trans e1)
  have hv : vs' = vs := List.append_cancel_left (f2.symm.trans e2)
  have hw : ws' = ws := List.append_cancel_left (f3.symm.trans e3)
  subst hu hv hw
  have heps := addEndpoints_eps h6
  refine ⟨files, ds, c0.uart.map (fun o => setupEp .uart o.filters o.group), us'.map (fun o => setupEp .uart o.filters o.group),
    c0.udp.map (fun o => setupEp .udp o.filters o.group), vs'.map (fun o => setupEp .udp o.filters o.group),
    c0.tcp.zipIdx.map (fun x => tcpEp (h.opens (c.uart.length + c.udp.length + x.2)) x.1),
    (ws'.zipIdx c0.tcp.length).map (fun x => tcpEp (h.opens (c.uart.length + c.udp.length + x.2)) x.1),
    c.log.endpoints, h1, h3, ?_, ?_, ?_, ?_, ?_, ?_, ?_, ?_, ?_, ?_, ?_⟩
  · rw [heps, e1, e2, e3, List.map_append, List.map_append, List.zipIdx_append, List.map_append]
    simp only [Nat.zero_add, List.length_append]
  · rw [← zipIdx_const (fun o : UartConf => setupEp .uart o.filters o.group)]
    refine oneForEach_map UartConf.name (fun _ o => setupEp .uart o.filters o.group) o1 ?_
    intro o ho
    obtain ⟨sec, d1, d2, d3⟩ := a1 o ho
    exact ⟨sec, d1, d2, fun _ => ⟨rfl, uart_section d2 d3⟩⟩
  · intro e he
    obtain ⟨o, ho, rfl⟩ := List.mem_map.1 he
    obtain ⟨q1, q2⟩ := p1 o ho
    exact ⟨rfl, q1, by show groupName o.group = ""; rw [q2]; rfl⟩
  · rw [← zipIdx_const (fun o : UdpConf => setupEp .udp o.filters o.group)]
    refine oneForEach_map UdpConf.name (fun _ o => setupEp .udp o.filters o.group) o2 ?_
    intro o ho
    obtain ⟨sec, d1, d2, d3⟩ := a2 o ho
    exact ⟨sec, d1, d2, fun _ => ⟨rfl, udp_section d2 d3⟩⟩
  · intro e he
    obtain ⟨o, ho, rfl⟩ := List.mem_map.1 he
    obtain ⟨q1, q2⟩ := p2 o ho
    exact ⟨rfl, q1, by show groupName o.group = ""; rw [q2]; rfl⟩
  · refine oneForEach_map TcpConf.name (fun k o => tcpEp (h.opens (c.uart.length + c.udp.length + k)) o) o3 ?_
    intro o ho
    obtain ⟨sec, d1, d2, d3⟩ := a3 o ho
    exact ⟨sec, d1, d2, fun _ => ⟨rfl, tcp_section _ d2 d3⟩⟩
  · intro e he
    obtain ⟨x, hx, rfl⟩ := List.mem_map.1 he
    obtain ⟨q1, q2⟩ := p3 x.1 (List.fst_mem_of_mem_zipIdx hx)
    exact ⟨rfl, q1, by show groupName x.1.group = ""; rw [q2]; rfl⟩
  · intro e he
    unfold LogConf.endpoints at he
    split at he
    · cases he
    · split at he
      all_goals
        have : e = logEp := by simpa using he
        rw [this]; exact ⟨rfl, rfl, rfl⟩
  · simpa using g1
  · simpa using g2
  · intro j e he hk
    rw [heps] at he
    by_cases hj : j < c.uart.length
    · rw [List.getElem?_append_left (by simp; omega), List.getElem?_append_left (by simp; omega),
        List.getElem?_append_left (by simpa using hj), List.getElem?_map] at he
      rw [List.getElem?_eq_getElem hj] at he
      cases he; cases hk
    by_cases hj2 : j < c.uart.length + c.udp.length
    · rw [List.getElem?_append_left (by simp; omega), List.getElem?_append_left (by simp; omega),
        List.getElem?_append_right (by simp; omega), List.getElem?_map, List.length_map,
        List.getElem?_eq_getElem (by omega)] at he
      cases he; cases hk
    by_cases hj3 : j < c.uart.length + c.udp.length + c.tcp.length
    · rw [List.getElem?_append_left (by simp; omega), List.getElem?_append_right (by simp; omega),
        List.getElem?_map, List.getElem?_zipIdx, List.length_append, List.length_map, List.length_map,
        List.getElem?_eq_getElem (by omega)] at he
      simp only [Option.map_some, Option.some.injEq] at he
      subst he
      show h.opens _ = _
      congr 1
      omega
    · rw [List.getElem?_append_right (by simp; omega)] at he
      have := logEndpoints_kind (List.mem_of_getElem? he)
      rw [hk] at this; cases this

theorem start_filters {σ : Type} (env : Env σ) (eps : List Ep) (hc : ConfigOk eps) (logs : Nat → σ) (evs : List RouterEv)
    (w : World σ) (as : List Arrival) (h : runRouter env (start eps logs) evs = some (w, as)) (i : Nat) (e : Ep)
    (he : eps[i]? = some e) : ∃ e', w.eps[i]? = some e' ∧ e'.filters = e.filters := by
  obtain ⟨_, _, h1, _, h3⟩ := runRouter_spec env evs _ (start_inv eps hc logs)
  rw [h] at h1; cases h1
  rcases linkGroups_get eps i with ⟨_, hn⟩ | ⟨x, x', hx, hx', _, _, hf, _⟩
  · rw [he] at hn; cases hn
  · rw [he] at hx; cases hx
    obtain ⟨y, hy, _, _, hfy, _⟩ := h3.ext.each i x' hx'
    exact ⟨y, hy, by rw [hfy, hf]⟩

/-- **C92**: the links stand before the log endpoints. -/
theorem C92_links_first (h : Host) (argv : List (List UInt8)) (r : Running) (hr : mainStart h argv = .runs r) (j : Nat) (e : Ep)
    (he : r.eps[j]? = some e) (hk : e.kind ≠ .log) : LinkAt r.eps j := by
  obtain ⟨_, _, _, c, _, _, _, _, _, h6, _⟩ := mainStart_runs hr
  have hl : ∀ e ∈ c.log.endpoints, e.kind = .log := by
    intro e he
    unfold LogConf.endpoints at he
    split at he
    · cases he
    · split at he
      · simp only [List.mem_cons, List.not_mem_nil, or_false, or_self] at he
        subst he; rfl
      · rw [List.mem_singleton] at he
        subst he; rfl
  rw [addEndpoints_eps h6] at he ⊢
  generalize hL : c.uart.map (fun o => setupEp .uart o.filters o.group) ++ c.udp.map (fun o => setupEp .udp o.filters o.group) ++
    c.tcp.zipIdx.map (fun x => tcpEp (h.opens (c.uart.length + c.udp.length + x.2)) x.1) = L at he ⊢
  have hL' : ∀ x ∈ L, x.kind ≠ .log := by
    intro x hx
    rw [← hL] at hx
    simp only [List.mem_append, List.mem_map] at hx
    rcases hx with (⟨o, _, rfl⟩ | ⟨o, _, rfl⟩) | ⟨o, _, rfl⟩ <;> simp [setupEp, tcpEp]
  have hj : j < L.length := by
    by_cases hj : j < L.length
    · exact hj
    · rw [List.getElem?_append_right (by omega)] at he
      exact absurd (hl _ (List.mem_of_getElem? he)) hk
  refine ⟨by rw [List.length_append]; omega, fun i hi x hx => ?_⟩
  rw [List.getElem?_append_left (by omega)] at hx
  exact hL' x (List.mem_of_getElem? hx)

/-- **C92**: and these filters and groups are those that count while it routes: a message that arrives at an endpoint is let
in only if the incoming filters of the endpoint admit it, and an endpoint is written exactly the messages the rule of C88
gives for these filters and groups, a link all of them byte for byte. -/
theorem C92_routing {σ : Type} (h : Host) (argv : List (List UInt8)) (r : Running) (hr : mainStart h argv = .runs r)
    (env : Env σ) (hs : env.sniffer = r.sniffer) (ht : TableOk env.tbl) (logs : Nat → σ) (evs : List RouterEv) (w : World σ)
    (as : List Arrival) (hrun : runRouter env (start r.eps logs) evs = some (w, as)) :
    (∀ a ∈ as, a.passed = true → ∀ e, r.eps[a.ep]? = some e → inOk e.filters a.msg) ∧
    (∀ j, j < r.eps.length → (∀ gone, RouterEv.hangups gone ∈ evs → j ∉ gone) →
      Accounts (UneditedBefore env r.eps j) (writesTo j (start r.eps logs) w) (expected r.sniffer.toNat r.eps j [] as) ∧
      ∀ e, r.eps[j]? = some e → e.kind ≠ .log →
        (writesTo j (start r.eps logs) w).map Sent.bytes = (expected r.sniffer.toNat r.eps j [] as).map (fun a => a.msg.data)) ∧
    (∀ ds sec sec' i j e e', r.eps[i]? = some e → r.eps[j]? = some e' → FromSection ds sec e → FromSection ds sec' e' →
      (Peer r.eps i j ↔ i = j ∨ ((lastSet ds sec (ascii "Group")).getD [] ≠ [] ∧
        (lastSet ds sec (ascii "Group")).getD [] = (lastSet ds sec' (ascii "Group")).getD []))) := by
  obtain ⟨_, _, _, _, hc, _⟩ := C92_endpoints h argv r hr
  refine ⟨?_, ?_, ?_⟩
  · intro a ha hp e he
    obtain ⟨k, hk, hak⟩ := List.mem_iff_getElem.1 ha
    have hak : as[k]? = some a := by rw [← hak]; exact List.getElem?_eq_getElem hk
    obtain ⟨_, bs, _, hv⟩ := runRouter_dedup env evs _ (start_inv r.eps hc logs) hrun
    have hok := runRouter_msgOk env ht evs _ (.start hc) hrun a ha
    obtain ⟨e', b, he', hb, hiff⟩ := hv.get k a hak
    obtain ⟨e'', h1, h2⟩ := start_filters env r.eps hc logs evs w as hrun a.ep e he
    rw [he'] at h1; cases h1
    rw [← h2]
    exact (allowedIn_iff _ _ hok).1 (hiff.1 hp).2
  · intro j hj hg
    rw [← hs]
    have A := C88_from_start_partial env ht r.eps hc logs evs w as hrun j hj hg
    exact ⟨A, fun e he hk => accounts_bytes A (fun _ _ => unedited_link (C92_links_first h argv r hr j e he hk) _)⟩
  · intro ds sec sec' i j e e' he he' hf hf'
    unfold Peer
    have g1 : e.group = groupName ((lastSet ds sec (ascii "Group")).getD []) := hf.2.2.2
    have g2 : e'.group = groupName ((lastSet ds sec' (ascii "Group")).getD []) := hf'.2.2.2
    have hne : ∀ g : List UInt8, groupName g ≠ "" ↔ g ≠ [] := by
      intro g
      refine not_congr ⟨fun x => groupName_inj (b := []) x, ?_⟩
      rintro rfl; rfl
    rw [he, he']
    simp only [Option.some.injEq, exists_and_left, exists_eq_left', g1, g2, hne]
    refine or_congr_right (and_congr_right fun _ => ⟨groupName_inj, fun x => by rw [x]⟩)

/-- A running router of `C92_endpoints`, `C92_one_each` and `C92_routing`: a section with a filter and a group, one with a group, a UART of
the command line. -/
def Sample.hostGroups : Host :=
  { file := fun _ => .content (ascii
      "[UdpEndpoint g]\nMode=Server\nAddress=10.0.0.1\nPort=14560\nBlockMsgIdIn=0\nGroup=a\n[TcpEndpoint t]\nAddress=10.0.0.2\nPort=5790\nGroup=a\n")
    isChr := fun d => d == ascii "/dev/ttyS0" }

example : ∃ r, mainStart Sample.hostGroups [ascii "/dev/ttyS0:57600"] = .runs r ∧ r.sniffer.toNat ≤ 255 ∧
    r.eps = [{ kind := .uart }, { kind := .udp, group := "a", filters := { blockInMsg := [0] } }, { kind := .tcp, group := "a" }] := by
  refine ⟨{ eps := [{ kind := .uart }, { kind := .udp, group := "a", filters := { blockInMsg := [0] } },
      { kind := .tcp, group := "a" }], sniffer := 0, dedup := 0, server := some 5760, stats := false, log := {} },
    by decide +kernel, by decide +kernel, rfl⟩

/-! ### C93 -/

/-- All endpoint configurations pass validation. -/
structure AllValid (c : Config) : Prop where
  uart : ∀ o ∈ c.uart, o.valid = true
  udp : ∀ o ∈ c.udp, o.valid = true
  tcp : ∀ o ∈ c.tcp, o.valid = true

theorem readConfig_valid {ss : List CfgSection} {c : Config} (h : readConfig ss {} = .ok c) : AllValid c := by
  obtain ⟨_, ⟨us, e1, hu⟩, ⟨vs, e2, hv⟩, ⟨ws, e3, hw⟩⟩ := readConfig_ok h
  refine ⟨?_, ?_, ?_⟩
  · intro o ho; rw [e1, List.nil_append] at ho
    obtain ⟨_, _, hr⟩ := hu.mem_right ho
    exact hr.1
  · intro o ho; rw [e2, List.nil_append] at ho
    obtain ⟨_, _, _, hr⟩ := hv.each.mem_right ho
    exact hr.1
  · intro o ho; rw [e3, List.nil_append] at ho
    obtain ⟨_, _, hr⟩ := hw.mem_right ho
    exact hr.1

theorem argvPlain_valid {isChr : List UInt8 → Bool} (h0 : isChr [] = false) {c c1 : Config} {a : List UInt8}
    (hc : AllValid c) (h : argvPlain isChr c a = some c1) : AllValid c1 := by
  unfold argvPlain at h
  split at h
  · cases h
  · next base number suffix _ =>
    simp only at h
    generalize (if number ≠ ulongMax then (atoiC suffix % 2 ^ 32).toNat else 115200) = baud at h
    split at h
    · split at h
      · cases h
      · split at h
        · cases h
        · next hv =>
          cases h
          refine ⟨hc.uart, ?_, hc.tcp⟩
          intro o ho
          rcases List.mem_append.1 ho with ho | ho
          · exact hc.udp o ho
          · rw [List.mem_singleton.1 ho]; simpa using hv
    · next hchr =>
      cases h
      refine ⟨?_, hc.udp, hc.tcp⟩
      intro o ho
      rcases List.mem_append.1 ho with ho | ho
      · exact hc.uart o ho
      · rw [List.mem_singleton.1 ho]
        have : base ≠ [] := by rintro rfl; simp [h0] at hchr
        simp [UartConf.valid, this]

theorem parseArgv_valid {isChr : List UInt8 → Bool} (h0 : isChr [] = false) {argv : List (List UInt8)} {c c' : Config}
    (hc : AllValid c) (h : parseArgv isChr argv c = some c') : AllValid c' := by
  simp only [parseArgv, Option.bind_eq_some_iff] at h
  obtain ⟨c1, h1, h2⟩ := h
  have a := argvOptions_do h1
  have hc1 : AllValid c1 := by
    obtain ⟨vs, e2, p2, _⟩ := a.udp
    obtain ⟨ws, e3, p3, _⟩ := a.tcp
    refine ⟨by rw [a.uart]; exact hc.uart, ?_, ?_⟩
    · intro o ho; rw [e2] at ho
      exact (List.mem_append.1 ho).elim (hc.udp o) fun x => (p2 o x).1
    · intro o ho; rw [e3] at ho
      exact (List.mem_append.1 ho).elim (hc.tcp o) fun x => (p3 o x).1
  have hp : ∀ (as : List (List UInt8)) (c : Config) {c'}, AllValid c → argvPlains isChr c as = some c' → AllValid c' := by
    intro as
    induction as with
    | nil => intro c c' hc h; cases h; exact hc
    | cons a as ih =>
      intro c c' hc h
      simp only [argvPlains, Option.bind_eq_some_iff] at h
      obtain ⟨c1, h1, h2⟩ := h
      exact ih c1 (argvPlain_valid h0 hc h1) h2
  exact hp _ _ hc1 h2

/-- The configuration of a program start, if there is one. -/
def Spec.Conf.Configured (h : Host) (argv : List (List UInt8)) (c : Config) : Prop :=
  lastArg 86 (getopt argv).1 = none ∧
  ∃ files c0, FilesUsed h argv files ∧ (∀ f ∈ files, GoodFile f) ∧ readConfig (parseConfs [] files) {} = .ok c0 ∧
    parseArgv h.isChr argv c0 = some c

theorem addEndpoints_iff (h : Host) (c : Config) (hc : AllValid c) :
    (addEndpoints h c).isSome ↔ ∀ k < c.uart.length + c.udp.length, h.opens k = true := by
  unfold addEndpoints
  simp only
  rw [apply_ite Option.isSome]
  simp only [Option.isSome_some, Option.isSome_none, Bool.if_false_right, Bool.and_true, decide_eq_true_eq, Bool.and_eq_true,
    List.all_eq_true]
  constructor
  · rintro ⟨⟨h1, h2⟩, _⟩ k hk
    by_cases hu : k < c.uart.length
    · have := h1 (c.uart[k], k) (List.mem_zipIdx_iff_getElem?.2 (List.getElem?_eq_getElem hu))
      exact this.2
    · have hd : k - c.uart.length < c.udp.length := by omega
      have := h2 (c.udp[k - c.uart.length], k - c.uart.length)
        (List.mem_zipIdx_iff_getElem?.2 (List.getElem?_eq_getElem hd))
      rw [show k = c.uart.length + (k - c.uart.length) by omega]
      exact this.2
  · intro hk
    refine ⟨⟨?_, ?_⟩, hc.tcp⟩
    · intro x hx
      refine ⟨hc.uart _ (zipIdx_fst hx), hk _ ?_⟩
      have := (List.getElem?_eq_some_iff.1 (List.mem_zipIdx_iff_getElem?.1 hx)).1
      omega
    · intro x hx
      refine ⟨hc.udp _ (zipIdx_fst hx), hk _ ?_⟩
      have := (List.getElem?_eq_some_iff.1 (List.mem_zipIdx_iff_getElem?.1 hx)).1
      omega

theorem addEndpoints_server {h : Host} {c : Config} {r : Running} (hr : addEndpoints h c = some r) :
    r.server = if c.tcpPort ≠ 0 ∧ h.listens then some (c.tcpPort % 65536) else none := by
  unfold addEndpoints at hr
  simp only at hr
  split at hr
  · cases hr; rfl
  · cases hr

/-- C93 without the TCP server: when the router runs, all UART and UDP endpoints of its configuration were set up and are
its first endpoints, in order, followed by the TCP and log endpoints; if the port is not 0 and can be opened, the TCP server
listens.  If an endpoint cannot be set up, the program ends with a failure status.  Missing: it runs also if the TCP server
could not be opened, see `C93_violated`. -/
theorem C93_complete_partial (h : Host) (argv : List (List UInt8)) (h0 : h.isChr [] = false) :
    (∀ r, mainStart h argv = .runs r → ∃ c, Configured h argv c ∧ (∀ k < c.uart.length + c.udp.length, h.opens k = true) ∧
      (∃ logs, r.eps.map (·.kind) = c.uart.map (fun _ => .uart) ++ c.udp.map (fun _ => .udp) ++ c.tcp.map (fun _ => .tcp) ++ logs ∧
        ∀ k ∈ logs, k = .log) ∧
      (c.tcpPort ≠ 0 → c.tcpPort < 65536 → h.listens = true → r.server = some c.tcpPort) ∧
      (c.tcpPort = 0 → r.server = none)) ∧
    (∀ c k, mainConfig (h.file (confFileOf h argv)) (confDirOf h argv) (h.dir (confDirOf h argv)) h.isChr argv = .ok c →
      lastArg 86 (getopt argv).1 = none → k < c.uart.length + c.udp.length → h.opens k = false →
      mainStart h argv = .exits 1) := by
  have hval : ∀ c, mainConfig (h.file (confFileOf h argv)) (confDirOf h argv) (h.dir (confDirOf h argv)) h.isChr argv = .ok c →
      AllValid c := by
    intro c hc
    unfold mainConfig at hc
    cases h1 : readConfFiles (h.file (confFileOf h argv)) (confDirOf h argv) (h.dir (confDirOf h argv)) with
    | ub => rw [h1] at hc; cases hc
    | err => rw [h1] at hc; cases hc
    | ok ss =>
      rw [h1] at hc
      simp only [ConfRes.bind] at hc
      cases h6 : readConfig ss {} with
      | ub => rw [h6] at hc; cases hc
      | err => rw [h6] at hc; cases hc
      | ok c0 =>
        rw [h6] at hc
        simp only at hc
        cases h7 : parseArgv h.isChr argv c0 with
        | none => rw [h7] at hc; cases hc
        | some c' =>
          rw [h7] at hc
          cases hc
          exact parseArgv_valid h0 (readConfig_valid h6) h7
  constructor
  · intro r hr
    obtain ⟨files, ds, c0, c, h1, h2, _, h4, h5, h6, h7⟩ := mainStart_runs hr
    have hv := parseArgv_valid h0 (readConfig_valid h4) h5
    refine ⟨c, ⟨h7, files, c0, h1, h2, h4, h5⟩, (addEndpoints_iff h c hv).1 (by rw [h6]; rfl), ?_, ?_, ?_⟩
    · refine ⟨c.log.endpoints.map (·.kind), ?_, ?_⟩
      · rw [addEndpoints_eps h6]
        simp only [List.map_append, List.map_map]
        congr 2
        have : ∀ (l : List TcpConf) (n : Nat), (l.zipIdx n).map
            ((fun x : Ep => x.kind) ∘ fun x => tcpEp (h.opens (c.uart.length + c.udp.length + x.2)) x.1) =
            l.map fun _ => EpKind.tcp := by
          intro l
          induction l with
          | nil => intro n; rfl
          | cons a l ih =>
            intro n
            rw [List.zipIdx_cons, List.map_cons, List.map_cons, ih (n + 1)]
            rfl
        exact this c.tcp 0
      · intro k hk
        unfold LogConf.endpoints at hk
        split at hk
        · cases hk
        · split at hk <;> simpa [logEp] using hk
    · intro hp hlt hl
      rw [addEndpoints_server h6, if_pos ⟨hp, hl⟩, Nat.mod_eq_of_lt hlt]
    · intro hp
      rw [addEndpoints_server h6, if_neg (fun x => x.1 hp)]
  · intro c k hc hv hk ho
    rw [mainStart_eq, hv, hc]
    simp only [Option.isSome_none, Bool.false_eq_true, if_false]
    have : addEndpoints h c = none := by
      cases ha : addEndpoints h c with
      | none => rfl
      | some r =>
        have := (addEndpoints_iff h c (hval c hc)).1 (by rw [ha]; rfl) k hk
        rw [ho] at this; cases this
    rw [this]
    simp

example : mainStart Sample.hostGroups [ascii "/dev/ttyS0:57600"] =
      .runs { eps := [{ kind := .uart }, { kind := .udp, group := "a", filters := { blockInMsg := [0] } }, { kind := .tcp, group := "a" }],
              sniffer := 0, dedup := 0, server := some 5760, stats := false, log := {} } ∧
    mainStart { Sample.hostGroups with opens := fun k => k != 1 } [ascii "/dev/ttyS0:57600"] = .exits 1 ∧
    Sample.hostGroups.isChr [] = false := by decide +kernel

/-- C93 is false: if the port of the TCP server is in use, the router runs without it. -/
theorem C93_violated : ∃ (h : Host) (argv : List (List UInt8)) (c : Config) (r : Running),
    mainConfig (h.file (confFileOf h argv)) (confDirOf h argv) (h.dir (confDirOf h argv)) h.isChr argv = .ok c ∧
    c.tcpPort = 5760 ∧ h.listens = false ∧ mainStart h argv = .runs r ∧ r.server = none := by
  refine ⟨{ Sample.hostGroups with listens := false }, [], ?_⟩
  cases hc : mainConfig (Sample.hostGroups.file (confFileOf { Sample.hostGroups with listens := false } []))
      (confDirOf { Sample.hostGroups with listens := false } [])
      (Sample.hostGroups.dir (confDirOf { Sample.hostGroups with listens := false } [])) Sample.hostGroups.isChr [] with
  | ub => exact absurd hc (by decide +kernel)
  | err => exact absurd hc (by decide +kernel)
  | ok c =>
    have hp : (match mainConfig (Sample.hostGroups.file (confFileOf { Sample.hostGroups with listens := false } []))
      (confDirOf { Sample.hostGroups with listens := false } [])
      (Sample.hostGroups.dir (confDirOf { Sample.hostGroups with listens := false } [])) Sample.hostGroups.isChr [] with
        | .ok c => c.tcpPort | _ => 0) = 5760 := by decide +kernel
    rw [hc] at hp
    exact ⟨c, {
      eps := [{ kind := .udp, group := "a", filters := { blockInMsg := [0] } }, { kind := .tcp, group := "a" }],
                 sniffer := 0, dedup := 0, server := none, stats := false, log := {} }, rfl, hp, rfl, by decide +kernel, rfl⟩

/-! ### C94 -/

theorem extractNamed_value {α : Type} {ss : List CfgSection} {name : List UInt8} {os : List (Opt α)} {a a' : α}
    (h : extractNamed ss name os a = some a') (hr : ∀ o ∈ os, o.required = false) :
    extract (fun k => confValue ss name k) os a = some a' := by
  unfold extractNamed at h
  cases hs : (findSection name ss).bind fun k => sectionAt k ss with
  | none =>
    rw [hs] at h
    simp only at h
    split at h
    · cases h
    · cases h
      have hn : ∀ k, confValue ss name k = none := by
        intro k
        unfold confValue
        cases hf : findSection name ss with
        | none => rfl
        | some i => rw [hf] at hs; simp only [Option.bind_some] at hs; simp [hs]
      clear hs
      induction os with
      | nil => rfl
      | cons o os ih =>
        have h1 := hr o (by simp)
        rw [extract, hn]
        simp only [h1, Bool.false_eq_true, if_false]
        exact ih (fun o ho => hr o (by simp [ho])) (by simp only [List.any_eq_true, not_exists, not_and]; intro x hx; simp [hr x (by simp [hx])])
  | some s =>
    rw [hs] at h
    have hv : (fun k => confValue ss name k) = fun k => (findConfig k s.configs).map (·.value) := by
      funext k
      unfold confValue
      cases hf : findSection name ss with
      | none => rw [hf] at hs; cases hs
      | some i => rw [hf] at hs; simp only [Option.bind_some] at hs; simp [hs]
    rw [hv]
    exact h

theorem Given.number {v : Option (List UInt8)} {d x : Nat} (h : Given v parseUl d x) : NumberIs v d x := by
  constructor
  · rintro rfl; exact h
  · rintro t n rfl hd hn
    have h : parseUl t = some x := h
    rw [parseUl_decimal hd hn] at h
    exact (Option.some.inj h).symm

theorem Given.switch {v : Option (List UInt8)} {d x : Bool} (h : Given v parseBool d x) : SwitchIs v d x := by
  refine ⟨?_, ?_, ?_⟩
  · rintro rfl; exact h
  · rintro t rfl hs
    have h : parseBool t = some x := h
    rcases (C59_bool t x).1 h with h | h | h
    · exact h.2
    · exact absurd hs h.1
    · exact absurd hs h.1
  · rintro t rfl hs
    have h : parseBool t = some x := h
    rcases (C59_bool t x).1 h with h | h | h
    · have := h.1.trans hs.symm; exact absurd this (by decide)
    · exact h.2.2
    · exact absurd hs h.2.1

theorem Given.level {v : Option (List UInt8)} {d x : LogLevel} (h : Given v parseLogLevel d x) :
    WordIs v d [("error", .error), ("warning", .warning), ("info", .info), ("debug", .debug), ("trace", .trace)] x := by
  constructor
  · rintro rfl; exact h
  · rintro t rfl h0
    have h : parseLogLevel t = some x := h
    unfold parseLogLevel logLevel at h
    rw [cstrB_id h0] at h
    split at h
    · cases h
    · repeat' split at h
      all_goals first
        | cases h
        | skip
      · next hc => exact ⟨("error", .error), by simp, (memCaseEq_iff _ _).1 hc, rfl⟩
      · next hc => exact ⟨("warning", .warning), by simp, (memCaseEq_iff _ _).1 hc, rfl⟩
      · next hc => exact ⟨("info", .info), by simp, (memCaseEq_iff _ _).1 hc, rfl⟩
      · next hc => exact ⟨("debug", .debug), by simp, (memCaseEq_iff _ _).1 hc, rfl⟩
      · next hc => exact ⟨("trace", .trace), by simp, (memCaseEq_iff _ _).1 hc, rfl⟩

theorem Given.logMode {v : Option (List UInt8)} {d x : LogMode} (h : Given v parseLogMode d x) :
    WordIs v d [("always", .always), ("while-armed", .whileArmed)] x := by
  constructor
  · rintro rfl; exact h
  · rintro t rfl h0
    have h : parseLogMode t = some x := h
    unfold parseLogMode at h
    rw [cstrB_id h0] at h
    repeat' split at h
    all_goals first
      | cases h
      | skip
    · next hc => exact ⟨("always", .always), by simp, (memCaseEq_iff _ _).1 hc, rfl⟩
    · next hc => exact ⟨("while-armed", .whileArmed), by simp, (memCaseEq_iff _ _).1 hc, rfl⟩

theorem Given.dialect {v : Option (List UInt8)} {d x : Dialect} (h : Given v parseDialect d x) :
    WordIs v d [("auto", .auto), ("common", .common), ("ardupilotmega", .ardupilotmega)] x := by
  constructor
  · rintro rfl; exact h
  · rintro t rfl h0
    have h : parseDialect t = some x := h
    unfold parseDialect at h
    repeat' split at h
    all_goals first
      | cases h
      | skip
    · next hc => exact ⟨("auto", .auto), by simp, (memCaseEq_iff _ _).1 hc, rfl⟩
    · next hc => exact ⟨("common", .common), by simp, (memCaseEq_iff _ _).1 hc, rfl⟩
    · next hc => exact ⟨("ardupilotmega", .ardupilotmega), by simp, (memCaseEq_iff _ _).1 hc, rfl⟩

theorem Given.fcuId {v : Option (List UInt8)} {x : Int} (h : Given v parseFcuId (-1) x) :
    IntIs v (-1) x ∧ (x = -1 ∨ 1 ≤ x ∧ x ≤ 255) := by
  cases v with
  | none => have h : x = -1 := h; subst h; exact ⟨⟨fun _ => rfl, fun _ _ h => nomatch h⟩, .inl rfl⟩
  | some t =>
    have h : parseFcuId t = some x := h
    unfold parseFcuId at h
    cases hp : parseI t with
    | none => rw [hp] at h; cases h
    | some i =>
      rw [hp] at h
      simp only at h
      split at h
      · cases h
      · cases h
        refine ⟨⟨(nomatch ·), ?_⟩, .inr (by omega)⟩
        intro t' n ht hd hn
        cases ht
        rw [parseI_decimal hd hn] at hp
        exact (Option.some.inj hp).symm

/-- What the configuration files say about the section General is what is read. -/
theorem readConfig_general {ss : List CfgSection} {c : Config} (h : readConfig ss {} = .ok c) :
    GeneralAsked (fun k => confValue ss (ascii "General") (ascii k)) c := by
  unfold readConfig at h
  cases h1 : extractNamed ss (ascii "General") globalOpts {} with
  | none => rw [h1] at h; cases h
  | some c1 =>
    rw [h1] at h
    simp only at h
    cases h2 : extractNamed ss (ascii "General") logOpts c1.log with
    | none => rw [h2] at h; cases h
    | some l =>
      rw [h2] at h
      simp only at h
      have hlog := (extract_same_fields h1).2.2.2
      rw [hlog] at h2
      have e1 := extractNamed_value h1 (by decide)
      have e2 := extractNamed_value h2 (by decide)
      cases h3 : forSections uartPrefix uartSection ss.length ss { c1 with log := l } with
      | ub => rw [h3] at h; cases h
      | err => rw [h3] at h; cases h
      | ok c3 =>
        rw [h3] at h
        simp only [ConfRes.bind] at h
        cases h4 : forSections udpPrefix udpSection ss.length ss c3 with
        | ub => rw [h4] at h; cases h
        | err => rw [h4] at h; cases h
        | ok c4 =>
          rw [h4] at h
          simp only at h
          obtain ⟨us, rfl, hu⟩ := foldBody_uart (forSections_ok h3)
          obtain ⟨vs, rfl, hv⟩ := foldBody_udp (forSections_ok h4)
          obtain ⟨ws, rfl, hw⟩ := foldBody_tcp (forSections_ok h)
          unfold globalOpts at e1
          rw [extract_val 5760 rfl] at e1
          obtain ⟨x1, g1, e1⟩ := e1
          rw [extract_val false rfl] at e1
          obtain ⟨x2, g2, e1⟩ := e1
          rw [extract_val LogLevel.info rfl] at e1
          obtain ⟨x3, g3, e1⟩ := e1
          rw [extract_val 0 rfl] at e1
          obtain ⟨x4, g4, e1⟩ := e1
          rw [extract_val 0 rfl] at e1
          obtain ⟨x5, g5, e1⟩ := e1
          simp only [extract, Option.some.injEq] at e1
          subst e1
          unfold logOpts at e2
          rw [extract_str [] rfl] at e2
          rw [extract_val LogMode.always rfl] at e2
          obtain ⟨y1, k1, e2⟩ := e2
          rw [extract_val Dialect.auto rfl] at e2
          obtain ⟨y2, k2, e2⟩ := e2
          rw [extract_val 0 rfl] at e2
          obtain ⟨y3, k3, e2⟩ := e2
          rw [extract_val 0 rfl] at e2
          obtain ⟨y4, k4, e2⟩ := e2
          rw [extract_val (-1) rfl] at e2
          obtain ⟨y5, k5, e2⟩ := e2
          rw [extract_val false rfl] at e2
          obtain ⟨y6, k6, e2⟩ := e2
          simp only [extract, Option.some.injEq] at e2
          subst e2
          exact ⟨g1.number, g2.switch, g3.level, g4.number, g5.number, rfl, k1.logMode, k2.dialect, k3.number, k4.number,
            k5.fcuId, k6.switch⟩

/-- C94 for values that fit their variables: the settings the router runs with are those of the section General as changed
by the command line.  Missing: a deduplication period of 2^32 ms or more, a port or sniffer id of 2^16 or more, see
`C94_violated`. -/
theorem C94_general_partial (h : Host) (argv : List (List UInt8)) (r : Running) (hr : mainStart h argv = .runs r) :
    ∃ files ds c0 c, FilesUsed h argv files ∧ FilesRead files ds ∧
      GeneralAsked (fun k => lastSet ds (ascii "General") (ascii k)) c0 ∧ CliSays (getopt argv).1 c0 c ∧
      (c.sniffer < 2 ^ 16 → r.sniffer.toNat = c.sniffer) ∧ (c.dedupMs < 2 ^ 32 → r.dedup.toNat = c.dedupMs) ∧
      (c.tcpPort < 2 ^ 16 → h.listens = true → r.server = if c.tcpPort = 0 then none else some c.tcpPort) ∧
      r.stats = c.stats ∧ r.log = c.log ∧
      r.eps.countP (fun e => e.kind = .log) = if c.log.dir = [] then 0 else if c.log.telemetry then 2 else 1 := by
  obtain ⟨files, ds, c0, c, h1, h2, h3, h4, h5, h6, h7⟩ := mainStart_runs hr
  have hg := readConfig_general h4
  rw [show (fun k => confValue (parseConfs [] files) (ascii "General") (ascii k)) =
    fun k => lastSet ds (ascii "General") (ascii k) from funext fun k => C54_last_wins files ds h3 _ _] at hg
  refine ⟨files, ds, c0, c, h1, h3, hg, (C73_overrides _ _ _ _ h5).1, ?_⟩
  have hs := addEndpoints_server h6
  have he := addEndpoints_eps h6
  have hrest : r.sniffer = UInt16.ofNat c.sniffer ∧ r.dedup = UInt32.ofNat c.dedupMs ∧ r.stats = c.stats ∧ r.log = c.log := by
    unfold addEndpoints at h6
    simp only at h6
    split at h6
    · cases h6; exact ⟨rfl, rfl, rfl, rfl⟩
    · cases h6
  obtain ⟨s1, s2, s3, s4⟩ := hrest
  refine ⟨?_, ?_, ?_, s3, s4, ?_⟩
  · intro hl; rw [s1, UInt16.toNat_ofNat']; exact Nat.mod_eq_of_lt hl
  · intro hl; rw [s2, UInt32.toNat_ofNat']; exact Nat.mod_eq_of_lt hl
  · intro hl hli
    rw [hs]
    by_cases hp : c.tcpPort = 0
    · simp [hp]
    · rw [if_pos ⟨hp, hli⟩, if_neg hp, Nat.mod_eq_of_lt hl]
  · rw [he]
    have z : ∀ {α : Type} (l : List α) (f : α → Ep), (∀ a, (f a).kind ≠ .log) →
        (l.map f).countP (fun e => e.kind = .log) = 0 := by
      intro α l f hf
      rw [List.countP_eq_zero]
      intro e he
      obtain ⟨a, _, rfl⟩ := List.mem_map.1 he
      simpa using hf a
    rw [List.countP_append, List.countP_append, List.countP_append, z _ _ (by intro a; simp [setupEp, tcpEp]), z _ _ (by intro a; simp [setupEp, tcpEp]),
      z _ _ (by intro a; simp [setupEp, tcpEp])]
    unfold LogConf.endpoints
    split
    · rfl
    · split <;> rfl

/-- A host with settings in the section General of two files. -/
def Sample.hostGeneral : Host :=
  { file := fun _ => .content (ascii
      "[general]\nTcpServerPort=5770\nDeduplicationPeriod=20\nLog=/var/log/m\nLogMode=While-Armed\nDebugLogLevel=debug\n")
    dir := fun _ => some [{ name := ascii "10.conf", file := some (.content (ascii "[General]\nDeduplicationPeriod = 30\nSnifferSysid=9\nLogTelemetry=true\n")) }] }

example : mainStart Sample.hostGeneral [ascii "-t", ascii "0", ascii "-r"] =
      .runs { eps := [logEp, logEp], sniffer := 9, dedup := 30, server := none, stats := true,
              log := { dir := ascii "/var/log/m", mode := .whileArmed, telemetry := true } } ∧
    mainStart Sample.hostGeneral [] =
      .runs { eps := [logEp, logEp], sniffer := 9, dedup := 30, server := some 5770, stats := false,
              log := { dir := ascii "/var/log/m", mode := .whileArmed, telemetry := true } } := by decide +kernel

/-- C94 is false: a deduplication period of 2^32 ms is accepted and switches deduplication off. -/
theorem C94_violated : ∃ (h : Host) (r : Running) (c : Config), mainStart h [] = .runs r ∧
    mainConfig (h.file (confFileOf h [])) (confDirOf h []) (h.dir (confDirOf h [])) h.isChr [] = .ok c ∧
    c.dedupMs = 4294967296 ∧ r.dedup = 0 :=
  ⟨{ file := fun _ => .content (ascii "[General]\nDeduplicationPeriod=4294967296\n") },
   { eps := [], sniffer := 0, dedup := 0, server := some 5760, stats := false, log := {} },
   { dedupMs := 4294967296 }, by decide +kernel, by decide +kernel, rfl, rfl⟩

end Verif
