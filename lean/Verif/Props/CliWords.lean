import Verif.Props.Cli
import Verif.Spec.CliWords

/-
C70 and C73: the words of a command line, wherever they stand, and the endpoints they add.
-/

namespace Verif
open Spec.Conf

/-! ### Words -/

theorem splitEq_plain : ∀ x : List UInt8, splitEq x = (x, none) → ∀ y, splitEq (x ++ 61 :: y) = (x, some y) := by
  intro x
  induction x with
  | nil => intro _ y; simp [splitEq]
  | cons a x ih =>
    intro hx y
    by_cases ha : a = 61
    · simp [splitEq, ha] at hx
    · simp only [splitEq, if_neg ha, Prod.mk.injEq, List.cons.injEq, true_and] at hx
      have := ih (Prod.ext hx.1 hx.2) y
      simp [splitEq, ha, this]

theorem argKind_short {c : UInt8} (h : c ≠ 45) (t : List UInt8) : argKind (45 :: c :: t) = .option (shortCluster (c :: t)) := by
  unfold argKind
  split
  · next e => simp only [List.cons.injEq, true_and] at e; exact absurd e.1 h
  · next e => simp only [List.cons.injEq, true_and] at e; exact absurd e.1 h
  · next e => simp only [List.cons.injEq, true_and] at e; obtain ⟨rfl, rfl⟩ := e; rfl
  · next e => exact absurd rfl (e c t)

theorem argKind_long {t : List UInt8} (h : t ≠ []) : argKind (ascii "--" ++ t) = .option (longOption t) := by
  show argKind (45 :: 45 :: t) = _
  unfold argKind
  split
  · next e => simp only [List.cons.injEq, true_and] at e; exact absurd e h
  · next e => simp only [List.cons.injEq, true_and] at e; rw [e]
  · next hne e =>
    simp only [List.cons.injEq, true_and] at e
    obtain ⟨rfl, rfl⟩ := e
    exact (hne rfl).elim
  · next e => exact absurd rfl (e 45 _)

theorem argKind_plain {t : List UInt8} (h : t.head? ≠ some 45 ∨ t = [45]) : argKind t = .plain := by
  rcases h with h | rfl
  · unfold argKind
    split <;> first | rfl | simp at h
  · rfl

theorem getopt_word (w : CliWord) (hw : w.Ok) (rest : List (List UInt8)) :
    getopt (w.args ++ rest) = (w.asks.toList ++ (getopt rest).1, w.text.toList ++ (getopt rest).2) := by
  cases w with
  | plain t =>
    simp only [CliWord.args, CliWord.asks, CliWord.text, List.singleton_append, getopt, argKind_plain hw]
    rfl
  | switch o long =>
    have hs : ∀ o ∈ switches, argKind [45, o.1] = .option (.done [.opt o.1 []]) ∧
        argKind (ascii "--" ++ ascii o.2) = .option (.done [.opt o.1 []]) := by decide +kernel
    have hT : argKind (ascii "--" ++ ascii "telemetry-log") = .option (.done [.opt 84 []]) := by decide +kernel
    rcases hw with h | ⟨rfl, rfl⟩
    · cases long
      · simp only [CliWord.args, CliWord.asks, CliWord.text, List.singleton_append, getopt, (hs o h).1]; rfl
      · simp only [CliWord.args, CliWord.asks, CliWord.text, List.singleton_append, getopt, (hs o h).2]; rfl
    · simp only [CliWord.args, CliWord.asks, CliWord.text, List.singleton_append, getopt, hT]; rfl
  | option o arg f =>
    obtain ⟨ho, hf⟩ := hw
    have hA : ∀ o ∈ withArg, o.1 ≠ 45 ∧ ascii o.2 ≠ [] ∧ shortOptions.lookup o.1 = some true ∧
        splitEq (ascii o.2) = (ascii o.2, none) ∧ findLong (ascii o.2) = some (true, o.1) := by decide +kernel
    obtain ⟨h1, h2, h3, h4, h5⟩ := hA o ho
    cases f with
    | short =>
      have e : argKind [45, o.1] = .option (.wants [] o.1) := by rw [argKind_short h1]; simp [shortCluster, h3]
      simp only [CliWord.args, CliWord.asks, CliWord.text, List.cons_append, List.nil_append, getopt, e]; rfl
    | shortJoined =>
      have e : argKind (45 :: o.1 :: arg) = .option (.done [.opt o.1 arg]) := by
        rw [argKind_short h1]; simp [shortCluster, h3, hf rfl]
      simp only [CliWord.args, CliWord.asks, CliWord.text, List.cons_append, List.nil_append, getopt, e]; rfl
    | long =>
      have e : argKind (ascii "--" ++ ascii o.2) = .option (.wants [] o.1) := by
        rw [argKind_long h2]; simp [longOption, h4, h5]
      simp only [CliWord.args, CliWord.asks, CliWord.text]
      show getopt ((ascii "--" ++ ascii o.2) :: arg :: rest) = _
      simp only [getopt, e]; rfl
    | longJoined =>
      have e : argKind (ascii "--" ++ (ascii o.2 ++ 61 :: arg)) = .option (.done [.opt o.1 arg]) := by
        rw [argKind_long (by simp)]; simp [longOption, splitEq_plain _ h4, h5]
      simp only [CliWord.args, CliWord.asks, CliWord.text]
      show getopt ((ascii "--" ++ (ascii o.2 ++ 61 :: arg)) :: rest) = _
      simp only [getopt, e]; rfl

/-- C73: whatever words a command line consists of, in whatever order and forms, exactly the options
and the other words the user wrote are found, each group in its order. -/
theorem C73_words (ws : List CliWord) (h : ∀ w ∈ ws, w.Ok) :
    getopt (ws.flatMap (·.args)) = (ws.filterMap (·.asks), ws.filterMap (·.text)) := by
  induction ws with
  | nil => rfl
  | cons w ws ih =>
    rw [List.flatMap_cons, getopt_word w (h w (by simp)), ih fun x hx => h x (by simp [hx])]
    cases w <;> simp [CliWord.asks, CliWord.text]

/-- The words of the example below: `--tcp-port=0 /dev/ttyS0:57600 -r -e10.0.0.1 - --telemetry-log --verbose`. -/
def Sample.words : List CliWord :=
  [.option (116, "tcp-port") (ascii "0") .longJoined, .plain (ascii "/dev/ttyS0:57600"),
   .switch (114, "report_msg_statistics") false, .option (101, "endpoint") (ascii "10.0.0.1") .shortJoined, .plain (ascii "-"),
   .switch (84, "telemetry-log") true, .switch (118, "verbose") true]

theorem Sample.words_ok : ∀ w ∈ Sample.words, w.Ok := by
  simp [Sample.words, CliWord.Ok, switches, withArg]; decide +kernel

example : Sample.words.flatMap (·.args) = [ascii "--tcp-port=0", ascii "/dev/ttyS0:57600", ascii "-r", ascii "-e10.0.0.1",
      ascii "-", ascii "--telemetry-log", ascii "--verbose"] ∧
    getopt (Sample.words.flatMap (·.args)) = ([.opt 116 (ascii "0"), .opt 114 [], .opt 101 (ascii "10.0.0.1"), .opt 84 [],
      .opt 118 []], [ascii "/dev/ttyS0:57600", ascii "-"]) := by decide +kernel

theorem same_asks : ∀ {ws ws' : List CliWord}, Matches CliWord.SameMeaning ws ws' →
    ws.filterMap (·.asks) = ws'.filterMap (·.asks) ∧ ws.filterMap (·.text) = ws'.filterMap (·.text)
  | [], [], _ => ⟨rfl, rfl⟩
  | w :: ws, w' :: ws', ⟨h1, h2⟩ => by
    have ih := same_asks h2
    cases w <;> cases w' <;> simp only [CliWord.SameMeaning] at h1
    · next o _ _ _ =>
      subst h1; exact ⟨congrArg (OptEvent.opt o.1 [] :: ·) ih.1, ih.2⟩
    · next o a _ _ _ _ =>
      obtain ⟨rfl, rfl⟩ := h1; exact ⟨congrArg (OptEvent.opt o.1 a :: ·) ih.1, ih.2⟩
    · next t _ =>
      subst h1; exact ⟨ih.1, congrArg (t :: ·) ih.2⟩

/-- C70 for whole command lines: the form of each option, at any place and next to anything, makes no
difference.  Missing: the short forms of `-T` and `-V` and the long form of `-h`, see
`C70_violated`. -/
theorem C70_lines_partial (isChr : List UInt8 → Bool) (ws ws' : List CliWord) (h : ∀ w ∈ ws, w.Ok) (h' : ∀ w ∈ ws', w.Ok)
    (hs : Matches CliWord.SameMeaning ws ws') (c : Config) :
    parseArgv isChr (ws.flatMap (·.args)) c = parseArgv isChr (ws'.flatMap (·.args)) c := by
  unfold parseArgv
  rw [C73_words ws h, C73_words ws' h', (same_asks hs).1, (same_asks hs).2]

/-- All in short form, where there is one. -/
def Sample.wordsShort : List CliWord :=
  [.option (116, "tcp-port") (ascii "0") .short, .plain (ascii "/dev/ttyS0:57600"),
   .switch (114, "report_msg_statistics") true, .option (101, "endpoint") (ascii "10.0.0.1") .long, .plain (ascii "-"),
   .switch (84, "telemetry-log") true, .switch (118, "verbose") false]

example : (∀ w ∈ Sample.wordsShort, w.Ok) ∧ Matches CliWord.SameMeaning Sample.words Sample.wordsShort ∧
    Sample.wordsShort.flatMap (·.args) = [ascii "-t", ascii "0", ascii "/dev/ttyS0:57600", ascii "--report_msg_statistics",
      ascii "--endpoint", ascii "10.0.0.1", ascii "-", ascii "--telemetry-log", ascii "-v"] := by
  refine ⟨?_, ?_, by decide +kernel⟩
  · simp [Sample.wordsShort, CliWord.Ok, switches, withArg]; decide +kernel
  · simp [Sample.words, Sample.wordsShort, Matches, CliWord.SameMeaning]

/-! ### Endpoints -/

theorem split_some {t base suffix : List UInt8} {n : Nat} (h : splitOnLastColon t = some (base, n, suffix)) :
    ((58 : UInt8) ∉ t ∧ base = t ∧ n = ulongMax ∧ suffix = []) ∨ (Splits t base suffix ∧ safeAtoul suffix = some n) := by
  by_cases hc : (58 : UInt8) ∈ t
  · right
    obtain ⟨l, r, e, hl⟩ := List.eq_append_cons_of_mem (List.mem_reverse.2 hc)
    have e2 : t = r.reverse ++ 58 :: l.reverse := by
      have := congrArg List.reverse e
      simpa using this
    have hl2 : (58 : UInt8) ∉ l.reverse := by simpa using hl
    rw [e2, split_colon _ _ hl2, Option.map_eq_some_iff] at h
    obtain ⟨m, hm, e3⟩ := h
    cases e3
    exact ⟨⟨e2, hl2⟩, hm⟩
  · left
    rw [C66_no_colon t hc] at h
    cases h
    exact ⟨hc, rfl, rfl, rfl⟩

theorem reads {num : List UInt8} {x : Nat} (h : safeAtoul num = some x) : ReadsAs num x := by
  intro n hd hn
  rw [safeAtoul_decimal hd (by omega)] at h
  exact (Option.some.inj h).symm

theorem argvOption_tcp {c c1 : Config} {e : OptEvent} (h : argvOption c e = some c1) :
    (argOf 112 e = none ∧ c1.tcp = c.tcp) ∨ ∃ t o, argOf 112 e = some t ∧ AsTcp t o ∧ c1.tcp = c.tcp ++ [o] := by
  cases he : argOf 112 e with
  | none =>
    rcases (argvOption_does h).tcp with h1 | ⟨h1, _⟩
    · exact Or.inl ⟨rfl, h1.2⟩
    · rw [he] at h1; cases h1
  | some t =>
    right
    cases e with
    | bad => cases he
    | opt l a =>
      have hl : l = 112 ∧ a = t := by
        simp only [argOf] at he
        split at he
        · next e => exact ⟨e, Option.some.inj he⟩
        · cases he
      obtain ⟨rfl, rfl⟩ := hl
      simp only [argvOption] at h
      split at h
      · cases h
      · next ip port suffix hs =>
        split at h
        · cases h
        · next hp =>
          split at h
          · cases h
          · cases h
            rcases split_some hs with ⟨_, _, h1, _⟩ | ⟨h1, h2⟩
            · exact absurd h1 hp
            · exact ⟨_, _, rfl, ⟨⟨_, h1, reads h2⟩, rfl⟩, rfl⟩

theorem argvOption_udp {c c1 : Config} {e : OptEvent} (h : argvOption c e = some c1) :
    (argOf 101 e = none ∧ c1.udp = c.udp) ∨ ∃ t o, argOf 101 e = some t ∧ AsClient t o ∧ c1.udp = c.udp ++ [o] := by
  cases he : argOf 101 e with
  | none =>
    rcases (argvOption_does h).udp with h1 | ⟨h1, _⟩
    · exact Or.inl ⟨rfl, h1.2⟩
    · rw [he] at h1; cases h1
  | some t =>
    right
    cases e with
    | bad => cases he
    | opt l a =>
      have hl : l = 101 ∧ a = t := by
        simp only [argOf] at he
        split at he
        · next e => exact ⟨e, Option.some.inj he⟩
        · cases he
      obtain ⟨rfl, rfl⟩ := hl
      simp only [argvOption] at h
      split at h
      · cases h
      · next ip port suffix hs =>
        have hport : (58 : UInt8) ∉ a ∧ ip = a ∧ 14550 ≤ (if port ≠ ulongMax then port else findNextUdpPort [] c.udp) ∨
            ∃ num, Splits a ip num ∧ ReadsAs num (if port ≠ ulongMax then port else findNextUdpPort [] c.udp) := by
          rcases split_some hs with ⟨h1, h2, h3, _⟩ | ⟨h1, h2⟩
          · left
            refine ⟨h1, h2, ?_⟩
            rw [if_neg (by simpa using h3)]
            rcases findNextUdpPort_eq [] c.udp with ⟨e, _⟩ | ⟨e, _⟩ <;> rw [e]
            · omega
            · omega
          · right
            refine ⟨_, h1, ?_⟩
            intro n hd hn
            have := reads h2 n hd hn
            subst this
            rw [if_pos (by unfold ulongMax; omega)]
        generalize (if port ≠ ulongMax then port else findNextUdpPort [] c.udp) = port' at h hport
        split at h
        · cases h
        · cases h
          exact ⟨_, _, rfl, ⟨hport, rfl⟩, rfl⟩

theorem argvOptions_endpoints {es : List OptEvent} {c c1 : Config} (h : argvOptions c es = some c1) :
    (∃ ws, Matches AsTcp (es.filterMap (argOf 112)) ws ∧ c1.tcp = c.tcp ++ ws) ∧
    ∃ vs, Matches AsClient (es.filterMap (argOf 101)) vs ∧ c1.udp = c.udp ++ vs := by
  induction es generalizing c with
  | nil => cases h; exact ⟨⟨[], trivial, by simp⟩, [], trivial, by simp⟩
  | cons e es ih =>
    simp only [argvOptions, Option.bind_eq_some_iff] at h
    obtain ⟨c2, h1, h2⟩ := h
    obtain ⟨⟨ws, h3, h4⟩, vs, h5, h6⟩ := ih h2
    constructor
    · rcases argvOption_tcp h1 with ⟨h7, h8⟩ | ⟨t, o, h7, h8, h9⟩
      · exact ⟨ws, by simpa [h7] using h3, by rw [h4, h8]⟩
      · refine ⟨o :: ws, ?_, by rw [h4, h9]; simp⟩
        rw [List.filterMap_cons_some h7]; exact ⟨h8, h3⟩
    · rcases argvOption_udp h1 with ⟨h7, h8⟩ | ⟨t, o, h7, h8, h9⟩
      · exact ⟨vs, by simpa [h7] using h5, by rw [h6, h8]⟩
      · refine ⟨o :: vs, ?_, by rw [h6, h9]; simp⟩
        rw [List.filterMap_cons_some h7]; exact ⟨h8, h5⟩

theorem argvPlain_endpoint {isChr : List UInt8 → Bool} {c c1 : Config} {a : List UInt8} (h : argvPlain isChr c a = some c1) :
    ∃ x, AsPlain isChr a x ∧ c1 = { c with uart := c.uart ++ uartsOf [x], udp := c.udp ++ udpsOf [x] } := by
  unfold argvPlain at h
  split at h
  · cases h
  · next base number suffix hs =>
    by_cases hc : isChr base = true
    · simp only [hc, Bool.not_true, Bool.false_eq_true, if_false] at h
      cases h
      refine ⟨.inl (UartConf.mk cliName base [if number ≠ ulongMax then (atoiC suffix % 2 ^ 32).toNat else 115200] false {} []), ⟨hc, ?_, _, rfl⟩, by simp [uartsOf, udpsOf]⟩
      rcases split_some hs with ⟨h1, h2, h3, _⟩ | ⟨h1, h2⟩
      · exact Or.inl ⟨h1, h2, by simp [h3]⟩
      · refine Or.inr ⟨_, h1, ?_⟩
        intro n hd hn
        have := reads h2 n hd (by omega)
        subst this
        rw [if_pos (by unfold ulongMax; omega), atoiC_decimal hd hn]
        have e : (((number : Int) % 2 ^ 32).toNat) = number := by omega
        rw [e]
    · have hc : isChr base = false := by simpa using hc
      simp only [hc, Bool.not_false, if_true] at h
      split at h
      · cases h
      · next hp =>
        split at h
        · cases h
        · cases h
          rcases split_some hs with ⟨_, _, h1, _⟩ | ⟨h1, h2⟩
          · exact absurd h1 hp
          · exact ⟨.inr (UdpConf.mk cliName base number .server {} []), ⟨hc, ⟨_, h1, reads h2⟩, rfl⟩, by simp [uartsOf, udpsOf]⟩

theorem argvPlains_endpoints {isChr : List UInt8 → Bool} {as : List (List UInt8)} {c c1 : Config}
    (h : argvPlains isChr c as = some c1) :
    ∃ xs, Matches (AsPlain isChr) as xs ∧ c1 = { c with uart := c.uart ++ uartsOf xs, udp := c.udp ++ udpsOf xs } := by
  induction as generalizing c with
  | nil => cases h; exact ⟨[], trivial, by simp [uartsOf, udpsOf]⟩
  | cons a as ih =>
    simp only [argvPlains, Option.bind_eq_some_iff] at h
    obtain ⟨c2, h1, h2⟩ := h
    obtain ⟨x, h3, rfl⟩ := argvPlain_endpoint h1
    obtain ⟨xs, h4, rfl⟩ := ih h2
    refine ⟨x :: xs, ⟨h3, h4⟩, ?_⟩
    cases x <;> simp [uartsOf, udpsOf]

/-- C73: the endpoints that an accepted command line adds are, in the order of the words, exactly the
ones it asks for, with address, port, mode, device and baud rate as written and everything else at
its default. -/
theorem C73_endpoints (isChr : List UInt8 → Bool) (argv : List (List UInt8)) (c c' : Config)
    (h : parseArgv isChr argv c = some c') : EndpointsAsked isChr (getopt argv).1 (getopt argv).2 c c' := by
  simp only [parseArgv, Option.bind_eq_some_iff] at h
  obtain ⟨c1, h1, h2⟩ := h
  obtain ⟨⟨ws, h3, h4⟩, vs, h5, h6⟩ := argvOptions_endpoints h1
  obtain ⟨xs, h7, rfl⟩ := argvPlains_endpoints h2
  refine ⟨⟨ws, h3, h4⟩, vs, xs, h5, h7, ?_, ?_⟩
  · simp [(argvOptions_do h1).uart]
  · simp [h6]

/-- C73 from the words the user writes to the configuration: settings and endpoints. -/
theorem C73_end_to_end (isChr : List UInt8 → Bool) (ws : List CliWord) (h : ∀ w ∈ ws, w.Ok) (c c' : Config)
    (hp : parseArgv isChr (ws.flatMap (·.args)) c = some c') :
    CliSays (ws.filterMap (·.asks)) c c' ∧ EndpointsAsked isChr (ws.filterMap (·.asks)) (ws.filterMap (·.text)) c c' := by
  have h1 := (C73_overrides isChr _ c c' hp).1
  have h2 := C73_endpoints isChr _ c c' hp
  rw [C73_words ws h] at h1 h2
  exact ⟨h1, h2⟩

/-- The words of an accepted command line:
`-v -e 10.0.0.1 /dev/ttyS0 -p 10.0.0.2:5760 0.0.0.0:14550 -g Warning -e 10.0.0.3:9`. -/
def Sample.words2 : List CliWord :=
  [.switch (118, "verbose") false, .option (101, "endpoint") (ascii "10.0.0.1") .short, .plain (ascii "/dev/ttyS0"),
   .option (112, "tcp-endpoint") (ascii "10.0.0.2:5760") .short, .plain (ascii "0.0.0.0:14550"),
   .option (103, "debug-log-level") (ascii "Warning") .short, .option (101, "endpoint") (ascii "10.0.0.3:9") .short]

example : (∀ w ∈ Sample.words2, w.Ok) ∧
    parseArgv (fun p => p == ascii "/dev/ttyS0") (Sample.words2.flatMap (·.args)) {} = some
      { level := .warning
        uart := [{ name := ascii "CLI", device := ascii "/dev/ttyS0", baud := [115200] }]
        tcp := [{ name := ascii "CLI", address := ascii "10.0.0.2", port := 5760 }]
        udp := [{ name := ascii "CLI", mode := .client, address := ascii "10.0.0.1", port := 14550 },
          { name := ascii "CLI", mode := .client, address := ascii "10.0.0.3", port := 9 },
          { name := ascii "CLI", mode := .server, address := ascii "0.0.0.0", port := 14550 }] } := by
  refine ⟨?_, by decide +kernel⟩
  simp [Sample.words2, CliWord.Ok, switches, withArg]; decide +kernel

/-- C70 for short options written together: a switch in front of further letters is as if it stood alone before them, whatever they
are. (`-h` included: it is its long form that is unknown.) Missing: `-T` and `-V`, which take the further letters for their argument,
see `C70_violated`. -/
theorem C70_together_partial (c : UInt8) (hc : c ∈ switches.map Prod.fst ∨ c = 104) (d : UInt8) (hd : d ≠ 45) (t : List UInt8)
    (rest : List (List UInt8)) : getopt ((45 :: c :: d :: t) :: rest) = getopt ([45, c] :: (45 :: d :: t) :: rest) := by
  have hA : ∀ c, (c ∈ switches.map Prod.fst ∨ c = 104) → c ≠ 45 ∧ shortOptions.lookup c = some false := by
    intro c h
    rcases h with h | rfl
    · revert c; decide +kernel
    · decide +kernel
  obtain ⟨h1, h2⟩ := hA c hc
  have e1 : argKind (45 :: c :: d :: t) = .option ((shortCluster (d :: t)).push (.opt c [])) := by
    rw [argKind_short h1]; conv => lhs; rw [shortCluster, h2]
  have e2 : argKind [45, c] = .option (.done [.opt c []]) := by
    rw [argKind_short h1]; simp [shortCluster, h2, ShortRes.push]
  have e3 := argKind_short hd t
  have r2 : getopt ([45, c] :: (45 :: d :: t) :: rest) =
      (.opt c [] :: (getopt ((45 :: d :: t) :: rest)).1, (getopt ((45 :: d :: t) :: rest)).2) := by
    rw [getopt, e2]; rfl
  rw [r2]
  simp only [getopt, e1, e3]
  cases shortCluster (d :: t) with
  | done es => rfl
  | wants es x => cases rest <;> rfl

/-- `-vre 10.0.0.1`: verbose, then statistics, then an endpoint. -/
example : getopt [ascii "-vre", ascii "10.0.0.1"] = ([.opt 118 [], .opt 114 [], .opt 101 (ascii "10.0.0.1")], []) ∧
    getopt [ascii "-v", ascii "-re", ascii "10.0.0.1"] = getopt [ascii "-vre", ascii "10.0.0.1"] := by decide +kernel

end Verif
