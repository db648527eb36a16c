import Verif.Spec.Cli
import Verif.Props.Addr

/-
C66, C70, C73–C75: the command line.
-/

namespace Verif
open Spec.Conf

/-! ### C66 -/

theorem split_colon (base suffix : List UInt8) (h : (58 : UInt8) ∉ suffix) :
    splitOnLastColon (base ++ 58 :: suffix) = (safeAtoul suffix).map fun n => (base, n, suffix) := by
  unfold splitOnLastColon
  have e : (base ++ 58 :: suffix).reverse = suffix.reverse ++ 58 :: base.reverse := by simp
  have hx : ∀ a ∈ suffix.reverse, (a != 58) = true := by
    intro a ha
    rw [List.mem_reverse] at ha
    have : a ≠ 58 := fun h' => h (h' ▸ ha)
    simpa using this
  rw [e, List.takeWhile_append_of_pos hx, List.dropWhile_append_of_pos hx]
  simp

/-- C66: without colon the number is absent (2^64-1 stands for that). -/
theorem C66_no_colon (s : List UInt8) (h : (58 : UInt8) ∉ s) : splitOnLastColon s = some (s, 2 ^ 64 - 1, []) := by
  unfold splitOnLastColon
  have hx : ∀ a ∈ s.reverse, (a != 58) = true := by
    intro a ha
    rw [List.mem_reverse] at ha
    have : a ≠ 58 := fun h' => h (h' ▸ ha)
    simpa using this
  have e : s.reverse.dropWhile (· != 58) = [] := by
    have := List.dropWhile_append_of_pos (l₂ := []) hx
    simpa using this
  rw [e]; rfl

theorem safeAtoul_decimal {t : List UInt8} {n : Nat} (h : Decimal t n) (hn : n < 2 ^ 64) : safeAtoul t = some n := by
  have := parseUl_decimal h hn
  unfold parseUl at this
  rwa [cstrB_id (numeral_nul h.1)] at this

theorem decimal_colon {t : List UInt8} {n : Nat} (h : Decimal t n) : (58 : UInt8) ∉ t := by
  have key := ((numeral_iff _ _ _).1 h.1).2.1
  intro hm; have := key _ hm; revert this; decide

/-- C66 for plain decimal numbers: any base, which may contain colons, followed by a colon and a
number is split into these.  Missing: other notations, see `C66_violated`. -/
theorem C66_number_partial (base suffix : List UInt8) (n : Nat) (h : Decimal suffix n) (hn : n < 2 ^ 64) :
    splitOnLastColon (base ++ 58 :: suffix) = some (base, n, suffix) := by
  rw [split_colon base suffix (decimal_colon h), safeAtoul_decimal h hn]; rfl

/-- C66: text behind the last colon that is not a number is an error. -/
theorem C66_error (base suffix : List UInt8) (h : (58 : UInt8) ∉ suffix) (h0 : (0 : UInt8) ∉ suffix)
    (hn : ¬ ∃ neg n, CNumber suffix neg n) : splitOnLastColon (base ++ 58 :: suffix) = none := by
  rw [split_colon base suffix h]
  have hs : suffix.takeWhile (· != 0) = suffix := cstrB_id h0
  have := (C59_rejects suffix (by rw [hs]; exact hn)).1
  unfold parseUl at this
  rw [cstrB_id h0] at this
  rw [this]; rfl

example : splitOnLastColon (ascii "[fe80::1]:14550") = some (ascii "[fe80::1]", 14550, ascii "14550") ∧
    splitOnLastColon (ascii "[::1]") = none ∧ splitOnLastColon (ascii "/dev/ttyS0") = some (ascii "/dev/ttyS0", 2 ^ 64 - 1, []) ∧
    splitOnLastColon (ascii "h:") = none := by decide +kernel

/-- C66 is false: the number -1 is reported as absent, and 010 as 8. -/
theorem C66_violated :
    splitOnLastColon (ascii "10.0.0.1:-1") = some (ascii "10.0.0.1", 2 ^ 64 - 1, ascii "-1") ∧
    splitOnLastColon (ascii "10.0.0.1:010") = some (ascii "10.0.0.1", 8, ascii "010") ∧
    Numeral 10 (ascii "010") 10 := by
  exact ⟨by decide +kernel, by decide +kernel, (numeral_iff _ _ _).2 (by decide +kernel)⟩

/-! ### C61 on the command line -/

/-- C61 is false on the command line, too: the address is not yet known when the port is chosen, so
two clients of the same address get the same port. -/
theorem C61_violated_cli : ∃ c, parseArgv (fun _ => false) [ascii "-e", ascii "10.0.0.1", ascii "-e", ascii "10.0.0.1"] {} = some c ∧
    c.udp.map (fun o => (o.address, o.port)) = [(ascii "10.0.0.1", 14550), (ascii "10.0.0.1", 14550)] := by
  refine ⟨{ udp := [{ name := ascii "CLI", address := ascii "10.0.0.1", port := 14550, mode := .client },
      { name := ascii "CLI", address := ascii "10.0.0.1", port := 14550, mode := .client }] }, ?_, ?_⟩ <;> decide +kernel

/-! ### C70 -/

/-- Short and long form of an option, as the help text lists them (main.cpp:61-93). -/
def Spec.Conf.documented : List (UInt8 × String) :=
  [(101, "endpoint"), (112, "tcp-endpoint"), (114, "report_msg_statistics"), (116, "tcp-port"), (99, "conf-file"),
   (100, "conf-dir"), (108, "log"), (84, "telemetry-log"), (103, "debug-log-level"), (118, "verbose"), (86, "version"),
   (115, "sniffer-sysid"), (121, "syslog"), (104, "help")]

theorem getopt_option {a b : List UInt8} {r : ShortRes} (ha : argKind a = .option r) (hb : argKind b = .option r)
    (rest : List (List UInt8)) : getopt (a :: rest) = getopt (b :: rest) := by
  simp only [getopt, ha, hb]
  cases r <;> rfl

/-- C70 for all documented options but `-T`, `-V` and `-h`: short and long form are the same, whatever
follows; if the option takes an argument, also in the forms `-xARG` and `--long=ARG`.  Missing: the
three others, see `C70_violated`. -/
theorem C70_forms_partial (o : UInt8 × String) (ho : o ∈ documented) (hx : o.1 ≠ 84 ∧ o.1 ≠ 86 ∧ o.1 ≠ 104) :
    (∀ rest, getopt ([45, o.1] :: rest) = getopt ((ascii "--" ++ ascii o.2) :: rest)) ∧
    (o.1 ∈ [101, 112, 116, 99, 100, 108, 103, 115] → ∀ arg rest, arg ≠ [] →
      getopt ((45 :: o.1 :: arg) :: rest) = getopt ([45, o.1] :: arg :: rest) ∧
      getopt ((ascii "--" ++ (ascii o.2 ++ 61 :: arg)) :: rest) = getopt ([45, o.1] :: arg :: rest)) := by
  have hk : ∀ o ∈ documented, o.1 ≠ 84 → o.1 ≠ 86 → o.1 ≠ 104 →
      argKind [45, o.1] = .option (shortCluster [o.1]) ∧
        argKind (ascii "--" ++ ascii o.2) = .option (shortCluster [o.1]) := by decide +kernel
  have hE : ∀ o ∈ documented, o.1 ≠ 84 → o.1 ≠ 86 → o.1 ≠ 104 → splitEq (ascii o.2) = (ascii o.2, none) ∧
      o.1 ≠ 45 ∧ ascii o.2 ≠ [] ∧ (o.1 ∈ ([101, 112, 116, 99, 100, 108, 103, 115] : List UInt8) →
        shortOptions.lookup o.1 = some true ∧ findLong (ascii o.2) = some (true, o.1)) := by decide +kernel
  have h1 := hk o ho hx.1 hx.2.1 hx.2.2
  obtain ⟨h2, h3, h4, h5⟩ := hE o ho hx.1 hx.2.1 hx.2.2
  refine ⟨getopt_option h1.1 h1.2, ?_⟩
  intro hm arg rest harg
  obtain ⟨h6, h7⟩ := h5 hm
  have e0 : argKind [45, o.1] = .option (.wants [] o.1) := by
    rw [h1.1]; simp [shortCluster, h6]
  have e1 : argKind (45 :: o.1 :: arg) = .option (.done [.opt o.1 arg]) := by
    have : argKind (45 :: o.1 :: arg) = .option (shortCluster (o.1 :: arg)) := by
      unfold argKind
      split
      · next h => simp only [List.cons.injEq, true_and] at h; exact absurd h.1 h3
      · next h => simp only [List.cons.injEq, true_and] at h; exact absurd h.1 h3
      · next h => simp only [List.cons.injEq, true_and] at h; obtain ⟨rfl, rfl⟩ := h; rfl
      · next h => exact absurd rfl (h o.1 arg)
    rw [this]; simp [shortCluster, h6, harg]
  have split2 : ∀ x : List UInt8, splitEq x = (x, none) → ∀ y, splitEq (x ++ 61 :: y) = (x, some y) := by
    intro x
    induction x with
    | nil => intro _ y; simp [splitEq]
    | cons a x ih =>
      intro hx y
      by_cases ha : a = 61
      · simp [splitEq, ha] at hx
      · simp only [splitEq, if_neg ha, Prod.mk.injEq, List.cons.injEq, true_and] at hx
        have := ih (Prod.ext hx.1 hx.2) y
        simp [splitEq, ha, this]
  have e2 : argKind (ascii "--" ++ (ascii o.2 ++ 61 :: arg)) = .option (.done [.opt o.1 arg]) := by
    have : argKind (ascii "--" ++ (ascii o.2 ++ 61 :: arg)) = .option (longOption (ascii o.2 ++ 61 :: arg)) := by
      show argKind (45 :: 45 :: (ascii o.2 ++ 61 :: arg)) = _
      unfold argKind
      split
      · next h => simp at h
      · next h => simp only [List.cons.injEq, true_and] at h; rw [h]
      · next hne h =>
        simp only [List.cons.injEq, true_and] at h
        obtain ⟨rfl, rfl⟩ := h
        exact (hne rfl).elim
      · next h => exact absurd rfl (h 45 _)
    rw [this]; simp [longOption, split2 _ h2, h7]
  have g0 : getopt ([45, o.1] :: arg :: rest) = (.opt o.1 arg :: (getopt rest).1, (getopt rest).2) := by
    simp [getopt, e0]
  rw [g0]
  constructor
  · simp [getopt, e1]
  · rw [show getopt ((ascii "--" ++ (ascii o.2 ++ 61 :: arg)) :: rest) =
        ([OptEvent.opt o.1 arg] ++ (getopt rest).1, (getopt rest).2) by simp only [getopt, e2]]
    rfl

example : getopt [ascii "-t", ascii "0", ascii "/dev/ttyS0:115200", ascii "-re10.0.0.1", ascii "--", ascii "-x"] =
    ([.opt 116 (ascii "0"), .opt 114 [], .opt 101 (ascii "10.0.0.1")], [ascii "/dev/ttyS0:115200", ascii "-x"]) := by
  decide +kernel

/-- C70 is false: `-T` swallows the next argument, so that the endpoint given there is silently lost,
unlike with `--telemetry-log`; a final `-V` is an error, unlike `--version`; `--help` is unknown. -/
theorem C70_violated :
    (∃ c c', parseArgv (fun _ => false) [ascii "-T", ascii "10.0.0.1:14550"] {} = some c ∧ c.udp = [] ∧
      parseArgv (fun _ => false) [ascii "--telemetry-log", ascii "10.0.0.1:14550"] {} = some c' ∧ c'.udp.length = 1) ∧
    getopt [ascii "-V"] = ([.bad], []) ∧ getopt [ascii "--version"] = ([.opt 86 []], []) ∧
    getopt [ascii "-h"] = ([.opt 104 []], []) ∧ getopt [ascii "--help"] = ([.bad], []) := by
  refine ⟨⟨{ log := { telemetry := true } }, { log := { telemetry := true }, udp := [
    { name := ascii "CLI", address := ascii "10.0.0.1", port := 14550, mode := .server }] }, ?_⟩, ?_⟩ <;> decide +kernel

/-! ### C73 -/

theorem given_cons {β : Type} {parse : List UInt8 → Option β} {l : UInt8} {e : OptEvent} {es : List OptEvent}
    {x x1 x' : β} (h : Given (lastArg l es) parse x1 x') (he : Given (argOf l e) parse x x1) :
    Given (lastArg l (e :: es)) parse x x' := by
  unfold lastArg
  cases h1 : lastArg l es with
  | some v => rw [h1] at h; exact h
  | none =>
    rw [h1] at h
    have h : x' = x1 := h
    subst h
    exact he

theorem lastArg_cons (l : UInt8) (e : OptEvent) (es : List OptEvent) :
    lastArg l (e :: es) = (lastArg l es).or (argOf l e) := rfl

/-- The sniffer id of an argument. -/
def snifferArg (a : List UInt8) : Option Nat :=
  if (atoiC a % 65536).toNat = 0 ∨ (atoiC a % 65536).toNat > 255 then none else some (atoiC a % 65536).toNat

/-- Everything one option does. -/
structure OptDoes (e : OptEvent) (c c1 : Config) : Prop where
  tcpPort : Given (argOf 116 e) safeAtoul c.tcpPort c1.tcpPort
  stats : c1.stats = (c.stats || (argOf 114 e).isSome)
  logDir : c1.log.dir = (argOf 108 e).getD c.log.dir
  telemetry : c1.log.telemetry = (c.log.telemetry || (argOf 84 e).isSome)
  level : LevelIs (levelOf e) c.level c1.level
  sniffer : Given (argOf 115 e) snifferArg c.sniffer c1.sniffer
  others : c1.dedupMs = c.dedupMs ∧ { c1.log with dir := c.log.dir, telemetry := c.log.telemetry } = c.log
  uart : c1.uart = c.uart
  udp : (argOf 101 e = none ∧ c1.udp = c.udp) ∨
    ((argOf 101 e).isSome = true ∧ ∃ o : UdpConf, o.valid = true ∧ o.name = cliName ∧ c1.udp = c.udp ++ [o])
  tcp : (argOf 112 e = none ∧ c1.tcp = c.tcp) ∨
    ((argOf 112 e).isSome = true ∧ ∃ o : TcpConf, o.valid = true ∧ o.name = cliName ∧ c1.tcp = c.tcp ++ [o])

theorem logLevel_named {t : List UInt8} {x : LogLevel} (h : logLevel t = some x) :
    ∃ w ∈ levelNames, Same t (ascii w.1) ∧ x = w.2 := by
  unfold logLevel at h
  repeat' split at h
  all_goals first
    | cases h; done
    | next hm =>
      cases h
      exact ⟨(_, _), by simp [levelNames], (memCaseEq_iff _ _).1 hm, rfl⟩

theorem argvOption_does {e : OptEvent} {c c1 : Config} (h : argvOption c e = some c1) : OptDoes e c c1 := by
  unfold argvOption at h
  split at h
  · cases h
  · cases h
  · next a =>
    split at h
    · cases h
    · next ip port _ _ =>
      simp only at h
      generalize (if port ≠ ulongMax then port else findNextUdpPort [] c.udp) = port' at h
      split at h
      · cases h
      · next hv =>
        cases h
        exact ⟨rfl, by simp [argOf], rfl, by simp [argOf], rfl, rfl, ⟨rfl, rfl⟩, rfl,
          Or.inr ⟨by simp [argOf], _, by simpa using hv, rfl, rfl⟩, Or.inl ⟨rfl, rfl⟩⟩
  · cases h
    exact ⟨rfl, by simp [argOf], rfl, by simp [argOf], rfl, rfl, ⟨rfl, rfl⟩, rfl, Or.inl ⟨rfl, rfl⟩, Or.inl ⟨rfl, rfl⟩⟩
  · next a =>
    rw [Option.map_eq_some_iff] at h
    obtain ⟨p, hp, rfl⟩ := h
    exact ⟨hp, by simp [argOf], rfl, by simp [argOf], rfl, rfl, ⟨rfl, rfl⟩, rfl, Or.inl ⟨rfl, rfl⟩, Or.inl ⟨rfl, rfl⟩⟩
  · cases h
    exact ⟨rfl, by simp [argOf], rfl, by simp [argOf], rfl, rfl, ⟨rfl, rfl⟩, rfl, Or.inl ⟨rfl, rfl⟩, Or.inl ⟨rfl, rfl⟩⟩
  · cases h
    exact ⟨rfl, by simp [argOf], rfl, by simp [argOf], rfl, rfl, ⟨rfl, rfl⟩, rfl, Or.inl ⟨rfl, rfl⟩, Or.inl ⟨rfl, rfl⟩⟩
  · next a =>
    rw [Option.map_eq_some_iff] at h
    obtain ⟨p, hp, rfl⟩ := h
    exact ⟨rfl, by simp [argOf], rfl, by simp [argOf], logLevel_named hp, rfl, ⟨rfl, rfl⟩, rfl, Or.inl ⟨rfl, rfl⟩, Or.inl ⟨rfl, rfl⟩⟩
  · cases h
    exact ⟨rfl, by simp [argOf], rfl, by simp [argOf], rfl, rfl, ⟨rfl, rfl⟩, rfl, Or.inl ⟨rfl, rfl⟩, Or.inl ⟨rfl, rfl⟩⟩
  · next a =>
    simp only at h
    split at h
    · cases h
    · next hs =>
      cases h
      refine ⟨rfl, by simp [argOf], rfl, by simp [argOf], rfl, ?_, ⟨rfl, rfl⟩, rfl, Or.inl ⟨rfl, rfl⟩, Or.inl ⟨rfl, rfl⟩⟩
      show snifferArg a = some _
      unfold snifferArg
      rw [if_neg hs]
  · next a =>
    split at h
    · cases h
    · next ip port _ _ =>
      simp only at h
      split at h
      · cases h
      · split at h
        · cases h
        · next hv =>
          cases h
          exact ⟨rfl, by simp [argOf], rfl, by simp [argOf], rfl, rfl, ⟨rfl, rfl⟩, rfl, Or.inl ⟨rfl, rfl⟩,
            Or.inr ⟨by simp [argOf], _, by simpa using hv, rfl, rfl⟩⟩
  · next l a _ _ _ _ _ _ _ _ _ _ =>
    cases h
    have hn : ∀ x : UInt8, l ≠ x → argOf x (.opt l a) = none := fun x h => by simp [argOf, h]
    refine ⟨?_, ?_, ?_, ?_, ?_, ?_, ⟨rfl, rfl⟩, rfl, Or.inl ⟨hn 101 (by assumption), rfl⟩,
      Or.inl ⟨hn 112 (by assumption), rfl⟩⟩
    · rw [hn 116 (by assumption)]; rfl
    · rw [hn 114 (by assumption)]; simp
    · rw [hn 108 (by assumption)]; rfl
    · rw [hn 84 (by assumption)]; simp
    · have h3 : l ≠ 103 := by assumption
      have h8 : l ≠ 118 := by assumption
      simp [levelOf, h3, h8, LevelIs]
    · rw [hn 115 (by assumption)]; rfl

theorem strtol10_decimal {t : List UInt8} {n : Nat} (h : Decimal t n) (hn : n < 2 ^ 63) : strtol10 t = n :=
  strtol10_item ⟨[], [], t, by simp, blank_nil, blank_nil, h.1⟩ (by omega)

theorem atoiC_decimal {t : List UInt8} {n : Nat} (h : Decimal t n) (hn : n < 2 ^ 31) : atoiC t = n := by
  unfold atoiC
  rw [strtol10_decimal h (by omega)]
  omega

/-- The settings after options. -/
structure OptsDo (es : List OptEvent) (c c1 : Config) : Prop where
  tcpPort : Given (lastArg 116 es) safeAtoul c.tcpPort c1.tcpPort
  stats : c1.stats = (c.stats || (lastArg 114 es).isSome)
  logDir : c1.log.dir = (lastArg 108 es).getD c.log.dir
  telemetry : c1.log.telemetry = (c.log.telemetry || (lastArg 84 es).isSome)
  level : LevelIs (lastLevel es) c.level c1.level
  sniffer : Given (lastArg 115 es) snifferArg c.sniffer c1.sniffer
  others : c1.dedupMs = c.dedupMs ∧ { c1.log with dir := c.log.dir, telemetry := c.log.telemetry } = c.log
  uart : c1.uart = c.uart
  udp : ∃ vs : List UdpConf, c1.udp = c.udp ++ vs ∧ (∀ o ∈ vs, o.valid = true ∧ o.name = cliName) ∧
    vs.length = es.countP fun e => (argOf 101 e).isSome
  tcp : ∃ vs : List TcpConf, c1.tcp = c.tcp ++ vs ∧ (∀ o ∈ vs, o.valid = true ∧ o.name = cliName) ∧
    vs.length = es.countP fun e => (argOf 112 e).isSome

theorem argvOptions_do {es : List OptEvent} {c c1 : Config} (h : argvOptions c es = some c1) : OptsDo es c c1 := by
  induction es generalizing c with
  | nil =>
    cases h
    exact ⟨rfl, by simp [lastArg], rfl, by simp [lastArg], rfl, rfl, ⟨rfl, rfl⟩, rfl,
      ⟨[], by simp, by simp, rfl⟩, ⟨[], by simp, by simp, rfl⟩⟩
  | cons e es ih =>
    simp only [argvOptions, Option.bind_eq_some_iff] at h
    obtain ⟨c2, h1, h2⟩ := h
    have a := argvOption_does h1
    have b := ih h2
    have hor : ∀ l, (lastArg l (e :: es)).isSome = ((argOf l e).isSome || (lastArg l es).isSome) := by
      intro l; rw [lastArg_cons]
      cases lastArg l es <;> cases argOf l e <;> rfl
    refine ⟨given_cons b.tcpPort a.tcpPort, ?_, ?_, ?_, ?_, given_cons b.sniffer a.sniffer, ?_, b.uart.trans a.uart, ?_, ?_⟩
    · rw [b.stats, a.stats, hor, Bool.or_assoc]
    · rw [b.logDir, a.logDir]
      rw [lastArg_cons]
      cases lastArg 108 es <;> rfl
    · rw [b.telemetry, a.telemetry, hor, Bool.or_assoc]
    · have h3 := b.level
      show LevelIs ((lastLevel es).or (levelOf e)) _ _
      cases h4 : lastLevel es with
      | none => rw [h4] at h3; rw [show c1.level = c2.level from h3]; exact a.level
      | some m => rw [h4] at h3; cases m <;> exact h3
    · refine ⟨b.others.1.trans a.others.1, ?_⟩
      rw [← a.others.2]
      have := b.others.2
      have hb : ∀ x : LogConf, x = { x with dir := x.dir, telemetry := x.telemetry } := fun _ => rfl
      rw [← this]
    · obtain ⟨vs, h3, h4, hlen⟩ := b.udp
      rcases a.udp with ⟨h8, h5⟩ | ⟨h8, o, h5, h6, h7⟩
      · exact ⟨vs, by rw [h3, h5], h4, by rw [List.countP_cons, hlen]; simp [h8]⟩
      · refine ⟨o :: vs, by rw [h3, h7]; simp, ?_, by rw [List.countP_cons, List.length_cons, hlen]; simp [h8]⟩
        intro p hp
        rcases List.mem_cons.1 hp with rfl | hp
        · exact ⟨h5, h6⟩
        · exact h4 p hp
    · obtain ⟨vs, h3, h4, hlen⟩ := b.tcp
      rcases a.tcp with ⟨h8, h5⟩ | ⟨h8, o, h5, h6, h7⟩
      · exact ⟨vs, by rw [h3, h5], h4, by rw [List.countP_cons, hlen]; simp [h8]⟩
      · refine ⟨o :: vs, by rw [h3, h7]; simp, ?_, by rw [List.countP_cons, List.length_cons, hlen]; simp [h8]⟩
        intro p hp
        rcases List.mem_cons.1 hp with rfl | hp
        · exact ⟨h5, h6⟩
        · exact h4 p hp

theorem argvPlain_does {isChr : List UInt8 → Bool} {c c1 : Config} {a : List UInt8}
    (h : argvPlain isChr c a = some c1) :
    (∃ o : UdpConf, o.valid = true ∧ o.name = cliName ∧ o.mode = .server ∧ isChr o.address = false ∧
      c1 = { c with udp := c.udp ++ [o] }) ∨
    (∃ o : UartConf, o.name = cliName ∧ isChr o.device = true ∧ c1 = { c with uart := c.uart ++ [o] }) := by
  unfold argvPlain at h
  split at h
  · cases h
  · next base number suffix _ =>
    by_cases hc : isChr base = true
    · simp only [hc, Bool.not_true, Bool.false_eq_true, if_false] at h
      cases h
      exact Or.inr ⟨_, rfl, hc, rfl⟩
    · have hc : isChr base = false := by simpa using hc
      simp only [hc, Bool.not_false, if_true] at h
      split at h
      · cases h
      · split at h
        · cases h
        · next hv =>
          cases h
          exact Or.inl ⟨_, by simpa using hv, rfl, rfl, hc, rfl⟩

theorem argvPlains_do {isChr : List UInt8 → Bool} {as : List (List UInt8)} {c c1 : Config}
    (h : argvPlains isChr c as = some c1) :
    ∃ us vs, c1 = { c with uart := c.uart ++ us, udp := c.udp ++ vs } ∧
      (∀ o ∈ us, UartConf.name o = cliName ∧ isChr o.device = true) ∧
      (∀ o ∈ vs, UdpConf.valid o = true ∧ o.name = cliName) ∧ us.length + vs.length = as.length := by
  induction as generalizing c with
  | nil => cases h; exact ⟨[], [], by simp, by simp, by simp, rfl⟩
  | cons a as ih =>
    simp only [argvPlains, Option.bind_eq_some_iff] at h
    obtain ⟨c2, h1, h2⟩ := h
    obtain ⟨us, vs, rfl, h3, h4, h5⟩ := ih h2
    rcases argvPlain_does h1 with ⟨o, h6, h7, _, _, rfl⟩ | ⟨o, h6, h7, rfl⟩
    · refine ⟨us, o :: vs, by simp, h3, ?_, by simp; omega⟩
      intro p hp
      rcases List.mem_cons.1 hp with rfl | hp
      · exact ⟨h6, h7⟩
      · exact h4 p hp
    · refine ⟨o :: us, vs, by simp, ?_, h4, by simp; omega⟩
      intro p hp
      rcases List.mem_cons.1 hp with rfl | hp
      · exact ⟨h6, h7⟩
      · exact h3 p hp

/-- C73: for every configuration and every command line that is accepted, endpoints are added behind
the configured ones, one TCP endpoint for each `-p` and one UDP or UART endpoint for each `-e` and each
positional argument; settings that are mentioned get the value of the last mention, all others
stay. -/
theorem C73_overrides (isChr : List UInt8 → Bool) (argv : List (List UInt8)) (c c' : Config)
    (h : parseArgv isChr argv c = some c') :
    CliSays (getopt argv).1 c c' ∧
    ∃ us vs ws, c'.uart = c.uart ++ us ∧ c'.udp = c.udp ++ vs ∧ c'.tcp = c.tcp ++ ws ∧
      (∀ o ∈ us, UartConf.name o = ascii "CLI" ∧ isChr o.device = true) ∧
      (∀ o ∈ vs, UdpConf.name o = ascii "CLI" ∧ validIp o.address = true) ∧
      (∀ o ∈ ws, TcpConf.name o = ascii "CLI" ∧ validIp o.address = true) ∧
      ws.length = ((getopt argv).1.countP fun e => (argOf 112 e).isSome) ∧
      us.length + vs.length = ((getopt argv).1.countP fun e => (argOf 101 e).isSome) + (getopt argv).2.length := by
  simp only [parseArgv, Option.bind_eq_some_iff] at h
  obtain ⟨c1, h1, h2⟩ := h
  have a := argvOptions_do h1
  obtain ⟨us, vs, rfl, h3, h4, hl1⟩ := argvPlains_do h2
  constructor
  · refine ⟨⟨?_, ?_⟩, a.stats, a.logDir, a.telemetry, a.level, ⟨?_, ?_⟩, a.others⟩
    · intro hn; have := a.tcpPort; rw [hn] at this; exact this
    · intro t n hn hd hlt
      have := a.tcpPort; rw [hn] at this
      have e : safeAtoul t = some c1.tcpPort := this
      rw [safeAtoul_decimal hd hlt] at e
      exact (Option.some.inj e).symm
    · intro hn; have := a.sniffer; rw [hn] at this; exact this
    · intro t n hn hd hlt
      have := a.sniffer; rw [hn] at this
      have e : snifferArg t = some c1.sniffer := this
      unfold snifferArg at e
      rw [atoiC_decimal hd (by omega)] at e
      have e2 : (((n : Int) % 65536).toNat) = n := by omega
      rw [e2] at e
      split at e
      · cases e
      · exact (Option.some.inj e).symm
  · obtain ⟨vs0, h5, h6, hl2⟩ := a.udp
    obtain ⟨ws, h7, h8, hl3⟩ := a.tcp
    refine ⟨us, vs0 ++ vs, ws, by simp [a.uart], by simp [h5], h7, h3, ?_, ?_, hl3, by simp only [List.length_append]; omega⟩
    · intro o ho
      have : o.valid = true ∧ o.name = cliName := by
        rcases List.mem_append.1 ho with ho | ho
        · exact h6 o ho
        · exact h4 o ho
      refine ⟨this.2, ?_⟩
      have hv := this.1
      simp only [UdpConf.valid, Bool.and_eq_true] at hv
      exact hv.1.1.2
    · intro o ho
      refine ⟨(h8 o ho).2, ?_⟩
      have hv := (h8 o ho).1
      simp only [TcpConf.valid, Bool.and_eq_true] at hv
      exact hv.1.2

/-- A command line on top of `Sample.confFullRead`. -/
example : (parseArgv (fun p => p == ascii "/dev/ttyS0") [ascii "-t", ascii "1", ascii "/dev/ttyS0:57600", ascii "-t5761",
      ascii "-e", ascii "10.0.0.2:14555"] Sample.confFullRead).map
      (fun c => (c.tcpPort, c.uart.map (·.baud), c.udp.map (·.port))) =
    some (5761, [[57600, 921600], [57600]], [14550, 14555]) := by decide +kernel

/-! ### C74 -/

/-- The system id compared while routing: `Endpoint::sniffer_sysid`, 16 bits (mainloop.cpp:365-369,
endpoint.h:244). -/
def Config.snifferId (c : Config) : UInt16 := UInt16.ofNat c.sniffer

/-- An endpoint receives everything because of the sniffer id (endpoint.cpp:580). -/
def sniffs (c : Config) (e : Ep) : Prop := c.snifferId ≠ 0 ∧ e.hasSysId c.snifferId.toNat = true

/-- C74 for ids up to 255: exactly the endpoints behind which a component of this system was seen
sniff, none for 0.  Missing: larger ids from a configuration file, see `C74_violated`. -/
theorem C74_sniffer_partial (c : Config) (hc : c.sniffer ≤ 255) (e : Ep) :
    sniffs c e ↔ c.sniffer ≠ 0 ∧ ∃ id ∈ e.learned, id.toNat / 256 = c.sniffer := by
  unfold sniffs Config.snifferId Ep.hasSysId
  have h1 : (UInt16.ofNat c.sniffer).toNat = c.sniffer := by
    rw [UInt16.toNat_ofNat']; omega
  have h2 : UInt16.ofNat c.sniffer ≠ 0 ↔ c.sniffer ≠ 0 := by
    rw [Ne, Ne, ← UInt16.toNat_inj, h1]; rfl
  rw [h1, h2]
  refine and_congr Iff.rfl ?_
  rw [List.any_eq_true]
  have h3 : ((c.sniffer : Int) % 256).toNat = c.sniffer := by omega
  simp only [beq_iff_eq, h3, UInt16.toNat_shiftRight]
  constructor
  · rintro ⟨id, h4, h5⟩
    refine ⟨id, h4, ?_⟩
    rw [← h5]; simp [Nat.shiftRight_eq_div_pow]
  · rintro ⟨id, h4, h5⟩
    refine ⟨id, h4, ?_⟩
    rw [← h5]; simp [Nat.shiftRight_eq_div_pow]

example : sniffs { sniffer := 250 } { kind := .udp, learned := [sysComp 250 1] } ∧
    ¬ sniffs { sniffer := 250 } { kind := .udp, learned := [sysComp 1 250] } := by
  constructor <;> (unfold sniffs; decide +kernel)

/-- C74: the command line accepts 1 to 255 and rejects 0 and 256 to 65535. -/
theorem C74_cli_partial (c : Config) (t : List UInt8) (n : Nat) (h : Decimal t n) (hn : n < 65536) :
    argvOption c (.opt 115 t) = if 1 ≤ n ∧ n ≤ 255 then some { c with sniffer := n } else none := by
  have e : ((atoiC t) % 65536).toNat = n := by rw [atoiC_decimal h (by omega)]; omega
  show (if (atoiC t % 65536).toNat = 0 ∨ (atoiC t % 65536).toNat > 255 then none
    else some { c with sniffer := (atoiC t % 65536).toNat }) = _
  rw [e]
  by_cases h1 : 1 ≤ n ∧ n ≤ 255
  · rw [if_pos h1, if_neg (by omega)]
  · rw [if_neg h1, if_pos (by omega)]

/-- C74 is false: `SnifferSysid=257` in a file is accepted and makes system 1 the sniffer, and so does
the argument 65537. -/
theorem C74_violated :
    (∃ f c, (parseConf [] f).2 = true ∧ readConfig (parseConf [] f).1 {} = .ok c ∧ c.sniffer = 257 ∧
      sniffs c { kind := .udp, learned := [sysComp 1 1] }) ∧
    argvOption {} (.opt 115 (ascii "65537")) = some { sniffer := 1 } := by
  refine ⟨⟨ascii "[General]\nSnifferSysid=257\n", { sniffer := 257 }, by decide +kernel, by decide +kernel, rfl, ?_⟩,
    by decide +kernel⟩
  unfold sniffs; decide +kernel

/-! ### C75 -/

/-- C75 for plain decimal numbers: `device:baud` gives a UART endpoint with this device and baud rate;
without number 115200 is used.  Missing: other notations, see `C75_violated`. -/
theorem C75_uart_partial (isChr : List UInt8 → Bool) (c : Config) (dev : List UInt8) (hd : isChr dev = true) :
    (∀ t n, Decimal t n → n < 2 ^ 31 →
      argvPlain isChr c (dev ++ 58 :: t) = some { c with uart := c.uart ++ [{ name := ascii "CLI", device := dev, baud := [n] }] }) ∧
    ((58 : UInt8) ∉ dev →
      argvPlain isChr c dev = some { c with uart := c.uart ++ [{ name := ascii "CLI", device := dev, baud := [115200] }] }) := by
  constructor
  · intro t n h hn
    unfold argvPlain
    rw [C66_number_partial dev t n h (by omega)]
    have h1 : n ≠ ulongMax := by unfold ulongMax; omega
    have h2 : (((n : Int) % 4294967296).toNat) = n := by omega
    simp [hd, h1, atoiC_decimal h hn, cliName, h2]
  · intro h
    unfold argvPlain
    rw [C66_no_colon dev h]
    simp [hd, cliName, ulongMax]

example : (argvPlain (fun _ => true) {} (ascii "/dev/ttyUSB0:921600")).map (·.uart.map (·.baud)) = some [[921600]] := by
  decide +kernel

/-- C75 is false: the number is checked in C notation, but then read as decimal, so a hexadecimal rate
is accepted and becomes 0, an octal one is used as if decimal, and -1 is taken as no number. -/
theorem C75_violated :
    (argvPlain (fun _ => true) {} (ascii "/dev/ttyUSB0:0x1c200")).map (·.uart.map (·.baud)) = some [[0]] ∧
    safeAtoul (ascii "0x1c200") = some 115200 ∧
    (argvPlain (fun _ => true) {} (ascii "/dev/ttyUSB0:-1")).map (·.uart.map (·.baud)) = some [[115200]] ∧
    (argvPlain (fun _ => true) {} (ascii "/dev/ttyUSB0:4294967297")).map (·.uart.map (·.baud)) = some [[1]] := by
  decide +kernel

end Verif
