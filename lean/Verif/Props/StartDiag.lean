import Verif.Model.StartDiag
import Verif.Props.Start
import Verif.Props.Diag

/-
C106 for the program as started: the level and the output are those the files and the command line ask for.
-/

namespace Verif

open Spec Spec.Conf

/-- The configuration of a program start comes from the files and the command line. -/
theorem mainConfig_ok {h : Host} {argv : List (List UInt8)} {c : Config}
    (hc : mainConfig (h.file (confFileOf h argv)) (confDirOf h argv) (h.dir (confDirOf h argv)) h.isChr argv = .ok c) :
    ∃ files ds c0, FilesUsed h argv files ∧ FilesRead files ds ∧
      GeneralAsked (fun k => lastSet ds (ascii "General") (ascii k)) c0 ∧ CliSays (getopt argv).1 c0 c := by
  unfold mainConfig at hc
  cases h1 : readConfFiles (h.file (confFileOf h argv)) (confDirOf h argv) (h.dir (confDirOf h argv)) with
  | ub => rw [h1] at hc; cases hc
  | err => rw [h1] at hc; cases hc
  | ok ss =>
    rw [h1] at hc
    obtain ⟨ms, cs, h2, h3, h4, h5⟩ := readConfFiles_ok h1
    subst h5
    simp only [ConfRes.bind] at hc
    cases h6 : readConfig (parseConfs [] (ms ++ cs)) {} with
    | ub => rw [h6] at hc; cases hc
    | err => rw [h6] at hc; cases hc
    | ok c0 =>
      rw [h6] at hc
      simp only at hc
      cases h7 : parseArgv h.isChr argv c0 with
      | none => rw [h7] at hc; cases hc
      | some c' =>
        rw [h7] at hc
        cases hc
        obtain ⟨ds, hds⟩ := filesRead_exists (ms ++ cs)
        have hg := readConfig_general h6
        rw [show (fun k => confValue (parseConfs [] (ms ++ cs)) (ascii "General") (ascii k)) =
          fun k => lastSet ds (ascii "General") (ascii k) from funext fun k => C54_last_wins (ms ++ cs) ds hds _ _] at hg
        exact ⟨ms ++ cs, ds, c0, ⟨ms, cs, h2, h3, rfl⟩, hds, hg, (C73_overrides _ _ _ _ h7).1⟩

/-- C106 (part), from the files and arguments on: the running program writes its diagnostics to the system log if `-y` or
`--syslog` was given, else to the standard error output, each as one line, exactly if their level is at most the one named
by the last `-g` or `-v`, else by the last line `DebugLogLevel` of the section General, else info; those issued while the
configuration is read appear up to level info.  Missing: as in `C106_lines_partial`. -/
theorem C106_program_partial (h : Host) (argv : List (List UInt8)) (r : Running) (hr : mainStart h argv = .runs r) (tty : Bool)
    (conf run : List Diag) (onStderr : Bool) (ho : onStderr = (lastArg 121 (getopt argv).1).isNone)
    (hp : onStderr = true → PlainDiags conf ∧ PlainDiags run) :
    ∃ files ds asked level, FilesUsed h argv files ∧ FilesRead files ds ∧
      WordIs (lastSet ds (ascii "General") (ascii "DebugLogLevel")) .info
        [("error", .error), ("warning", .warning), ("info", .info), ("debug", .debug), ("trace", .trace)] asked ∧
      LevelIs (lastLevel (getopt argv).1) asked level ∧
      (programDiag h argv tty conf run).map (arrives onStderr) = linesOf (upTo .info conf) ++ linesOf (upTo level run) := by
  rw [mainStart_eq] at hr
  split at hr
  · cases hr
  · next hv =>
    split at hr
    · cases hr
    · cases hr
    · next c hc =>
      obtain ⟨files, ds, c0, h1, h2, h3, h4⟩ := mainConfig_ok hc
      refine ⟨files, ds, c0.level, c.level, h1, h2, h3.level, h4.level, ?_⟩
      have hcfg : h.config { confFile := (lastArg 99 (getopt argv).1).getD []
                             confDir := (lastArg 100 (getopt argv).1).getD []
                             syslog := (lastArg 121 (getopt argv).1).isSome } argv = .ok c := by
        unfold Host.config defaultConfFile defaultConfDir
        rw [confName_chosen, confName_chosen]
        exact hc
      unfold programDiag
      rw [preParse_eq, if_neg hv]
      simp only [Bool.false_or, hcfg]
      cases hs : lastArg 121 (getopt argv).1 with
      | none =>
        rw [hs] at ho
        subst ho
        exact C106_lines_partial .stderr tty c.level conf run (fun _ => (hp rfl).1) (fun _ => (hp rfl).2)
      | some a =>
        rw [hs] at ho
        subst ho
        exact C106_lines_partial .syslog tty c.level conf run (by simp) (by simp)

/-- A program whose file asks for level warning and whose command line asks for debug: the debug message of the running
router is seen, the one while reading is not. -/
def Sample.hostLevel : Host :=
  { file := fun _ => .content (ascii "[General]\nDebugLogLevel=warning\n") }

example : (∃ r, mainStart Sample.hostLevel [ascii "-v"] = .runs r ∧ r.eps = []) ∧
    (programDiag Sample.hostLevel [ascii "-v"] false [(.debug, [65])] [(.debug, [66]), (.trace, [67])]).map (arrives true) =
      [[66, 10]] ∧
    (programDiag Sample.hostLevel [ascii "-y"] false [(.info, [65])] [(.info, [66]), (.warning, [67])]).map (arrives false) =
      [[65, 10], [67, 10]] :=
  ⟨⟨{ eps := [], sniffer := 0, dedup := 0, server := some 5760, stats := false, log := {} }, by decide +kernel, rfl⟩,
   by decide +kernel, by decide +kernel⟩

end Verif
