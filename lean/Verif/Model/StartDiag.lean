import Verif.Model.Start
import Verif.Model.Diag

/-
The diagnostics of the program as started: which output and which level (src/main.cpp:602-645).
-/

namespace Verif

/-- `main` (src/main.cpp:602-645): `conf` are the diagnostics issued while the configuration is read, `run` those issued after
`Log::set_max_level` (625), if the program gets there.  `-y` selects the system log (168-171, 612); the level is
`debug_log_level` of the files and the command line. -/
def programDiag (h : Host) (argv : List (List UInt8)) (tty : Bool) (conf run : List Diag) : List DiagOut :=
  match preParse {} (getopt argv).1 with
  | none => []
  | some p =>
    let backend := if p.syslog then LogBackend.syslog else .stderr
    match h.config p argv with
    | .ok c => mainDiag backend tty c.level conf (some run)
    | _ => mainDiag backend tty .info conf none

end Verif
