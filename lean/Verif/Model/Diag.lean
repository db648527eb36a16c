import Verif.Model.Config

/-
Diagnostics: src/common/log.h, src/common/log.cpp and their use in `main` (src/main.cpp:602-645).
-/

namespace Verif

/-- The number of an enumerator (src/common/log.h:28-35). -/
def LogLevel.num : LogLevel → Nat
  | .error => 0 | .warning => 1 | .notice => 2 | .info => 3 | .debug => 4 | .trace => 5

/-- `Log::Backend` (src/common/log.h:37-40). -/
inductive LogBackend where
  | stderr | syslog
deriving DecidableEq, Repr

/-- The static members of `Log` with their initial values (src/common/log.cpp:36-39); `target`: `_target_fd`, `none` for
-1. -/
structure DiagSt where
  max : LogLevel := .info
  target : Option Nat := none
  colors : Bool := false
  backend : LogBackend := .stderr
deriving DecidableEq, Repr

/-- Escape sequences (src/common/log.cpp:28-34). -/
def escSeq (codes : List UInt8) : List UInt8 := [27, 91] ++ codes ++ [109]

/-- `Log::_get_color` (src/common/log.cpp:41-63): the bytes of `COLOR_RED`, `COLOR_ORANGE`,
`COLOR_YELLOW`, `COLOR_WHITE`, `COLOR_LIGHTBLUE`. -/
def DiagSt.color (s : DiagSt) (l : LogLevel) : Option (List UInt8) :=
  if s.colors then
    match l with
    | .error => some (escSeq [51, 49])
    | .warning => some (escSeq [48, 59, 51, 51])
    | .notice => some (escSeq [51, 51, 59, 49])
    | .info => some (escSeq [51, 55, 59, 49])
    | .debug => some (escSeq [51, 52, 59, 49])
    | .trace => none
  else none

/-- What leaves the program: one `writev` to a descriptor (-1: `none`), or one `vsyslog` with its priority. -/
inductive DiagOut where
  | write (fd : Option Nat) (bytes : List UInt8)
  | syslog (prio : Nat) (text : List UInt8)
deriving DecidableEq, Repr

/-- `Log::open` (src/common/log.cpp:65-87); `tty`: `isatty`. A second call changes nothing if the first one opened a
descriptor. -/
def DiagSt.open (s : DiagSt) (b : LogBackend) (tty : Bool) : DiagSt :=
  if s.target.isSome then s
  else match b with
    | .stderr => { s with backend := b, target := some 2, colors := s.colors || tty }
    | .syslog => { s with backend := b }

/-- `LINE_MAX` (limits.h: 2048). -/
def lineMax : Nat := 2048

/-- `Log::logv_to_fd` (src/common/log.cpp:109-139). `text`: the formatted message, without NUL; `vsnprintf` cuts it to
`LINE_MAX - 1` bytes. -/
def DiagSt.toFd (s : DiagSt) (l : LogLevel) (text : List UInt8) : DiagOut :=
  let buffer := text.take (lineMax - 1)
  .write s.target
    (match s.color l with
     | some c => c ++ buffer ++ escSeq [48] ++ [10]
     | none => buffer ++ [10])

/-- `Log::syslog_log_level` (src/common/log.cpp:169-186) with the values of syslog.h. -/
def LogLevel.prio : LogLevel → Nat
  | .error => 3 | .warning => 4 | .notice => 5 | .info => 6 | .debug => 7 | .trace => 7

/-- `Log::logv` (src/common/log.cpp:141-158). -/
def DiagSt.logv (s : DiagSt) (l : LogLevel) (text : List UInt8) : List DiagOut :=
  if s.max.num < l.num then []
  else match s.backend with
    | .stderr => [s.toFd l text]
    | .syslog => [.syslog l.prio text]

/-- A diagnostic of the program: level and formatted text. -/
abbrev Diag := LogLevel × List UInt8

/-- The diagnostics of a stretch of the program. -/
def DiagSt.logAll (s : DiagSt) (ds : List Diag) : List DiagOut := ds.flatMap fun d => s.logv d.1 d.2

/-- `main` (src/main.cpp:602-645) as far as diagnostics are concerned: those issued while the configuration is read, and
afterwards (`none`: the program ended before). `pre_parse_argv` (src/main.cpp:149-183) issues none. -/
def mainDiag (backend : LogBackend) (tty : Bool) (level : LogLevel) (conf : List Diag) (run : Option (List Diag)) :
    List DiagOut :=
  let s := ({} : DiagSt).open backend tty
  s.logAll conf ++
    match run with
    | some ds => { s with max := level }.logAll ds
    | none => []

end Verif
