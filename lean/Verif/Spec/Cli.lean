import Verif.Spec.Config
import Verif.Model.Cli

/-
What the command line asks for.
-/

namespace Verif.Spec.Conf

/-- The argument of an option, if it is the given one. -/
def argOf (c : UInt8) : OptEvent → Option (List UInt8)
  | .opt c' a => if c' = c then some a else none
  | .bad => none

/-- The argument of the last occurrence of an option. -/
def lastArg (c : UInt8) : List OptEvent → Option (List UInt8)
  | [] => none
  | e :: es => (lastArg c es).or (argOf c e)

/-- The levels that can be named (`-g`). -/
def levelNames : List (String × LogLevel) :=
  [("error", .error), ("warning", .warning), ("info", .info), ("debug", .debug), ("trace", .trace)]

/-- An option about the level: `-g` with the name, or `-v`. -/
def levelOf : OptEvent → Option (Option (List UInt8))
  | .opt c a => if c = 103 then some (some a) else if c = 118 then some none else none
  | .bad => none

/-- The last option about the level. -/
def lastLevel : List OptEvent → Option (Option (List UInt8))
  | [] => none
  | e :: es => (lastLevel es).or (levelOf e)

/-- The level asked for. -/
def LevelIs (m : Option (Option (List UInt8))) (dflt x : LogLevel) : Prop :=
  match m with
  | none => x = dflt
  | some none => x = .debug
  | some (some t) => ∃ w ∈ levelNames, Same t (ascii w.1) ∧ x = w.2

/-- What options (letters as in the help text) make of a configuration: settings that are not
mentioned stay as they are, the last mention of a setting counts. -/
structure CliSays (es : List OptEvent) (c c' : Config) : Prop where
  /-- `-t` -/
  tcpPort : NumberIs (lastArg 116 es) c.tcpPort c'.tcpPort
  /-- `-r` -/
  stats : c'.stats = (c.stats || (lastArg 114 es).isSome)
  /-- `-l` -/
  logDir : c'.log.dir = (lastArg 108 es).getD c.log.dir
  /-- `-T` -/
  telemetry : c'.log.telemetry = (c.log.telemetry || (lastArg 84 es).isSome)
  /-- `-g`, `-v`: the later one counts -/
  level : LevelIs (lastLevel es) c.level c'.level
  /-- `-s` -/
  sniffer : (lastArg 115 es = none → c'.sniffer = c.sniffer) ∧
    ∀ t n, lastArg 115 es = some t → Decimal t n → n ≤ 255 → c'.sniffer = n
  /-- no option -/
  others : c'.dedupMs = c.dedupMs ∧ { c'.log with dir := c.log.dir, telemetry := c.log.telemetry } = c.log

end Verif.Spec.Conf
