import Verif.Model.Diag

/-
What a user sees of diagnostics.
-/

namespace Verif.Spec

/-- What a terminal shows: everything but control sequences `ESC [ … letter` (ECMA-48). `pos` says where in such a sequence the
text begins: 0 outside, 1 behind ESC, 2 behind `[`. -/
def visible (pos : Nat) : List UInt8 → List UInt8
  | [] => []
  | b :: bs =>
    match pos with
    | 0 => if b = 27 then visible 1 bs else b :: visible 0 bs
    | 1 => if b = 91 then visible 2 bs else b :: visible 0 bs
    | _ => if 64 ≤ b.toNat ∧ b.toNat ≤ 126 then visible 0 bs else visible 2 bs

/-- What arrives on the standard error output (`true`) or in the system log. -/
def arrives (onStderr : Bool) : DiagOut → List UInt8
  | .write fd bytes => if onStderr ∧ fd = some 2 then visible 0 bytes else []
  | .syslog _ text => if onStderr then [] else text ++ [10]

/-- The levels from most to least important. -/
def importance : List LogLevel := [.error, .warning, .notice, .info, .debug, .trace]

/-- The diagnostics up to a level. -/
def upTo (max : LogLevel) (ds : List Diag) : List Diag :=
  ds.filter fun d => importance.idxOf d.1 ≤ importance.idxOf max

/-- Each as one line. -/
def linesOf (ds : List Diag) : List (List UInt8) := ds.map fun d => d.2 ++ [10]

end Verif.Spec
