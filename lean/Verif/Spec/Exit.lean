import Verif.Model.Exit

/-
Ending the program.
-/

namespace Verif.Spec

/-- Some critical descriptor had an error: it was reported and is handled later in the history. -/
def CriticalIn (es : List ExitEv) : Prop := ∃ evs, .wake evs ∈ es ∧ true ∈ evs

/-- A log endpoint has no unfinished file. -/
def LogFinished (l : Logger) : Prop :=
  match l with
  | .ulog u => u.base.file = none
  | .bin b => b.base.file = none
  | .tlog b => b.file = none
  | .auto a =>
    match a.logger with
    | none => True
    | some (.ulog u) => u.base.file = none
    | some (.bin b) => b.base.file = none

end Verif.Spec
