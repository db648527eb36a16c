import Verif.Model.Sync

/-
What periodic jobs should achieve.
-/

namespace Verif.Spec

/-- The number of messages of which the kernel took only a part, in a history of a link that is open or not and has a peer port
or not. -/
def cuts (k : LinkKind) (isOpen : Bool) (port : UInt16) : List AggEv → Nat
  | [] => 0
  | .tx (.offer m (.took n)) :: es =>
    (if isOpen ∧ (k = .udp → port ≠ 0) ∧ n ≠ m.length then 1 else 0) + cuts k isOpen port es
  | .tx (.conn o) :: es => cuts k o port es
  | .tx (.peer p) :: es => cuts k isOpen p es
  | .destroy :: _ => 0
  | _ :: es => cuts k isOpen port es

/-- The sum of the counts reported. -/
def reportSum (rs : List UInt32) : Nat := (rs.map UInt32.toNat).sum

/-- A log is stopped, or its endpoint destroyed, only while the system is not using the control block. -/
def QuietStops : SyncSt → List SyncEv → Prop
  | _, [] => True
  | s, e :: es => (e = .stop ∨ e = .destroy → s.busy = none) ∧ QuietStops (syncStep s e) es

end Verif.Spec
