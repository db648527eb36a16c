import Verif.Model.OpenV6

/- Specification vocabulary for links whose opening depends on their configuration only. -/

namespace Verif.Spec

/-- There is a result, whatever happens to be in memory that was never set. -/
def SetOnly {α : Type} (f : V6Junk → Option α) : Prop := ∃ r, ∀ junk, f junk = some r

/-- The IPv6 address that stands for any: sixteen bytes, all zero (RFC 4291, 2.5.2). -/
def IsAny (a : List UInt8) : Prop := a.length = 16 ∧ ∀ b ∈ a, b = 0

/-- The interfaces of the host can be listed, and all addresses have a text. -/
def Listed (lib : V6Lib) : Prop := ∃ as, lib.ifs = some as ∧ ∀ a ∈ as, a.1.isSome = true

/-- The same interfaces for `Verif.Model.Open`. -/
def listed (lib : V6Lib) : List IfAddr := (lib.ifs.getD []).filterMap (fun a => a.1.map fun t => ⟨t, a.2⟩)

end Verif.Spec
