import Verif.Model.LogCore

/-
Where the payload of a message is, as MAVLink has it: a header of six bytes, or of ten bytes if the first byte is 0xFD.
-/

namespace Verif.Spec

/-- Length of the header of a message: ten bytes in MAVLink 2, six in MAVLink 1. -/
def headerLen (m : Msg) : Nat := if m.data.head? = some 0xFD then 10 else 6

/-- The model's header length is that of MAVLink. -/
theorem hdrLen_eq (m : Msg) : m.hdrLen = headerLen m := rfl

end Verif.Spec
