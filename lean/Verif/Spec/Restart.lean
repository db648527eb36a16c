import Verif.Model.Routing

/- Specification vocabulary for routers with different pasts. -/

namespace Verif.Spec

/-- What an endpoint has of its own input: whether its descriptor is open and the bytes received but not handled. -/
def door (e : Ep) : Bool × List UInt8 × Nat := (e.fdOpen, e.rx.buf, e.rx.lastLen)

/-- The same links, open or not alike, with the same half received messages. -/
def DoorsAlike {σ : Type} (w w' : World σ) : Prop := w'.eps.map door = w.eps.map door

/-- Whoever was heard in one history (and let in) was heard on the same link in the other. -/
def HeardToo (as bs : List Arrival) : Prop :=
  ∀ a ∈ as, a.passed = true → ∃ b ∈ bs, b.passed = true ∧ b.ep = a.ep ∧ b.msg.srcSys = a.msg.srcSys ∧ b.msg.srcComp = a.msg.srcComp

end Verif.Spec
