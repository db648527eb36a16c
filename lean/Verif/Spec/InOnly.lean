import Verif.Spec.Serve

/- Specification vocabulary for incoming filters and messages that are never sent. -/

namespace Verif.Spec

/-- The endpoint as it is without incoming filters. -/
def noIn (e : Ep) : Ep :=
  { e with filters := { e.filters with allowInMsg := [], blockInMsg := [], allowInComp := [], blockInComp := [],
                                       allowInSys := [], blockInSys := [] } }

/-- The incoming filters configured for the endpoint it arrived on admit the message. -/
def Admitted (eps : List Ep) (a : Arrival) : Prop := ∀ e, eps[a.ep]? = some e → inOk e.filters a.msg

open Classical in
/-- Those of the messages that the incoming filters admit. -/
noncomputable def comingIn (eps : List Ep) (as : List Arrival) : List Arrival := as.filter fun a => decide (Admitted eps a)

end Verif.Spec
