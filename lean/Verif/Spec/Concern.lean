import Verif.Props.Complete

/- Specification vocabulary for what of a configuration concerns a link. -/

namespace Verif.Spec

/-- What arrives at two routers is the same as far as link `j` of the first and link `j'` of the second are concerned: the same messages in the
same order; where they arrive, the incoming filters say the same of them; and they arrive on the link or its group in both or in none. -/
inductive SameFor (eps eps' : List Ep) (j j' : Nat) : List Arrival → List Arrival → Prop
  | nil : SameFor eps eps' j j' [] []
  | cons {a a' : Arrival} {as as' : List Arrival} : a'.msg = a.msg →
      (inOk (((eps'[a'.ep]?).map Ep.filters).getD {}) a.msg ↔ inOk (((eps[a.ep]?).map Ep.filters).getD {}) a.msg) →
      (Peer eps' a'.ep j' ↔ Peer eps a.ep j) → SameFor eps eps' j j' as as' → SameFor eps eps' j j' (a :: as) (a' :: as')

end Verif.Spec
