import Verif.Props.Complete

/- Specification vocabulary for messages that arrive on another link. -/

namespace Verif.Spec

/-- The same messages arrive in the same order. Where one arrives on another link, the incoming filters of both links say the same of
it, and both links or none of them are in the group of link `j` or link `j` itself. -/
inductive Roams (eps : List Ep) (j : Nat) : List Arrival → List Arrival → Prop
  | nil : Roams eps j [] []
  | cons {a a' : Arrival} {as as' : List Arrival} : a'.msg = a.msg →
      (inOk (((eps[a'.ep]?).map Ep.filters).getD {}) a.msg ↔ inOk (((eps[a.ep]?).map Ep.filters).getD {}) a.msg) →
      (Peer eps a'.ep j ↔ Peer eps a.ep j) → Roams eps j as as' → Roams eps j (a :: as) (a' :: as')

end Verif.Spec
