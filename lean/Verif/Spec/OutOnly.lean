import Verif.Props.Complete

/- Specification vocabulary for changes of outgoing filters and of the sniffer. -/

namespace Verif.Spec

/-- The endpoint as it is without outgoing filters. -/
def noOut (e : Ep) : Ep :=
  { e with filters := { e.filters with allowOutMsg := [], blockOutMsg := [], allowOutComp := [], blockOutComp := [],
                                       allowOutSys := [], blockOutSys := [] } }

/-- Two configurations differ only in outgoing filters. -/
def OnlyOut (eps eps' : List Ep) : Prop := eps'.map noOut = eps.map noOut

/-- Two routers with the same message table and de-duplication and the same clock. Log endpoints, results of writes and the
sniffer may differ. -/
structure SameDoor {σ τ : Type} (env : Env σ) (env' : Env τ) : Prop where
  tbl : env'.tbl = env.tbl
  hashFn : env'.hashFn = env.hashFn
  clock : env'.clock = env.clock
  dedupPeriod : env'.dedupPeriod = env.dedupPeriod

/-- The outgoing filters configured for endpoint `j` let the message through. -/
def MayGoOut (eps : List Ep) (j : Nat) (m : Msg) : Prop := ∀ e, eps[j]? = some e → outOk e.filters m

open Classical in
/-- Those of the messages that the outgoing filters of endpoint `j` let through. -/
noncomputable def goingOut (eps : List Ep) (j : Nat) (as : List Arrival) : List Arrival :=
  as.filter fun a => decide (MayGoOut eps j a.msg)

/-- Nothing from a system with number `s` was let in on link `j` or another link of its group. -/
def NeverHeard (eps : List Ep) (as : List Arrival) (j s : Nat) : Prop :=
  ∀ a ∈ as, a.passed = true → Peer eps a.ep j → a.msg.srcSys.toNat ≠ s

end Verif.Spec
