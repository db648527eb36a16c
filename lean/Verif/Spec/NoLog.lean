import Verif.Spec.Routing

/- Specification for C116: a router with its log endpoints next to the same router without them. -/

namespace Verif.Spec

/-- Object `i` is a log endpoint. -/
def isLogEp (eps : List Ep) (i : Nat) : Bool := (eps[i]?).map Ep.kind == some .log

/-- What the other endpoints were given of the messages that arrived: no writes to log endpoints, no messages log endpoints made. -/
def delivered {σ : Type} (w : World σ) : List Sent := w.out.filter (fun s => !s.gen && !isLogEp w.eps s.ep)

/-- The router without log endpoints in its list. (The objects stay, so that the others keep their numbers; nothing refers to them.) -/
def withoutLogs {σ : Type} (w : World σ) : World σ := { w with active := w.active.filter (fun i => !isLogEp w.eps i) }

/-- The events that concern the router without log endpoints. -/
def notLogCall : RouterEv → Bool
  | .logCall _ _ => false
  | _ => true

/-- Same kernel, clock, message table and settings; anything about the log endpoints and the results of writes may differ. -/
structure SameNet {σ τ : Type} (env : Env σ) (env' : Env τ) : Prop where
  tbl : env'.tbl = env.tbl
  hashFn : env'.hashFn = env.hashFn
  clock : env'.clock = env.clock
  sniffer : env'.sniffer = env.sniffer
  dedupPeriod : env'.dedupPeriod = env.dedupPeriod

/-- No log endpoint edits the buffer with message `m`. -/
def Unedited {σ : Type} (env : Env σ) (m : Msg) : Prop := ∀ i s, (env.log i s m).2.2 = m.data

end Verif.Spec
