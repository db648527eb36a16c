import Verif.Model.Broken

/- Specification vocabulary for links that are lost while others carry on. -/

namespace Verif.Spec

/-- An endpoint up to whether its descriptor is open, for a link that may be lost. -/
def upToOpen (lossy : Bool) (e : Ep) : Ep := { e with fdOpen := lossy || e.fdOpen }

/-- Two states of a router that differ only in which of the links in `U` are connected, which of the clients in `V` are still there and
what was handed to them, whom the router wants to write to later, and whether it looks for broken connections. If nobody is in `V`, the
messages without a destination are counted and reported alike. -/
structure Undisturbed {σ : Type} (U V : Nat → Bool) (w w' : World σ) : Prop where
  len : w'.eps.length = w.eps.length
  eps : ∀ i, (w'.eps[i]?).map (upToOpen (U i)) = (w.eps[i]?).map (upToOpen (U i))
  active : w'.active.filter (fun i => !V i) = w.active.filter (fun i => !V i)
  logs : w'.logs = w.logs
  dedup : w'.dedup = w.dedup
  checks : w'.checks = w.checks
  out : w'.out.filter (fun s => !V s.ep) = w.out.filter (fun s => !V s.ep)
  counts : (∀ i, V i = false) → w'.unknown = w.unknown ∧ w'.reported = w.reported

/-- Two histories in which the same happens, except that links in `U` are lost and come back, and clients in `V` are removed, at
different moments or not at all. What is read comes from links not in `U`. -/
inductive LossAlike (U V : Nat → Bool) : List RouterEv → List RouterEv → Prop
  | nil : LossAlike U V [] []
  | read (i : Nat) (io : SysRead) {as bs : List RouterEv} : U i = false → LossAlike U V as bs →
    LossAlike U V (.read i io :: as) (.read i io :: bs)
  | accept {as bs : List RouterEv} : LossAlike U V as bs → LossAlike U V (.accept :: as) (.accept :: bs)
  | logCall (i : Nat) (c : LogCall) {as bs : List RouterEv} : LossAlike U V as bs →
    LossAlike U V (.logCall i c :: as) (.logCall i c :: bs)
  | aggregate {as bs : List RouterEv} : LossAlike U V as bs → LossAlike U V (.aggregate :: as) (.aggregate :: bs)
  | fd (i : Nat) (o : Bool) {as bs : List RouterEv} : LossAlike U V as bs → LossAlike U V (.fd i o :: as) (.fd i o :: bs)
  | fdLeft (i : Nat) (o : Bool) {as bs : List RouterEv} : U i = true → LossAlike U V as bs → LossAlike U V (.fd i o :: as) bs
  | fdRight (i : Nat) (o : Bool) {as bs : List RouterEv} : U i = true → LossAlike U V as bs → LossAlike U V as (.fd i o :: bs)
  | hangups (gone gone' : List Nat) {as bs : List RouterEv} : (∀ i, V i = false → (i ∈ gone ↔ i ∈ gone')) → LossAlike U V as bs →
    LossAlike U V (.hangups gone :: as) (.hangups gone' :: bs)
  | hangLeft (gone : List Nat) {as bs : List RouterEv} : (∀ i ∈ gone, V i = true) → LossAlike U V as bs →
    LossAlike U V (.hangups gone :: as) bs
  | hangRight (gone : List Nat) {as bs : List RouterEv} : (∀ i ∈ gone, V i = true) → LossAlike U V as bs →
    LossAlike U V as (.hangups gone :: bs)

/-- No log endpoint is in `V`. -/
def NoLogIn {σ : Type} (V : Nat → Bool) (w : World σ) : Prop :=
  ∀ i e, w.eps[i]? = some e → V i = true → e.kind ≠ .log

end Verif.Spec
