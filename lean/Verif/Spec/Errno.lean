import Verif.Model.Errno
import Verif.Model.Routing

/- Specification vocabulary for diagnostics that cannot be written. -/

namespace Verif.Spec

/-- Two states of the router that differ at most in whom it wants to write to later and whether it looks for
broken connections. -/
structure SameTraffic {σ : Type} (w w' : World σ) : Prop where
  eps : w'.eps = w.eps
  active : w'.active = w.active
  logs : w'.logs = w.logs
  unknown : w'.unknown = w.unknown
  dedup : w'.dedup = w.dedup
  checks : w'.checks = w.checks
  out : w'.out = w.out
  reported : w'.reported = w.reported

/-- A write answered by the kernel with `r`, and the diagnostic about it if there is one, which fails with error `res` or is written:
neither the write nor the diagnostic found a broken pipe (32), or the diagnostic was written. -/
def NoBrokenPipe (r : SysRes) (res : Option Nat) : Prop := res = none ∨ (r ≠ .epipe ∧ r ≠ .other 32 ∧ res ≠ some 32)

/-- What handlers do if all diagnostics are written, and what they do otherwise. -/
inductive SeenActs (max : LogLevel) : List Act → List Act → Prop
  | nil : SeenActs max [] []
  | same (a : Act) {as as' : List Act} : SeenActs max as as' → SeenActs max (a :: as) (a :: as')
  | write (q : Nat) (r : SysRes) (res : Option Nat) (ok : Bool) {as as' : List Act} : NoBrokenPipe r res → SeenActs max as as' →
    SeenActs max (.write q (r.seen .tcp max none).kind ok :: as) (.write q (r.seen .tcp max res).kind ok :: as')

/-- The same for the events of a batch. -/
inductive SeenEvs (max : LogLevel) : List PollEv → List PollEv → Prop
  | nil : SeenEvs max [] []
  | listener (ok : Bool) {es es' : List PollEv} : SeenEvs max es es' → SeenEvs max (.listener ok :: es) (.listener ok :: es')
  | obj (p : Nat) (i : Bool) {as as' : List Act} (stop : RStop) (x c t o r : Bool) {es es' : List PollEv} :
    SeenActs max as as' → SeenEvs max es es' →
    SeenEvs max (.obj p i as stop x c t o r :: es) (.obj p i as' stop x c t o r :: es')

end Verif.Spec
