import Verif.Spec.NoCopies

/- Specification vocabulary for the order in which the links are served. -/

namespace Verif.Spec

/-- What happens at link `i`, in order: reads, and the descriptor being closed or opened. -/
def atLink (i : Nat) (evs : List RouterEv) : List RouterEv :=
  evs.filter fun ev => match ev with
    | .read j _ => j == i
    | .fd j _ => j == i
    | _ => false

/-- At every single link the same happens in the same order; only how the links follow each other differs. No client connects.
(Timers and calls into log endpoints may differ altogether.) -/
structure SameAtLinks (evs evs' : List RouterEv) : Prop where
  same : ∀ i, atLink i evs' = atLink i evs
  steady : RouterEv.accept ∉ evs
  steady' : RouterEv.accept ∉ evs'

/-- All who are let in in `as` had been let in before, in `past`, on the same link or another link of its group. -/
def AllKnown (eps : List Ep) (past as : List Arrival) : Prop :=
  ∀ a ∈ as, a.passed = true → ∃ b ∈ past, b.passed = true ∧ b.msg.srcSys = a.msg.srcSys ∧ b.msg.srcComp = a.msg.srcComp ∧ Peer eps b.ep a.ep

/-- Those that came from link `i`. -/
def from_ (i : Nat) (as : List Arrival) : List Arrival := as.filter fun a => a.ep == i

end Verif.Spec
