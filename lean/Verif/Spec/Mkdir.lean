import Verif.Model.Mkdir

/-
What creating a directory with its parents means: which paths are concerned, and creating them one
after the other.
-/

namespace Verif.Spec

/-- `q` names `p` itself or a directory above it: `p` goes on with a slash behind the last character
of a component.  (The root directory is not among them.) -/
def OnTheWay (p q : List UInt8) : Prop :=
  q = p ∨ ∃ r b r', p = q ++ 47 :: r ∧ q = r' ++ [b] ∧ b ≠ 47

/-- All of them, from the outermost inward. -/
def WayTo (p : List UInt8) (qs : List (List UInt8)) : Prop :=
  qs.Pairwise (fun a b => a.length < b.length) ∧ ∀ q, q ∈ qs ↔ OnTheWay p q

/-- Create directories one after the other; an existing one is no failure. -/
def makeEach {σ : Type} (mkdir : σ → List UInt8 → σ × MkRes) (fs : σ) : List (List UInt8) → σ × MkdirRes
  | [] => (fs, .ok)
  | q :: qs =>
    match (mkdir fs q).2 with
    | .err x => ((mkdir fs q).1, .err x)
    | _ => makeEach mkdir (mkdir fs q).1 qs

end Verif.Spec
