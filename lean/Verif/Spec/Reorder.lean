import Verif.Spec.NoLog

/- Specification for C117: the same router with its endpoints configured in another order. -/

namespace Verif.Spec

/-- Everything endpoint `j` was given, in order: the bytes, and whether a log endpoint made the message. -/
def givenTo {σ : Type} (w : World σ) (j : Nat) : List (List UInt8 × Bool) :=
  (w.out.filter (fun s => s.ep == j)).map (fun s => (s.bytes, s.gen))

/-- The same event under other endpoint numbers. -/
def renameEv (ρ : Nat → Nat) : RouterEv → RouterEv
  | .read i io => .read (ρ i) io
  | .accept => .accept
  | .hangups gone => .hangups (gone.map ρ)
  | .fd i o => .fd (ρ i) o
  | .logCall i c => .logCall (ρ i) c
  | .aggregate => .aggregate

/-- Likewise for an arrival. -/
def renameArrival (ρ : Nat → Nat) (a : Arrival) : Arrival := { a with ep := ρ a.ep }

/-- `ρ` permutes the first `n` numbers and nothing else. -/
structure Renumbers (n : Nat) (ρ : Nat → Nat) : Prop where
  perm : ((List.range n).map ρ).Perm (List.range n)
  rest : ∀ i, n ≤ i → ρ i = i

/-- Same kernel, clock, table, settings and behaviour of the log endpoints; results of writes may differ. -/
structure SameAll {σ : Type} (env env' : Env σ) : Prop where
  net : SameNet env env'
  log : env'.log = env.log
  call : env'.logCall = env.logCall

end Verif.Spec
