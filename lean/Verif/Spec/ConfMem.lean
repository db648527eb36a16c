import Verif.Model.ConfMem

/-
What "only memory of the program's own data is used" means for the configuration reader.
-/

namespace Verif.Spec

open Verif.ConfMem

/-- The text lies inside an object. -/
def InsideTxt (mem : Mem) (t : Txt) : Prop := ∃ f, mem[t.p.blk]? = some f ∧ t.p.off + t.len ≤ f.length

/-- The bytes of a text. -/
def textOf (mem : Mem) (t : Txt) : List UInt8 := ((mem.getD t.p.blk []).drop t.p.off).take t.len

/-- Everything a table of sections points to lies inside an object; keys and values are not empty. -/
def Safe (mem : Mem) (ss : List Sec) : Prop :=
  ∀ s ∈ ss, InsideTxt mem s.name ∧
    ∀ c ∈ s.configs, InsideTxt mem c.key ∧ InsideTxt mem c.value ∧ 0 < c.key.len ∧ 0 < c.value.len

/-- The table with the texts in place of the pointers. -/
def plainOpt (mem : Mem) (c : Opt) : CfgOpt := { key := textOf mem c.key, value := textOf mem c.value }

/-- See `plainOpt`. -/
def plainSec (mem : Mem) (s : Sec) : CfgSection :=
  { name := textOf mem s.name, configs := s.configs.map (plainOpt mem) }

end Verif.Spec
