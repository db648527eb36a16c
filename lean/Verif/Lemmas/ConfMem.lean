import Verif.Spec.ConfMem

/-
The configuration reader on pointers computes what the reader on byte lists computes.
-/

namespace Verif.ConfMem

open Verif.Spec

@[simp] theorem bind_ok {α β : Type} (a : α) (f : α → Res β) : (Res.ok a >>= f) = f a := rfl
@[simp] theorem bind_err {α β : Type} (f : α → Res β) : ((Res.err : Res α) >>= f) = .err := rfl
@[simp] theorem bind_ub {α β : Type} (f : α → Res β) : ((Res.ub : Res α) >>= f) = .ub := rfl
@[simp] theorem pure_ok {α : Type} (a : α) : (pure a : Res α) = .ok a := rfl

/-- The bytes from the pointer to the end of its object are `l`. -/
def At (mem : Mem) (p : Ptr) (l : List UInt8) : Prop :=
  ∃ f, mem[p.blk]? = some f ∧ p.off ≤ f.length ∧ f.drop p.off = l

theorem At.rd {mem : Mem} {p : Ptr} {b : UInt8} {l : List UInt8} (h : At mem p (b :: l)) : rd mem p = .ok b := by
  obtain ⟨f, hf, ho, hd⟩ := h
  have : f[p.off]? = some b := by
    have := congrArg (fun x => x[0]?) hd
    simpa using this
  simp [ConfMem.rd, hf, this]

theorem At.add {mem : Mem} {p : Ptr} {l r : List UInt8} (h : At mem p (l ++ r)) : At mem (p.add l.length) r := by
  obtain ⟨f, hf, ho, hd⟩ := h
  have hl : l.length + r.length = f.length - p.off := by
    have := congrArg List.length hd; simpa using this.symm
  refine ⟨f, hf, by simp only [Ptr.add]; omega, ?_⟩
  simp only [Ptr.add]
  rw [← List.drop_drop, hd]; simp

theorem At.next {mem : Mem} {p : Ptr} {b : UInt8} {l : List UInt8} (h : At mem p (b :: l)) : At mem (p.add 1) l :=
  At.add (l := [b]) h

theorem add_add (p : Ptr) (a b : Nat) : (p.add a).add b = p.add (a + b) := by simp [Ptr.add, Nat.add_assoc]

theorem add_zero (p : Ptr) : p.add 0 = p := by simp [Ptr.add]

theorem At.inside {mem : Mem} {p : Ptr} {l r : List UInt8} (h : At mem p (l ++ r)) :
    InsideTxt mem ⟨p, l.length⟩ ∧ textOf mem ⟨p, l.length⟩ = l := by
  obtain ⟨f, hf, ho, hd⟩ := h
  have hl : l.length + r.length = f.length - p.off := by
    have := congrArg List.length hd; simpa using this.symm
  refine ⟨⟨f, hf, by simp only; omega⟩, ?_⟩
  simp [textOf, List.getD, hf, hd]

theorem inside_at {mem : Mem} {t : Txt} (h : InsideTxt mem t) :
    (textOf mem t).length = t.len ∧ ∃ r, At mem t.p (textOf mem t ++ r) := by
  obtain ⟨f, hf, hl⟩ := h
  refine ⟨by simp [textOf, List.getD, hf]; omega, f.drop (t.p.off + t.len), f, hf, by omega, ?_⟩
  simp only [textOf, List.getD, hf, Option.getD_some]
  rw [← List.drop_drop, List.take_append_drop]

theorem memchrM_at {mem : Mem} (c : UInt8) (l r : List UInt8) : ∀ (p : Ptr), At mem p (l ++ r) →
    memchrM mem c p l.length = .ok (l.findIdx? (· == c)) := by
  induction l with
  | nil => intro p _; rfl
  | cons b l ih =>
    intro p h
    simp only [List.length_cons, memchrM, At.rd h, bind_ok, List.findIdx?_cons]
    by_cases hb : b = c
    · simp [hb]
    · simp only [hb, if_false]
      rw [ih _ (At.next h)]
      simp [hb]

theorem trimStart_at {mem : Mem} (l : List UInt8) (x : UInt8) (r : List UInt8) : ∀ (p : Ptr), At mem p (l ++ x :: r) →
    ∃ p', trimStart mem p l.length = .ok ⟨p', (l.dropWhile isSpaceB).length⟩ ∧
      At mem p' (l.dropWhile isSpaceB ++ x :: r) := by
  induction l with
  | nil => intro p h; exact ⟨p, by simp [trimStart, At.rd h], h⟩
  | cons b l ih =>
    intro p h
    simp only [List.length_cons, trimStart, At.rd h, bind_ok, List.dropWhile_cons]
    by_cases hb : isSpaceB b
    · simp only [hb, if_true]
      exact ih _ (At.next h)
    · simp only [hb]
      exact ⟨p, by simp, by simpa using h⟩

theorem trimEnd_at {mem : Mem} (p : Ptr) (n : Nat) : ∀ (l r : List UInt8), l.length = n → At mem p (l ++ r) →
    ∃ l' r', trimEnd mem p n = .ok ⟨p, l'.length⟩ ∧ l' = (l.reverse.dropWhile isSpaceB).reverse ∧
      At mem p (l' ++ r') ∧ l' ++ r' = l ++ r := by
  induction n with
  | zero =>
    intro l r hl h
    obtain rfl : l = [] := List.length_eq_zero_iff.1 hl
    exact ⟨[], r, by simp [trimEnd], rfl, h, rfl⟩
  | succ n ih =>
    intro l r hl h
    have hne : l ≠ [] := by intro h0; simp [h0] at hl
    have hs := List.dropLast_concat_getLast hne
    generalize l.dropLast = m at hs
    generalize l.getLast hne = b at hs
    subst hs
    have hm : m.length = n := by simpa using hl
    have h1 : At mem p (m ++ ([b] ++ r)) := by simpa using h
    have h2 := At.add h1
    rw [hm] at h2
    simp only [trimEnd, At.rd (l := r) h2, bind_ok, List.reverse_append, List.reverse_cons, List.reverse_nil,
      List.nil_append, List.singleton_append, List.dropWhile_cons]
    by_cases hb : isSpaceB b
    · simp only [hb, if_true]
      obtain ⟨l', r', e1, e2, e3, e4⟩ := ih m ([b] ++ r) hm h1
      exact ⟨l', r', e1, e2, e3, by simpa using e4⟩
    · simp only [hb]
      exact ⟨m ++ [b], r, by simp [hm], by simp, h, rfl⟩

/-- `_trim` needs a byte behind the text that can be read. -/
theorem trimM_at {mem : Mem} (l : List UInt8) (x : UInt8) (r : List UInt8) (p : Ptr) (h : At mem p (l ++ x :: r)) :
    ∃ t r', trimM mem ⟨p, l.length⟩ = .ok t ∧ t.len = (trimB l).length ∧ At mem t.p (trimB l ++ r') ∧ r' ≠ [] := by
  obtain ⟨p', e1, h1⟩ := trimStart_at l x r p h
  obtain ⟨l', r', e2, e3, h2, e4⟩ := trimEnd_at p' _ _ _ rfl h1
  refine ⟨⟨p', l'.length⟩, r', by simp [trimM, e1, e2], by rw [e3]; rfl, by rw [e3] at h2; exact h2, ?_⟩
  intro h0
  subst h0
  have h4 := congrArg List.length e4
  have h5 : l'.length ≤ (l.dropWhile isSpaceB).length := by
    rw [e3]; simp only [List.length_reverse]
    have := (List.dropWhile_sublist isSpaceB (l := (l.dropWhile isSpaceB).reverse)).length_le
    simpa using this
  simp at h4
  omega

theorem ncaseM_at {mem : Mem} : ∀ (n : Nat) (a b r s : List UInt8) (p q : Ptr), a.length = n → b.length = n →
    At mem p (a ++ r) → At mem q (b ++ s) → ncaseM mem p q n = .ok (ncaseEq a b) := by
  intro n
  induction n with
  | zero =>
    intro a b r s p q ha hb _ _
    obtain rfl : a = [] := List.length_eq_zero_iff.1 ha
    obtain rfl : b = [] := List.length_eq_zero_iff.1 hb
    rfl
  | succ n ih =>
    intro a b r s p q ha hb h1 h2
    match a, b with
    | x :: a, y :: b =>
      simp only [ncaseM, At.rd h1, At.rd h2, bind_ok, ncaseEq]
      by_cases hl : lowerB x = lowerB y
      · simp only [hl, ne_eq, not_true_eq_false, if_false, beq_self_eq_true, Bool.true_and]
        by_cases hx : x = 0
        · simp [hx]
        · simp only [hx, if_false]
          rw [ih a b r s _ _ (by simpa using ha) (by simpa using hb) (At.next h1) (At.next h2)]
          simp [hx]
      · simp [hl]
    | [], _ => simp at ha
    | _ :: _, [] => simp at hb

theorem caseEqM_inside {mem : Mem} {a b : Txt} (ha : InsideTxt mem a) (hb : InsideTxt mem b) :
    caseEqM mem a b = .ok (memCaseEq (textOf mem a) (textOf mem b)) := by
  obtain ⟨la, ra, h1⟩ := inside_at ha
  obtain ⟨lb, rb, h2⟩ := inside_at hb
  simp only [caseEqM, memCaseEq, la, lb]
  by_cases h : a.len = b.len
  · rw [if_pos h, ncaseM_at a.len _ _ ra rb _ _ la (by omega) h1 h2]; simp [h]
  · simp [h]

theorem findSectionM_inside {mem : Mem} {name : Txt} (hn : InsideTxt mem name) (ss : List Sec) (hs : Safe mem ss) :
    findSectionM mem name ss = .ok (findSection (textOf mem name) (ss.map (plainSec mem))) := by
  induction ss with
  | nil => rfl
  | cons s ss ih =>
    simp only [findSectionM, caseEqM_inside hn (hs s (by simp)).1, bind_ok, List.map_cons, findSection]
    rw [ih (fun x hx => hs x (by simp [hx]))]
    simp only [plainSec, List.length_map]
    by_cases h : memCaseEq (textOf mem name) (textOf mem s.name) <;> simp [h]

theorem findConfigM_inside {mem : Mem} {key : Txt} (hk : InsideTxt mem key) (cs : List Opt)
    (hs : ∀ c ∈ cs, InsideTxt mem c.key) :
    findConfigM mem key cs = .ok ((cs.map (plainOpt mem)).findIdx? fun c => memCaseEq (textOf mem key) c.key) := by
  induction cs with
  | nil => rfl
  | cons c cs ih =>
    simp only [findConfigM, caseEqM_inside hk (hs c (by simp)), bind_ok, List.map_cons, List.findIdx?_cons]
    rw [ih (fun x hx => hs x (by simp [hx]))]
    simp only [plainOpt]
    by_cases h : memCaseEq (textOf mem key) (textOf mem c.key) <;> simp [h]

theorem find?_findIdx? {α : Type} (p : α → Bool) (l : List α) :
    l.find? p = (l.findIdx? p).bind fun i => l[i]? := by
  induction l with
  | nil => rfl
  | cons a l ih =>
    simp only [List.find?_cons, List.findIdx?_cons]
    by_cases h : p a
    · simp [h]
    · simp only [h, ih]
      cases List.findIdx? p l <;> simp

theorem setConfig_modify (key value : List UInt8) (cs : List CfgOpt) (i : Nat)
    (h : cs.findIdx? (fun c => memCaseEq key c.key) = some i) :
    setConfig key value cs = cs.modify i fun c => { c with value } := by
  induction cs generalizing i with
  | nil => simp at h
  | cons c cs ih =>
    simp only [List.findIdx?_cons] at h
    by_cases hc : memCaseEq key c.key
    · simp only [hc, if_true, Option.some.injEq] at h
      subst h; simp [setConfig, hc]
    · simp only [hc] at h
      cases hr : cs.findIdx? (fun c => memCaseEq key c.key) with
      | none => simp [hr] at h
      | some j =>
        simp [hr] at h
        subst h
        simp [setConfig, hc, ih j hr]

theorem spacesM_at {mem : Mem} (l r : List UInt8) : ∀ (seen : Bool) (p : Ptr), At mem p (l ++ r) →
    spacesM mem seen p l.length = .ok (spacesOk seen l) := by
  induction l with
  | nil => intro _ p _; rfl
  | cons b l ih =>
    intro seen p h
    simp only [List.length_cons, spacesM, At.rd h, bind_ok, spacesOk]
    have hi := fun s => ih s _ (At.next h)
    by_cases hb : isSpaceB b
    · by_cases h32 : b = 32
      · have hs : isSpaceB 32 = true := by decide
        cases seen <;> simp [h32, hi, hs]
      · simp [hb, h32]
    · simp [hb, hi]

theorem At.get {mem : Mem} {p : Ptr} {l r : List UInt8} (h : At mem p (l ++ r)) (i : Nat) (hi : i < l.length) :
    ConfMem.rd mem (p.add i) = .ok (l.getD i 0) := by
  have h1 : l ++ r = l.take i ++ (l[i] :: (l.drop (i + 1) ++ r)) := by
    rw [← List.cons_append, ← List.append_assoc, List.getElem_cons_drop, List.take_append_drop]
  rw [h1] at h
  have h2 := At.add h
  rw [List.length_take, Nat.min_eq_left (by omega)] at h2
  rw [At.rd h2]
  simp [List.getD, hi]

theorem At.sub {mem : Mem} {p : Ptr} {l r : List UInt8} (h : At mem p (l ++ r)) (i n : Nat) (hi : i + n ≤ l.length) :
    At mem (p.add i) ((l.drop i).take n ++ ((l.drop i).drop n ++ r)) := by
  have h1 : l ++ r = l.take i ++ (l.drop i ++ r) := by rw [← List.append_assoc, List.take_append_drop]
  rw [h1] at h
  have h2 := At.add h
  rw [List.length_take, Nat.min_eq_left (by omega)] at h2
  rw [← List.append_assoc, List.take_append_drop]
  exact h2

/-- Section headers: same result as on byte lists, and the new table is safe. -/
theorem addSectionM_at {mem : Mem} (ss : List Sec) (hs : Safe mem ss) (t : Txt) (tx : List UInt8) (r : List UInt8)
    (hat : At mem t.p (91 :: tx ++ r)) (hl : t.len = (91 :: tx).length) :
    match addSection (ss.map (plainSec mem)) (91 :: tx) with
    | none => addSectionM mem ss t = .err
    | some (ss', k) => ∃ ss2, addSectionM mem ss t = .ok (ss2, k) ∧ ss2.map (plainSec mem) = ss' ∧ Safe mem ss2 := by
  have hm := memchrM_at 93 (91 :: tx) r t.p hat
  rw [← hl] at hm
  simp only [addSection, addSectionM, hm, bind_ok]
  cases he : (91 :: tx).findIdx? (fun x => x == 93) with
  | none => rfl
  | some e =>
    simp only [hl]
    have he' := List.findIdx?_eq_some_iff_getElem.1 he
    obtain ⟨hlt, hx, -⟩ := he'
    have h0 : e ≠ 0 := by intro h0; subst h0; simp at hx
    by_cases h1 : e < (91 :: tx).length - 1
    · simp only [if_pos h1]
    · simp only [if_neg h1, if_neg h0]
      have r1 := At.get hat (e - 1) (by omega)
      have r2 := At.get hat 1 (by omega)
      simp only [r1, bind_ok]
      cases h2 : isSpaceB ((91 :: tx).getD (e - 1) 0) with
      | true => simp only [if_true, bind_ok, h2, Bool.true_or]
      | false =>
        simp only [r2, bind_ok, Bool.false_eq_true, if_false]
        cases h3 : isSpaceB ((91 :: tx).getD 1 0) with
        | true => simp only [if_true, h3, Bool.or_true]
        | false =>
          have hat2 : At mem t.p ((91 :: tx).take e ++ ((91 :: tx).drop e ++ r)) := by
            rw [← List.append_assoc, List.take_append_drop]; exact hat
          have hsp := spacesM_at _ _ false _ hat2
          rw [List.length_take, Nat.min_eq_left (by omega)] at hsp
          simp only [h3, hsp, bind_ok, Bool.or_false, Bool.false_eq_true, if_false]
          cases spacesOk false (List.take e (91 :: tx)) with
          | false => simp
          | true =>
            have hn := At.inside (At.sub hat 1 ((91 :: tx).length - 2) (by omega))
            have hlen : ((91 :: tx).drop 1 |>.take ((91 :: tx).length - 2)).length = (91 :: tx).length - 2 := by
              simp only [List.length_take, List.length_drop]; omega
            rw [hlen] at hn
            have hf := findSectionM_inside hn.1 ss hs
            rw [hn.2] at hf
            simp only [hf, bind_ok]
            simp only [hlen, List.length_map]
            cases findSection (List.take ((91 :: tx).length - 2) (List.drop 1 (91 :: tx))) (ss.map (plainSec mem)) with
            | some k => exact ⟨ss, by simp, rfl, hs⟩
            | none =>
              by_cases hmax : (91 :: tx).length - 2 > maxSectionName
              · simp only [if_pos hmax, Bool.not_true, Bool.false_eq_true, if_false]
              · simp only [if_neg hmax, Bool.not_true, Bool.false_eq_true, if_false]
                refine ⟨{ name := ⟨t.p.add 1, (91 :: tx).length - 2⟩ } :: ss, by simp, ?_, ?_⟩
                · simp only [List.map_cons, plainSec, hn.2, List.map_nil]
                · intro s hs'
                  rcases List.mem_cons.1 hs' with rfl | h
                  · exact ⟨hn.1, by simp⟩
                  · exact hs s h

/-- The last byte of a trimmed text is not a space. -/
theorem trimB_last (l : List UInt8) (h : trimB l ≠ []) : isSpaceB ((trimB l).getLast h) = false := by
  unfold trimB at h ⊢
  generalize hm : (l.dropWhile isSpaceB).reverse.dropWhile isSpaceB = m at h ⊢
  have hne : m ≠ [] := by simpa using h
  rw [List.getLast_reverse]
  subst hm
  exact List.head_dropWhile_not isSpaceB hne

/-- A text whose last byte is not a space is not trimmed to nothing. -/
theorem trimB_ne (l : List UInt8) (b : UInt8) (hb : b ∈ l) (h : isSpaceB b = false) : trimB l ≠ [] := by
  intro h0
  have h1 : (l.dropWhile isSpaceB).reverse.dropWhile isSpaceB = [] := by simpa [trimB] using h0
  have nil : ∀ m : List UInt8, m.dropWhile isSpaceB = [] → ∀ x ∈ m, isSpaceB x := by
    intro m
    induction m with
    | nil => intro _ x hx; simp at hx
    | cons a m ih =>
      intro hd x hx
      simp only [List.dropWhile_cons] at hd
      by_cases ha : isSpaceB a
      · rcases List.mem_cons.1 hx with rfl | hx
        · exact ha
        · exact ih (by simpa [ha] using hd) x hx
      · simp [ha] at hd
  have h3 : ∀ x ∈ l.dropWhile isSpaceB, isSpaceB x := fun x hx => nil _ h1 x (by simpa using hx)
  rw [← List.takeWhile_append_dropWhile (p := isSpaceB) (l := l)] at hb
  rcases List.mem_append.1 hb with h4 | h4
  · have := (List.all_eq_true.1 (List.all_takeWhile (p := isSpaceB) (l := l))) b h4; simp [this] at h
  · have := h3 b h4; simp [this] at h

/-- The first byte of a trimmed text is not a space. -/
theorem trimB_head (l : List UInt8) (b : UInt8) (m : List UInt8) (h : trimB l = b :: m) : isSpaceB b = false := by
  obtain ⟨w, h1⟩ : ∃ w, l.dropWhile isSpaceB = b :: (m ++ w) := by
    refine ⟨((l.dropWhile isSpaceB).reverse.takeWhile isSpaceB).reverse, ?_⟩
    have := List.takeWhile_append_dropWhile (p := isSpaceB) (l := (l.dropWhile isSpaceB).reverse)
    have := congrArg List.reverse this
    simp only [List.reverse_append, List.reverse_reverse] at this
    unfold trimB at h
    rw [h] at this
    exact this.symm
  have h2 : l.dropWhile isSpaceB ≠ [] := by rw [h1]; simp
  have h3 := List.head_dropWhile_not isSpaceB h2
  have h4 : (l.dropWhile isSpaceB).head h2 = b := by
    generalize l.dropWhile isSpaceB = d at h1 h2
    subst h1; rfl
  rwa [h4] at h3

/-- The options of a section are safe. -/
def SafeOpts (mem : Mem) (cs : List Opt) : Prop :=
  ∀ c ∈ cs, InsideTxt mem c.key ∧ InsideTxt mem c.value ∧ 0 < c.key.len ∧ 0 < c.value.len

theorem map_modify_value (mem : Mem) (cs : List Opt) (i : Nat) (v : Txt) :
    (cs.modify i fun c => { c with value := v }).map (plainOpt mem) =
      (cs.map (plainOpt mem)).modify i fun c => { c with value := textOf mem v } := by
  induction cs generalizing i with
  | nil => simp
  | cons c cs ih =>
    cases i with
    | zero => simp [plainOpt]
    | succ i => simp [ih]

theorem safe_modify (mem : Mem) (cs : List Opt) (i : Nat) (v : Txt) (h : SafeOpts mem cs) (hv : InsideTxt mem v)
    (h0 : 0 < v.len) : SafeOpts mem (cs.modify i fun c => { c with value := v }) := by
  induction cs generalizing i with
  | nil => simpa using h
  | cons c cs ih =>
    have hc := h c (by simp)
    have hcs : SafeOpts mem cs := fun x hx => h x (by simp [hx])
    cases i with
    | zero =>
      intro x hx
      simp only [List.modify_zero_cons] at hx
      rcases List.mem_cons.1 hx with rfl | hx
      · exact ⟨hc.1, hv, hc.2.2.1, h0⟩
      · exact hcs x hx
    | succ i =>
      intro x hx
      simp only [List.modify_succ_cons] at hx
      rcases List.mem_cons.1 hx with rfl | hx
      · exact hc
      · exact ih i hcs x hx

/-- Options: same result as on byte lists, and the new table is safe. -/
theorem addConfigM_at {mem : Mem} (cs : List Opt) (hs : SafeOpts mem cs) (t : Txt) (tx : List UInt8) (y : UInt8)
    (r : List UInt8) (hat : At mem t.p (tx ++ y :: r)) (hl : t.len = tx.length)
    (hh : ∀ b m, tx = b :: m → isSpaceB b = false) (he : ∀ m b, tx = m ++ [b] → isSpaceB b = false) :
    match addConfig (cs.map (plainOpt mem)) tx with
    | none => addConfigM mem cs t = .err
    | some cs' => ∃ cs2, addConfigM mem cs t = .ok cs2 ∧ cs2.map (plainOpt mem) = cs' ∧ SafeOpts mem cs2 := by
  have hm := memchrM_at 61 tx (y :: r) t.p hat
  rw [← hl] at hm
  simp only [addConfig, addConfigM, hm, bind_ok]
  cases hi : tx.findIdx? (fun x => x == 61) with
  | none => rfl
  | some e =>
    obtain ⟨hlt, hx, -⟩ := List.findIdx?_eq_some_iff_getElem.1 hi
    simp only [hl]
    by_cases h0 : e = 0
    · simp only [if_pos h0]
    by_cases h1 : e = tx.length - 1
    · simp only [if_neg h0, if_pos h1]
    simp only [if_neg h0, if_neg h1]
    -- the key, followed by '='
    have s1 : tx ++ y :: r = tx.take e ++ tx[e] :: (tx.drop (e + 1) ++ y :: r) := by
      rw [← List.cons_append, ← List.append_assoc, List.getElem_cons_drop, List.take_append_drop]
    have a1 : At mem t.p (tx.take e ++ tx[e] :: (tx.drop (e + 1) ++ y :: r)) := by rw [← s1]; exact hat
    obtain ⟨kt, kr, k1, k2, k3, -⟩ := trimM_at _ _ _ _ a1
    rw [List.length_take, Nat.min_eq_left (by omega)] at k1
    -- the value, followed by the byte behind the line
    have s2 : tx ++ y :: r = tx.take (e + 1) ++ (tx.drop (e + 1) ++ y :: r) := by
      rw [← List.append_assoc, List.take_append_drop]
    have a2 : At mem (t.p.add (e + 1)) (tx.drop (e + 1) ++ y :: r) := by
      rw [s2] at hat
      have := At.add hat
      rwa [List.length_take, Nat.min_eq_left (by omega)] at this
    obtain ⟨vt, vr, v1, v2, v3, -⟩ := trimM_at _ _ _ _ a2
    rw [List.length_drop, show tx.length - (e + 1) = tx.length - e - 1 by omega] at v1
    have ki := At.inside k3
    have vi := At.inside v3
    rw [← k2] at ki
    rw [← v2] at vi
    have kpos : 0 < kt.len := by
      cases htx : tx with
      | nil => simp [htx] at hlt
      | cons b m =>
        have hb := hh b m htx
        rw [k2]
        refine List.length_pos_iff.2 (trimB_ne _ b ?_ hb)
        rw [htx]
        cases e with
        | zero => exact absurd rfl h0
        | succ e => simp
    have vpos : 0 < vt.len := by
      rw [v2]
      have hne : tx ≠ [] := by intro h; simp [h] at hlt
      have hb := he _ _ (List.dropLast_concat_getLast hne).symm
      refine List.length_pos_iff.2 (trimB_ne _ _ ?_ hb)
      have hd : tx.drop (e + 1) ≠ [] := by
        intro h; have := congrArg List.length h; simp at this; omega
      rw [← List.getLast_drop hd]
      exact List.getLast_mem hd
    have hf := findConfigM_inside ki.1 cs (fun c hc => (hs c hc).1)
    rw [ki.2] at hf
    simp only [k1, v1, bind_ok, hf]
    simp only [findConfig, find?_findIdx?]
    cases hj : (cs.map (plainOpt mem)).findIdx? (fun c => memCaseEq (trimB (tx.take e)) c.key) with
    | none =>
      simp only [Option.bind_none]
      refine ⟨_, rfl, by simp [plainOpt, ki.2, vi.2], ?_⟩
      intro c hc
      rcases List.mem_cons.1 hc with rfl | hc
      · exact ⟨ki.1, vi.1, kpos, vpos⟩
      · exact hs c hc
    | some j =>
      obtain ⟨hjl, -, -⟩ := List.findIdx?_eq_some_iff_getElem.1 hj
      simp only [Option.bind_some, List.getElem?_eq_getElem hjl]
      refine ⟨_, rfl, ?_, safe_modify _ _ _ _ hs vi.1 vpos⟩
      rw [map_modify_value, vi.2, setConfig_modify _ _ _ _ hj]

theorem optsAt_plain (mem : Mem) (k : Nat) (ss : List Sec) :
    (sectionAt k (ss.map (plainSec mem))).map (·.configs) = (optsAt k ss).map (·.map (plainOpt mem)) := by
  induction ss with
  | nil => rfl
  | cons s ss ih =>
    simp only [List.map_cons, sectionAt, optsAt, List.length_map]
    by_cases h : ss.length = k
    · simp [h, plainSec]
    · simp [h, ih]

theorem optsAt_safe (mem : Mem) (k : Nat) (ss : List Sec) (h : Safe mem ss) (cs : List Opt)
    (hc : optsAt k ss = some cs) : SafeOpts mem cs := by
  induction ss with
  | nil => simp [optsAt] at hc
  | cons s ss ih =>
    simp only [optsAt] at hc
    by_cases h1 : ss.length = k
    · simp only [h1, if_true, Option.some.injEq] at hc
      subst hc; exact (h s (by simp)).2
    · simp only [h1, if_false] at hc
      exact ih (fun x hx => h x (by simp [hx])) hc

theorem optsAt_some (k : Nat) (ss : List Sec) (h : k < ss.length) : ∃ cs, optsAt k ss = some cs := by
  induction ss with
  | nil => simp at h
  | cons s ss ih =>
    simp only [optsAt]
    by_cases h1 : ss.length = k
    · simp [h1]
    · simp only [h1, if_false]
      exact ih (by simp at h; omega)

theorem setOpts_plain (mem : Mem) (k : Nat) (cs : List Opt) (ss : List Sec) :
    (setOpts k cs ss).map (plainSec mem) =
      updateSection k (fun s => { s with configs := cs.map (plainOpt mem) }) (ss.map (plainSec mem)) := by
  induction ss with
  | nil => rfl
  | cons s ss ih =>
    simp only [List.map_cons, setOpts, updateSection, List.length_map]
    by_cases h : ss.length = k
    · simp [h, plainSec]
    · simp [h, ih]

theorem setOpts_safe (mem : Mem) (k : Nat) (cs : List Opt) (ss : List Sec) (h : Safe mem ss) (hc : SafeOpts mem cs) :
    Safe mem (setOpts k cs ss) := by
  induction ss with
  | nil => simpa [setOpts] using h
  | cons s ss ih =>
    have h' : Safe mem ss := fun x hx => h x (by simp [hx])
    simp only [setOpts]
    split
    · intro x hx
      rcases List.mem_cons.1 hx with rfl | hx
      · exact ⟨(h s (by simp)).1, hc⟩
      · exact h' x hx
    · intro x hx
      rcases List.mem_cons.1 hx with rfl | hx
      · exact h x (by simp)
      · exact ih h' x hx

theorem setOpts_length (k : Nat) (cs : List Opt) (ss : List Sec) : (setOpts k cs ss).length = ss.length := by
  induction ss with
  | nil => rfl
  | cons s ss ih => simp only [setOpts]; split <;> simp [ih]

/-- The state with the texts in place of the pointers. -/
def plainState (mem : Mem) (st : State) : CfgState := { sections := st.sections.map (plainSec mem), cur := st.cur }

/-- Safe tables, and a pointer to an existing section. -/
def SafeState (mem : Mem) (st : State) : Prop := Safe mem st.sections ∧ ∀ k, st.cur = some k → k < st.sections.length

theorem addSection_bound (ss : List CfgSection) (l : List UInt8) (ss' : List CfgSection) (k : Nat)
    (h : addSection ss l = some (ss', k)) : k < ss'.length := by
  have fs : ∀ (n : List UInt8) (ss : List CfgSection) k, findSection n ss = some k → k < ss.length := by
    intro n ss
    induction ss with
    | nil => intro k h; simp [findSection] at h
    | cons s ss ih =>
      intro k h
      simp only [findSection] at h
      split at h
      · simp at h; simp; omega
      · have := ih k h; simp; omega
  simp only [addSection] at h
  split at h
  · simp at h
  · split at h
    · simp at h
    · split at h
      · simp at h
      · split at h
        · simp at h
        · split at h
          · rename_i hk
            simp at h
            obtain ⟨rfl, rfl⟩ := h
            exact fs _ _ _ hk
          · split at h
            · simp at h
            · simp at h
              obtain ⟨rfl, rfl⟩ := h
              simp

/-- A line: same result as on byte lists, and the new state is safe. -/
theorem lineM_at {mem : Mem} (st : State) (hs : SafeState mem st) (l : List UInt8) (x : UInt8) (r : List UInt8) (p : Ptr)
    (hat : At mem p (l ++ x :: r)) :
    match confLine (plainState mem st) l with
    | none => lineM mem st ⟨p, l.length⟩ = .err
    | some st' => ∃ st2, lineM mem st ⟨p, l.length⟩ = .ok st2 ∧ plainState mem st2 = st' ∧ SafeState mem st2 := by
  simp only [confLine, lineM]
  by_cases hmax : l.length > intMax
  · simp only [if_pos hmax]
  simp only [if_neg hmax]
  obtain ⟨t, r', t1, t2, t3, t4⟩ := trimM_at l x r p hat
  simp only [t1, bind_ok]
  cases htb : trimB l with
  | nil =>
    simp only [t2, htb, List.length_nil, if_true]
    exact ⟨st, rfl, rfl, hs⟩
  | cons b bs =>
    rw [htb] at t2 t3
    have hb := At.rd t3
    simp only [t2, List.length_cons, Nat.add_one_ne_zero, if_false, hb, bind_ok]
    by_cases hc : b = 59 ∨ b = 35
    · simp only [if_pos hc]
      exact ⟨st, rfl, rfl, hs⟩
    simp only [if_neg hc]
    by_cases h91 : b = 91
    · subst h91
      simp only [if_true]
      have h := addSectionM_at st.sections hs.1 t bs r' t3 t2
      have hbd := addSection_bound (st.sections.map (plainSec mem)) (91 :: bs)
      simp only [plainState]
      cases ha : addSection (st.sections.map (plainSec mem)) (91 :: bs) with
      | none => rw [ha] at h; simp only [h, bind_err]
      | some v =>
        obtain ⟨ss', k⟩ := v
        rw [ha] at h
        obtain ⟨ss2, e1, e2, e3⟩ := h
        have hk := hbd _ _ ha
        simp only [e1, bind_ok]
        refine ⟨⟨ss2, some k⟩, rfl, by simp [e2], e3, ?_⟩
        intro k' h'
        simp only [Option.some.injEq] at h'
        subst h'
        rw [← e2] at hk
        simpa using hk
    simp only [if_neg h91]
    simp only [plainState]
    cases hcur : st.cur with
    | none => simp only
    | some k =>
      obtain ⟨cs, hcs⟩ := optsAt_some k st.sections (hs.2 k hcur)
      have hp := optsAt_plain mem k st.sections
      rw [hcs] at hp
      simp only [hcs]
      obtain ⟨s0, hs0, hs0c⟩ : ∃ s0, sectionAt k (st.sections.map (plainSec mem)) = some s0 ∧
          s0.configs = cs.map (plainOpt mem) := by
        cases h : sectionAt k (st.sections.map (plainSec mem)) with
        | none => rw [h] at hp; simp at hp
        | some s0 => rw [h] at hp; exact ⟨s0, rfl, by simpa using hp⟩
      simp only [hs0, Option.bind_some, hs0c]
      obtain ⟨y, r'', rfl⟩ := List.exists_cons_of_ne_nil t4
      have h := addConfigM_at cs (optsAt_safe mem k _ hs.1 cs hcs) t (b :: bs) y r'' t3 t2
        (fun b' m hm => by rw [← htb] at hm; exact trimB_head l b' m hm)
        (fun m b' hm => by
          rw [← htb] at hm
          have hne : trimB l ≠ [] := by rw [hm]; simp
          have := trimB_last l hne
          simpa [hm] using this)
      cases ha : addConfig (cs.map (plainOpt mem)) (b :: bs) with
      | none => rw [ha] at h; simp only [h, bind_err]
      | some cs' =>
        rw [ha] at h
        obtain ⟨cs2, e1, e2, e3⟩ := h
        simp only [e1, bind_ok]
        refine ⟨_, rfl, ?_, setOpts_safe _ _ _ _ hs.1 e3, ?_⟩
        · simp only [setOpts_plain, e2]
        · intro k' h'
          rw [setOpts_length]
          exact hs.2 k' (by rw [hcur]; simpa using h')

/-- The lines of a text: up to the first newline, and the rest. -/
theorem confLines_split (l r : List UInt8) (h : ∀ b ∈ l, b ≠ 10) : confLines (l ++ 10 :: r) = l :: confLines r := by
  have go : ∀ (l acc : List UInt8), (∀ b ∈ l, b ≠ 10) →
      confLinesGo acc (l ++ 10 :: r) = (acc.reverse ++ l) :: confLinesGo [] r := by
    intro l
    induction l with
    | nil => intro acc _; simp [confLinesGo]
    | cons b l ih =>
      intro acc hl
      simp only [List.cons_append, confLinesGo, if_neg (hl b (by simp))]
      rw [ih _ (fun x hx => hl x (by simp [hx]))]
      simp
  simpa [confLines] using go l [] h

theorem confLines_none (l : List UInt8) (h : ∀ b ∈ l, b ≠ 10) : confLines l = [] := by
  have go : ∀ (l acc : List UInt8), (∀ b ∈ l, b ≠ 10) → confLinesGo acc l = [] := by
    intro l
    induction l with
    | nil => intro acc _; simp [confLinesGo]
    | cons b l ih =>
      intro acc hl
      simp only [confLinesGo, if_neg (hl b (by simp))]
      exact ih _ (fun x hx => hl x (by simp [hx]))
  exact go l [] h

/-- The loop over the lines. -/
theorem parseLoop_at {mem : Mem} : ∀ (fuel : Nat) (l : List UInt8) (st : State) (p : Ptr), SafeState mem st →
    At mem p l → l.length < fuel →
    ∃ ss, parseLoop mem st p l.length fuel = .ok (ss, (parseLines (plainState mem st) (confLines l)).2) ∧
      ss.map (plainSec mem) = (parseLines (plainState mem st) (confLines l)).1 ∧ Safe mem ss := by
  intro fuel
  induction fuel with
  | zero => intro l st p _ _ h; omega
  | succ fuel ih =>
    intro l st p hs hat hf
    have hm := memchrM_at 10 l [] p (by simpa using hat)
    simp only [parseLoop, hm]
    cases hi : l.findIdx? (fun x => x == 10) with
    | none =>
      have hno : ∀ b ∈ l, b ≠ 10 := by
        intro b hb h
        have := List.findIdx?_eq_none_iff.1 hi b hb
        simp [h] at this
      rw [confLines_none l hno]
      exact ⟨st.sections, rfl, rfl, hs.1⟩
    | some e =>
      obtain ⟨hlt, hx, hfirst⟩ := List.findIdx?_eq_some_iff_getElem.1 hi
      have hsplit : l = l.take e ++ 10 :: l.drop (e + 1) := by
        have h1 : l[e] = 10 := by simpa using hx
        rw [← h1, List.getElem_cons_drop, List.take_append_drop]
      have hno : ∀ b ∈ l.take e, b ≠ 10 := by
        intro b hb h
        obtain ⟨i, hi', hb'⟩ := List.mem_iff_getElem.1 hb
        simp only [List.length_take] at hi'
        have := hfirst i (by omega)
        simp only [List.getElem_take] at hb'
        simp [hb', h] at this
      rw [show confLines l = l.take e :: confLines (l.drop (e + 1)) by
        conv => lhs; rw [hsplit]
        exact confLines_split _ _ hno]
      have hat1 : At mem p (l.take e ++ 10 :: l.drop (e + 1)) := by rw [← hsplit]; exact hat
      have hln := lineM_at st hs _ _ _ p hat1
      rw [List.length_take, Nat.min_eq_left (by omega)] at hln
      simp only [parseLines]
      cases hc : confLine (plainState mem st) (l.take e) with
      | none =>
        rw [hc] at hln
        simp only [hln]
        exact ⟨st.sections, rfl, rfl, hs.1⟩
      | some st' =>
        rw [hc] at hln
        obtain ⟨st2, e1, e2, e3⟩ := hln
        simp only [e1]
        have hat2 : At mem (p.add (e + 1)) (l.drop (e + 1)) := by
          have h1 : l = l.take (e + 1) ++ l.drop (e + 1) := (List.take_append_drop _ _).symm
          rw [h1] at hat
          have := At.add hat
          rwa [List.length_take, Nat.min_eq_left (by omega)] at this
        have := ih (l.drop (e + 1)) st2 _ e3 hat2 (by simp; omega)
        rw [List.length_drop, show l.length - (e + 1) = l.length - e - 1 by omega, e2] at this
        exact this

end Verif.ConfMem
