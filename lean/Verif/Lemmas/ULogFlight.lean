/- What the processing of ULog packets depends on; one log from its start to its end. -/
import Verif.Lemmas.ULogHist
import Verif.Spec.ULogFlight

namespace Verif

/-- Two ULog endpoints that agree in everything the processing of packets depends on; what was reported of the first was reported of the
second. -/
def SameLog (u v : ULog) : Prop :=
  u.base.file = v.base.file ∧ u.base.nwrite = v.base.nwrite ∧ u.waitHdr = v.waitHdr ∧ u.waitFirst = v.waitFirst ∧
    u.expSeq = v.expSeq ∧ u.pend = v.pend ∧ u.idx = v.idx ∧ u.part = v.part ∧
    ((v.wrapped = false → u.wrapped = false) ∧ (v.lost = false → u.lost = false))

/-- The same of what open file and writes look like. -/
def SameFile (b d : LogBase) : Prop := b.file = d.file ∧ b.nwrite = d.nwrite

theorem write_same {env : LogEnv} {b d : LogBase} (h : SameFile b d) (bs : List UInt8) :
    SameFile (b.write env bs).1 (d.write env bs).1 ∧ (b.write env bs).2 = (d.write env bs).2 := by
  obtain ⟨h1, h2⟩ := h
  unfold LogBase.write
  rw [h1, h2]
  cases hf : d.file with
  | none => exact ⟨⟨by simp only [h1, hf], h2⟩, rfl⟩
  | some c =>
    simp only []
    cases env.wr d.nwrite with
    | n k => exact ⟨⟨rfl, by simp⟩, rfl⟩
    | again => exact ⟨⟨by simp only [h1, hf], by simp⟩, rfl⟩
    | err => exact ⟨⟨by simp only [h1, hf], by simp⟩, rfl⟩

theorem flushPart_same (env : LogEnv) : ∀ (n : Nat) (b d : LogBase) (p : List UInt8), SameFile b d →
    SameFile (flushPart env n b p).1 (flushPart env n d p).1 ∧ (flushPart env n b p).2 = (flushPart env n d p).2
  | n, b, d, [], h => by
    cases n <;> exact ⟨h, rfl⟩
  | 0, b, d, x :: p, h => ⟨h, rfl⟩
  | n + 1, b, d, x :: p, h => by
    obtain ⟨h1, h2⟩ := write_same (env := env) h (x :: p)
    simp only [flushPart]
    cases hb : b.write env (x :: p) with
    | mk b' r =>
      cases hd : d.write env (x :: p) with
      | mk d' r' =>
        rw [hb, hd] at h1 h2
        simp only [] at h1 h2
        subst h2
        cases r with
        | again => exact ⟨h1, rfl⟩
        | err => exact ⟨h1, rfl⟩
        | wrote k =>
          cases k with
          | zero => exact ⟨h1, rfl⟩
          | succ k => exact flushPart_same env n b' d' _ h1

/-- Both do not return, or both return the same result in states that agree. -/
def SameRes {α : Type} : Option (ULog × α) → Option (ULog × α) → Prop
  | none, none => True
  | some (u, a), some (v, b) => SameLog u v ∧ a = b
  | none, some _ => False
  | some _, none => False

/-- Agreeing states differ in other members only. -/
theorem SameLog.elim {u v : ULog} (h : SameLog u v) : ∃ b a1 a2 a3 a4 a5 a6, SameFile b v.base ∧
    ((v.wrapped = false → a3 = false) ∧ (v.lost = false → a4 = false)) ∧ u = { v with base := b, oob := a1, oobWrite := a2, wrapped := a3, lost := a4, cut := a5, dropped := a6 } := by
  obtain ⟨h1, h2, h3, h4, h5, h6, h7, h8, h9⟩ := h
  cases u
  cases v
  simp only [] at h1 h2 h3 h4 h5 h6 h7 h8 h9
  subst h3 h4 h5 h6 h7 h8
  exact ⟨_, _, _, _, _, _, _, ⟨h1, h2⟩, h9, rfl⟩

theorem flushBuf_same (env : LogEnv) : ∀ (n : Nat) (u v : ULog), SameLog u v → SameRes (flushBuf env n u) (flushBuf env n v)
  | 0, u, v, h => ⟨h, rfl⟩
  | n + 1, u, v, h => by
    obtain ⟨b, a1, a2, a3, a4, a5, a6, hb, hg, rfl⟩ := h.elim
    unfold flushBuf
    simp only []
    split
    · exact ⟨⟨hb.1, hb.2, rfl, rfl, rfl, rfl, rfl, rfl, by simp_all⟩, rfl⟩
    · split
      · exact ⟨⟨hb.1, hb.2, rfl, rfl, rfl, rfl, rfl, rfl, by simp_all⟩, rfl⟩
      · obtain ⟨w1, w2⟩ := write_same (env := env) hb (v.pend.take (fullSize v.pend))
        cases hb : b.write env (v.pend.take (fullSize v.pend)) with
        | mk b' r =>
          cases hd : v.base.write env (v.pend.take (fullSize v.pend)) with
          | mk d' r' =>
            rw [hb, hd] at w1 w2
            simp only [] at w1 w2
            subst w2
            cases r with
            | again => exact ⟨⟨w1.1, w1.2, rfl, rfl, rfl, rfl, rfl, rfl, by simp_all⟩, rfl⟩
            | err => exact ⟨⟨w1.1, w1.2, rfl, rfl, rfl, rfl, rfl, rfl, by simp_all⟩, rfl⟩
            | wrote k =>
              simp only []
              split
              · split
                · trivial
                · exact flushBuf_same env n _ _ ⟨w1.1, w1.2, rfl, rfl, rfl, rfl, rfl, rfl, by simp_all⟩
              · split
                · exact ⟨⟨w1.1, w1.2, rfl, rfl, rfl, rfl, rfl, rfl, by simp_all⟩, rfl⟩
                · split
                  · exact ⟨⟨w1.1, w1.2, rfl, rfl, rfl, rfl, rfl, rfl, by simp_all⟩, rfl⟩
                  · exact ⟨⟨w1.1, w1.2, rfl, rfl, rfl, rfl, rfl, rfl, by simp_all⟩, rfl⟩

theorem flush_sameLog (env : LogEnv) {u v : ULog} (h : SameLog u v) : SameRes (u.flush env) (v.flush env) := by
  obtain ⟨b, a1, a2, a3, a4, a5, a6, hb, hg, rfl⟩ := h.elim
  unfold ULog.flush
  simp only []
  obtain ⟨w1, w2⟩ := flushPart_same env v.part.length b v.base v.part hb
  cases hb : flushPart env v.part.length b v.part with
  | mk b' r =>
    cases hd : flushPart env v.part.length v.base v.part with
    | mk d' r' =>
      rw [hb, hd] at w1 w2
      simp only [] at w1 w2
      subst w2
      obtain ⟨p, r⟩ := r
      cases r with
      | empty => exact flushBuf_same env _ _ _ ⟨w1.1, w1.2, rfl, rfl, rfl, rfl, rfl, rfl, by simp_all⟩
      | wait => exact ⟨⟨w1.1, w1.2, rfl, rfl, rfl, rfl, rfl, rfl, by simp_all⟩, rfl⟩
      | fail => exact ⟨⟨w1.1, w1.2, rfl, rfl, rfl, rfl, rfl, rfl, by simp_all⟩, rfl⟩

theorem makeRoom_same {u v : ULog} (h : SameLog u v) (n : Nat) : SameLog (u.makeRoom n) (v.makeRoom n) := by
  obtain ⟨b, a1, a2, a3, a4, a5, a6, hb, hg, rfl⟩ := h.elim
  unfold ULog.makeRoom
  simp only []
  split
  · split <;> exact ⟨hb.1, hb.2, rfl, rfl, rfl, rfl, rfl, rfl, by simp_all⟩
  · split <;> exact ⟨hb.1, hb.2, rfl, rfl, rfl, rfl, rfl, rfl, by simp_all⟩

theorem flush_then (env : LogEnv) (p : Pkt) {u v : ULog} (h : SameLog u v) :
    SameRes (match u.flush env with | none => none | some (u, _) => some (u, p))
      (match v.flush env with | none => none | some (u, _) => some (u, p)) := by
  have := flush_sameLog env h
  revert this
  generalize ULog.flush env u = a
  generalize ULog.flush env v = b
  intro this
  cases a with
  | none => cases b with
    | none => trivial
    | some _ => exact this.elim
  | some x => cases b with
    | none => exact this.elim
    | some y => exact ⟨this.1, rfl⟩

theorem store_same (env : LogEnv) {u v : ULog} (h : SameLog u v) (p : Pkt) : SameRes (u.store env p) (v.store env p) := by
  obtain ⟨b, a1, a2, a3, a4, a5, a6, hb, hg, rfl⟩ := h.elim
  unfold ULog.store
  simp only []
  split
  · exact ⟨⟨hb.1, hb.2, rfl, rfl, rfl, rfl, rfl, rfl, by simp_all⟩, rfl⟩
  · split
    · exact ⟨⟨hb.1, hb.2, rfl, rfl, rfl, rfl, rfl, rfl, by simp_all⟩, rfl⟩
    · exact flush_then env _ ⟨hb.1, hb.2, rfl, rfl, rfl, rfl, rfl, rfl, by simp_all⟩

theorem append_same_log (env : LogEnv) {u v : ULog} (h : SameLog u v) (p : Pkt) (drops : Bool) :
    SameRes (u.append env p drops) (v.append env p drops) := by
  have key : ∀ a b : ULog, SameLog a b → SameRes ((a.makeRoom p.length.toNat).store env p) ((b.makeRoom p.length.toNat).store env p) :=
    fun a b h => store_same env (makeRoom_same h _) p
  unfold ULog.append ULog.afterLoss
  cases drops with
  | false => exact key u v h
  | true =>
    simp only [if_true]
    have := flush_sameLog env h
    cases ha : ULog.flush env u with
    | none => cases hb : ULog.flush env v with
      | none => trivial
      | some _ => rw [ha, hb] at this; exact this.elim
    | some x => cases hb : ULog.flush env v with
      | none => rw [ha, hb] at this; exact this.elim
      | some y =>
        rw [ha, hb] at this
        obtain ⟨⟨h1, h2, h3, h4, h5, h6, h7, h8, h9⟩, _⟩ := this
        exact key _ _ ⟨h1, h2, h3, rfl, h5, rfl, rfl, h8, h9⟩

/-- The header is awaited and this is not it. -/
def BadHeader (u : ULog) (p : Pkt) : Prop := u.waitHdr = true ∧ (p.length.toNat < ulogHdr ∨ p.mem.take 7 ≠ ulogMagic)

theorem process_same (env : LogEnv) {u v : ULog} (h : SameLog u v) (p : Pkt) (hb : ¬BadHeader u p) :
    SameRes (u.process env p) (v.process env p) := by
  obtain ⟨h1, h2, h3, h4, h5, h6, h7, h8, h9⟩ := h
  unfold ULog.process
  rw [h5]
  cases logSeq v.expSeq p.seq with
  | none => exact ⟨⟨h1, h2, h3, h4, h5, h6, h7, h8, h9⟩, rfl⟩
  | some x =>
    obtain ⟨drops, exp⟩ := x
    simp only []
    have hw' : v.waitHdr = u.waitHdr := h3.symm
    by_cases hw : u.waitHdr = true
    · have hg : ¬(p.length.toNat < ulogHdr ∨ p.mem.take 7 ≠ ulogMagic) := fun x => hb ⟨hw, x⟩
      rw [if_pos hw, if_pos (hw'.trans hw), if_neg hg, if_neg hg]
      refine append_same_log env (u := (takeHeader { u with expSeq := exp } p).1) (v := (takeHeader { v with expSeq := exp } p).1) ?_ _ drops
      exact ⟨h1, h2, rfl, h4, rfl, h6, h7, rfl, h9⟩
    · rw [if_neg hw, if_neg (hw' ▸ hw)]
      refine append_same_log env (u := { u with expSeq := exp }) (v := { v with expSeq := exp }) ?_ p drops
      exact ⟨h1, h2, h3, h4, rfl, h6, h7, h8, h9⟩

/-- Start and end of files are as before. -/
def BaseKept (u w : ULog) : Prop :=
  w.base.nstart = u.base.nstart ∧ w.base.done = u.base.done ∧ (u.base.file = none → w.base.file = none)

theorem BaseKept.refl (u : ULog) : BaseKept u u := ⟨rfl, rfl, id⟩

theorem BaseKept.trans {u v w : ULog} (h : BaseKept u v) (h' : BaseKept v w) : BaseKept u w :=
  ⟨h'.1.trans h.1, h'.2.1.trans h.2.1, fun x => h'.2.2 (h.2.2 x)⟩

theorem FlushRel.kept {u w : ULog} (h : FlushRel u w) : BaseKept u w := by
  obtain ⟨f, n, hb⟩ := h.base
  exact ⟨by rw [hb], by rw [hb], h.none⟩

theorem append_base {env : LogEnv} {u w : ULog} {p q : Pkt} {drops : Bool} (h : u.append env p drops = some (w, q)) : BaseKept u w := by
  unfold ULog.append at h
  cases ha : u.afterLoss env drops with
  | none => rw [ha] at h; cases h
  | some v =>
    rw [ha] at h
    have h1 : BaseKept u v := by
      rcases afterLoss_spec env u v drops ha with ⟨_, rfl⟩ | ⟨_, x, hr, rfl⟩
      · exact .refl _
      · exact hr.kept
    have h2 : BaseKept v (v.makeRoom p.length.toNat) := by
      rcases (makeRoom_spec v p.length.toNat).1 with ⟨e, _⟩ | ⟨e, _⟩ <;> rw [e] <;> exact ⟨rfl, rfl, id⟩
    refine (h1.trans h2).trans ?_
    rcases store_spec env _ w p q h with ⟨_, _, e⟩ | ⟨_, e⟩ | ⟨_, _, hr⟩
    · rw [e]; exact .refl _
    · rw [e]; exact ⟨rfl, rfl, id⟩
    · exact BaseKept.trans (v := stored (v.makeRoom p.length.toNat) p) ⟨rfl, rfl, id⟩ hr.kept

theorem stop_base {env : LogEnv} {u w : ULog} (h : u.stop env = some w) :
    w.base.file = none ∧ w.base.nstart = u.base.nstart ∧ (u.base.file = none → w = u) := by
  rcases stop_spec env u w h with ⟨h1, rfl⟩ | ⟨x, c, hc, hr, rfl⟩
  · exact ⟨h1, rfl, fun _ => rfl⟩
  · refine ⟨rfl, ?_, fun h => by rw [hc] at h; cases h⟩
    exact hr.kept.1

theorem start_base (env : LogEnv) {u : ULog} (h : u.base.file = none) : (u.start env).1.base.nstart = u.base.nstart + 1 := by
  unfold ULog.start LogBase.start
  rw [h]
  simp only [Option.isSome_none, Bool.false_eq_true, if_false]
  cases env.startOk u.base.nstart <;> rfl

theorem restart_base {env : LogEnv} {u w : ULog} (h : u.restart env = some w) : w.base.nstart = u.base.nstart + 1 := by
  unfold ULog.restart at h
  cases hs : u.stop env with
  | none => rw [hs] at h; cases h
  | some v =>
    rw [hs] at h
    cases h
    obtain ⟨h1, h2, _⟩ := stop_base hs
    rw [start_base env h1, h2]

theorem process_cases {env : LogEnv} {b c : ULog} {p q : Pkt} (h : b.process env p = some (c, q)) :
    b.base.nstart < c.base.nstart ∨
    (BaseKept b c ∧ ∀ u, SameLog u b → ∃ x, u.process env p = some (x, q) ∧ SameLog x c) := by
  by_cases hs : logSeq b.expSeq p.seq = none
  · unfold ULog.process at h
    rw [hs] at h
    cases h
    refine .inr ⟨.refl _, fun u hu => ⟨u, ?_, hu⟩⟩
    unfold ULog.process
    rw [hu.2.2.2.2.1, hs]
  · by_cases hb : BadHeader b p
    · left
      unfold ULog.process at h
      cases hl : logSeq b.expSeq p.seq with
      | none => exact absurd hl hs
      | some x =>
        obtain ⟨drops, exp⟩ := x
        rw [hl] at h
        simp only [] at h
        rw [if_pos hb.1, if_pos hb.2] at h
        simp only [Option.map_eq_some_iff, Prod.mk.injEq] at h
        obtain ⟨a, ha, rfl, _⟩ := h
        have := restart_base ha
        simp only [] at this
        omega
    · right
      refine ⟨?_, fun u hu => ?_⟩
      · unfold ULog.process at h
        cases hl : logSeq b.expSeq p.seq with
        | none => exact absurd hl hs
        | some x =>
          obtain ⟨drops, exp⟩ := x
          rw [hl] at h
          simp only [] at h
          split at h
          · split at h
            · rename_i hw hg
              exact absurd ⟨hw, hg⟩ hb
            · exact BaseKept.trans (v := (takeHeader { b with expSeq := exp } p).1) ⟨rfl, rfl, id⟩ (append_base h)
          · exact BaseKept.trans (v := { b with expSeq := exp }) ⟨rfl, rfl, id⟩ (append_base h)
      · have hb' : ¬BadHeader u p := by
          unfold BadHeader
          rw [hu.2.2.1]
          exact hb
        have := process_same env hu p hb'
        rw [h] at this
        cases hx : u.process env p with
        | none => rw [hx] at this; exact this.elim
        | some y =>
          rw [hx] at this
          obtain ⟨x, q'⟩ := y
          obtain ⟨h1, rfl⟩ := this
          exact ⟨x, rfl, h1⟩

/-- The log with start number `N` is over. -/
def LogOver (N : Nat) (u : ULog) : Prop := N < u.base.nstart ∨ (u.base.file = none ∧ N ≤ u.base.nstart)

/-- What an event does to a log: the data packet in it is processed, if any. -/
def LogStep (env : LogEnv) (ps : List Pkt) (u w : ULog) : Prop :=
  BaseKept u w ∧ ∀ y, SameLog y u → ∃ x, y.processAll env ps = some x ∧ SameLog x w

theorem SameLog.refl (u : ULog) : SameLog u u := ⟨rfl, rfl, rfl, rfl, rfl, rfl, rfl, rfl, id, id⟩

theorem SameLog.trans {u v w : ULog} (h : SameLog u v) (h' : SameLog v w) : SameLog u w :=
  ⟨h.1.trans h'.1, h.2.1.trans h'.2.1, h.2.2.1.trans h'.2.2.1, h.2.2.2.1.trans h'.2.2.2.1, h.2.2.2.2.1.trans h'.2.2.2.2.1,
    h.2.2.2.2.2.1.trans h'.2.2.2.2.2.1, h.2.2.2.2.2.2.1.trans h'.2.2.2.2.2.2.1, h.2.2.2.2.2.2.2.1.trans h'.2.2.2.2.2.2.2.1,
    fun x => h.2.2.2.2.2.2.2.2.1 (h'.2.2.2.2.2.2.2.2.1 x), fun x => h.2.2.2.2.2.2.2.2.2 (h'.2.2.2.2.2.2.2.2.2 x)⟩

theorem LogOver.kept {N : Nat} {u w : ULog} (h : LogOver N u) (hk : BaseKept u w) : LogOver N w := by
  rcases h with h | ⟨h1, h2⟩
  · exact .inl (by rw [hk.1]; exact h)
  · exact .inr ⟨hk.2.2 h1, by rw [hk.1]; exact h2⟩

/-- The part of `write_msg` after the automatic start and stop. -/
theorem write_rest {env : LogEnv} (ht : env.tbl 266 ≠ none ∧ env.tbl 267 ≠ none) {u w : ULog} {m : Msg} {out : List UInt8}
    (h : (if m.msgId ≠ 77 ∧ m.msgId ≠ 267 ∧ m.msgId ≠ 266 then some (u, m.data)
      else if env.tbl m.msgId = none then some (u, m.data)
      else if m.msgId = 77 then some (u.commandAck env m, m.data)
      else
        match (u.acknowledge env m).process env (m.pkt env) with
        | none => none
        | some (u, p) => some (u.count, m.edited p)) = some (w, out)) :
    u.base.nstart < w.base.nstart ∨
    (BaseKept u w ∧ ∀ y, SameLog y u → ∃ x, y.processAll env (if m.msgId = 266 ∨ m.msgId = 267 then [m.pkt env] else []) = some x ∧ SameLog x w) := by
  split at h
  · rename_i hid
    cases h
    rw [if_neg (fun x => x.elim hid.2.2 hid.2.1)]
    exact .inr ⟨.refl _, fun y hy => ⟨y, rfl, hy⟩⟩
  · rename_i hid
    split at h
    · rename_i hn
      cases h
      rw [if_neg (fun x => x.elim (fun e => ht.1 (e ▸ hn)) (fun e => ht.2 (e ▸ hn)))]
      exact .inr ⟨.refl _, fun y hy => ⟨y, rfl, hy⟩⟩
    · split at h
      · rename_i h77
        cases h
        rw [if_neg (by rw [h77]; decide)]
        right
        have : BaseKept u (u.commandAck env m) ∧ SameLog u (u.commandAck env m) := by
          unfold ULog.commandAck
          split
          · exact ⟨.refl _, .refl _⟩
          · split
            · exact ⟨⟨rfl, rfl, id⟩, ⟨rfl, rfl, rfl, rfl, rfl, rfl, rfl, rfl, id, id⟩⟩
            · exact ⟨⟨rfl, rfl, id⟩, ⟨rfl, rfl, rfl, rfl, rfl, rfl, rfl, rfl, id, id⟩⟩
        exact ⟨this.1, fun y hy => ⟨y, rfl, hy.trans this.2⟩⟩
      · rename_i h77
        have hd : m.msgId = 266 ∨ m.msgId = 267 := by
          by_cases h1 : m.msgId = 266
          · exact .inl h1
          · by_cases h2 : m.msgId = 267
            · exact .inr h2
            · exact absurd ⟨h77, h2, h1⟩ hid
        rw [if_pos hd]
        have ha : BaseKept u (u.acknowledge env m) ∧ SameLog u (u.acknowledge env m) := by
          unfold ULog.acknowledge
          split
          · exact ⟨⟨rfl, rfl, id⟩, ⟨rfl, rfl, rfl, rfl, rfl, rfl, rfl, rfl, id, id⟩⟩
          · exact ⟨.refl _, .refl _⟩
        cases hp : (u.acknowledge env m).process env (m.pkt env) with
        | none => rw [hp] at h; cases h
        | some r =>
          obtain ⟨c, q⟩ := r
          rw [hp] at h
          cases h
          rcases process_cases hp with h1 | ⟨h1, h2⟩
          · left
            rw [← ha.1.1]
            exact h1
          · right
            refine ⟨(ha.1.trans h1).trans ⟨rfl, rfl, id⟩, fun y hy => ?_⟩
            obtain ⟨x, hx, hs⟩ := h2 y (hy.trans ha.2)
            exact ⟨x, by simp only [ULog.processAll, hx], hs.trans ⟨rfl, rfl, rfl, rfl, rfl, rfl, rfl, rfl, id, id⟩⟩

open Spec (dataPkts)

/-- One event: the log is over, or its data packet is processed. -/
theorem step_log {env : LogEnv} (ht : env.tbl 266 ≠ none ∧ env.tbl 267 ≠ none) {N : Nat} {u w : ULog} {ev : ULogEv}
    (h : u.step env ev = some w) (hN : N ≤ u.base.nstart) : LogOver N w ∨ LogStep env (dataPkts env [ev]) u w := by
  cases ev with
  | startTimeout =>
    right
    simp only [ULog.step, Option.some.injEq] at h
    rw [← h]
    unfold ULog.startTimeout
    split
    · exact ⟨⟨rfl, rfl, id⟩, fun y hy => ⟨y, rfl, hy.trans ⟨rfl, rfl, rfl, rfl, rfl, rfl, rfl, rfl, id, id⟩⟩⟩
    · exact ⟨.refl _, fun y hy => ⟨y, rfl, hy⟩⟩
  | stop =>
    left
    obtain ⟨h1, h2, _⟩ := stop_base h
    exact .inr ⟨h1, by rw [h2]; exact hN⟩
  | aliveTimeout =>
    simp only [ULog.step] at h
    unfold ULog.aliveTimeout at h
    split at h
    · cases hr : (if u.base.toTotal = u.base.wrTotal then u.restart env else some u) with
      | none => rw [hr] at h; cases h
      | some x =>
        rw [hr] at h
        simp only [Option.map_some, Option.some.injEq] at h
        rw [← h]
        split at hr
        · left
          have := restart_base hr
          exact .inl (by simp only []; omega)
        · cases hr
          exact .inr ⟨⟨rfl, rfl, id⟩, fun y hy => ⟨y, rfl, hy.trans ⟨rfl, rfl, rfl, rfl, rfl, rfl, rfl, rfl, id, id⟩⟩⟩
    · cases h
      exact .inr ⟨.refl _, fun y hy => ⟨y, rfl, hy⟩⟩
  | msg m =>
    simp only [ULog.step, Option.map_eq_some_iff] at h
    obtain ⟨⟨w', out⟩, h, rfl⟩ := h
    unfold ULog.writeMsg at h
    have hl : BaseKept u { u with base := u.base.learnTarget m } ∧ SameLog u { u with base := u.base.learnTarget m } := by
      unfold LogBase.learnTarget
      split
      · exact ⟨⟨rfl, rfl, id⟩, ⟨rfl, rfl, rfl, rfl, rfl, rfl, rfl, rfl, id, id⟩⟩
      · exact ⟨.refl _, .refl _⟩
    revert h hl
    generalize ({ u with base := u.base.learnTarget m } : ULog) = u1
    intro h hl
    cases ha : ULog.auto env u1 m with
    | none => rw [ha] at h; cases h
    | some a =>
      rw [ha] at h
      simp only [] at h
      have hover : LogOver N a → LogOver N w' := by
        intro ho
        rcases write_rest ht h with h1 | ⟨h1, _⟩
        · left
          rcases ho with ho | ⟨_, ho⟩ <;> omega
        · exact ho.kept h1
      have hstarted : u1.base.file = none → (u1.start env).1.base.nstart = u1.base.nstart + 1 := fun hf => start_base env hf
      unfold ULog.auto at ha
      have hN1 : N ≤ u1.base.nstart := by rw [hl.1.1]; exact hN
      cases hact : u1.base.autoAct env m with
      | nothing =>
        rw [hact] at ha
        cases ha
        rcases write_rest ht h with h1 | ⟨h1, h2⟩
        · exact .inl (.inl (by show N < w'.base.nstart; omega))
        · right
          refine ⟨hl.1.trans h1, fun y hy => ?_⟩
          obtain ⟨x, hx, hs⟩ := h2 y (hy.trans hl.2)
          refine ⟨x, ?_, hs⟩
          simpa only [dataPkts, List.append_nil] using hx
      | start =>
        rw [hact] at ha
        simp only [] at ha
        have hf : u1.base.file = none := by
          unfold LogBase.autoAct at hact
          split at hact
          · cases hact
          · split at hact
            · split at hact
              · assumption
              · cases hact
            · split at hact
              · split at hact
                · rename_i hx; exact hx.1
                · split at hact <;> cases hact
              · cases hact
            · cases hact
        have h1 := hstarted hf
        refine .inl (hover (.inl ?_))
        cases hs : u1.start env with
        | mk c ok =>
          rw [hs] at ha h1
          cases ok <;> (cases ha; simp only [] at h1 ⊢; omega)
      | stop =>
        rw [hact] at ha
        obtain ⟨h1, h2, _⟩ := stop_base ha
        exact .inl (hover (.inr ⟨h1, by rw [h2]; exact hN1⟩))

theorem processAll_append (env : LogEnv) : ∀ (ps qs : List Pkt) (u : ULog),
    u.processAll env (ps ++ qs) = match u.processAll env ps with | none => none | some v => v.processAll env qs
  | [], qs, u => rfl
  | p :: ps, qs, u => by
    simp only [List.cons_append, ULog.processAll]
    cases u.process env p with
    | none => rfl
    | some x => exact processAll_append env ps qs x.1

theorem dataPkts_cons (env : LogEnv) (ev : ULogEv) (evs : List ULogEv) : dataPkts env (ev :: evs) = dataPkts env [ev] ++ dataPkts env evs := by
  cases ev <;> simp [dataPkts]

theorem over_run {env : LogEnv} (ht : env.tbl 266 ≠ none ∧ env.tbl 267 ≠ none) {N : Nat} : ∀ (evs : List ULogEv) {u w : ULog},
    u.run env evs = some w → LogOver N u → LogOver N w
  | [], u, w, h, ho => by cases h; exact ho
  | ev :: evs, u, w, h, ho => by
    simp only [ULog.run] at h
    cases hs : u.step env ev with
    | none => rw [hs] at h; cases h
    | some v =>
      rw [hs] at h
      refine over_run ht evs h ?_
      rcases step_log ht hs (N := N) (by rcases ho with ho | ⟨_, ho⟩ <;> omega) with h1 | h1
      · exact h1
      · exact ho.kept h1.1

/-- As long as the log is not over, its content is that of the data packets processed one after the other. -/
theorem run_log {env : LogEnv} (ht : env.tbl 266 ≠ none ∧ env.tbl 267 ≠ none) {N : Nat} : ∀ (evs : List ULogEv) {u w y : ULog},
    u.run env evs = some w → N ≤ u.base.nstart → ¬LogOver N w → SameLog y u →
    w.base.done = u.base.done ∧ ∃ x, y.processAll env (dataPkts env evs) = some x ∧ SameLog x w
  | [], u, w, y, h, _, _, hy => by cases h; exact ⟨rfl, y, rfl, hy⟩
  | ev :: evs, u, w, y, h, hN, ho, hy => by
    simp only [ULog.run] at h
    cases hs : u.step env ev with
    | none => rw [hs] at h; cases h
    | some v =>
      rw [hs] at h
      simp only [] at h
      rcases step_log ht hs hN with h1 | ⟨h1, h2⟩
      · exact absurd (over_run ht evs h h1) ho
      · obtain ⟨x, hx, hxs⟩ := h2 y hy
        obtain ⟨hd, x', hx', hxs'⟩ := run_log ht evs h (N := N) (by rw [h1.1]; exact hN) ho hxs
        refine ⟨hd.trans h1.2.1, x', ?_, hxs'⟩
        rw [dataPkts_cons, processAll_append, hx]
        exact hx'

end Verif
