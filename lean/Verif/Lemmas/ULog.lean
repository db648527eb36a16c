/- Flushing of the ULog buffers: what is written, what stays pending. -/
import Verif.Spec.ULog

namespace Verif

open Spec (WholeMsg ULogFile dist Polite PoliteHeader Carries Arrivals)

/-! ## Sequence numbers -/

theorem dist_lt (a b : UInt16) : dist a b < 65536 := Nat.mod_lt _ (by omega)

theorem logSeq_iff (exp seq : UInt16) :
    (logSeq exp seq = none ∨ logSeq exp seq = some (exp != seq, seq + 1)) ∧
    (logSeq exp seq = none ↔
      if exp.toNat ≤ seq.toNat then 32768 ≤ dist exp seq else 32770 ≤ dist exp seq) := by
  have he := exp.toNat_lt
  have hs := seq.toNat_lt
  unfold logSeq dist
  by_cases h1 : exp = seq
  · subst h1
    simp
  · have hne : exp.toNat ≠ seq.toNat := fun h => h1 (UInt16.toNat_inj.1 h)
    rw [if_neg h1]
    by_cases h2 : seq > exp
    · have h2' : exp.toNat < seq.toNat := UInt16.lt_iff_toNat_lt.1 h2
      have hsub : (seq - exp).toNat = seq.toNat - exp.toNat :=
        UInt16.toNat_sub_of_le _ _ (UInt16.le_iff_toNat_le.2 (by omega))
      rw [if_pos h2]
      by_cases h3 : seq - exp > 32767
      · have : 32767 < (seq - exp).toNat := UInt16.lt_iff_toNat_lt.1 h3
        simp only [if_pos h3]
        refine ⟨.inl trivial, ?_⟩
        simp only [true_iff]
        split <;> omega
      · have : ¬(32767 < (seq - exp).toNat) := fun h => h3 (UInt16.lt_iff_toNat_lt.2 h)
        simp only [if_neg h3]
        refine ⟨.inr (by simp [bne, h1]), ?_⟩
        simp only [reduceCtorEq, false_iff]
        split <;> omega
    · have h2' : ¬(exp.toNat < seq.toNat) := fun h => h2 (UInt16.lt_iff_toNat_lt.2 h)
      have hsub : (exp - seq).toNat = exp.toNat - seq.toNat :=
        UInt16.toNat_sub_of_le _ _ (UInt16.le_iff_toNat_le.2 (by omega))
      rw [if_neg h2]
      by_cases h3 : exp - seq < 32767
      · have : (exp - seq).toNat < 32767 := UInt16.lt_iff_toNat_lt.1 h3
        simp only [if_pos h3]
        refine ⟨.inl trivial, ?_⟩
        simp only [true_iff]
        split <;> omega
      · have : ¬((exp - seq).toNat < 32767) := fun h => h3 (UInt16.lt_iff_toNat_lt.2 h)
        simp only [if_neg h3]
        refine ⟨.inr (by simp [bne, h1]), ?_⟩
        simp only [reduceCtorEq, false_iff]
        split <;> omega

/-! ## Writing -/

theorem write_spec (env : LogEnv) (b b' : LogBase) (bs : List UInt8) (r : WOut)
    (h : b.write env bs = (b', r)) :
    (∃ f n, b' = { b with file := f, nwrite := n }) ∧ (b.file = none → b' = b ∧ r = .err) ∧
    (∀ k, r = .wrote k → k ≤ bs.length ∧ ∃ c, b.file = some c ∧ b'.file = some (c ++ bs.take k)) ∧
    ((∀ k, r ≠ .wrote k) → b'.file = b.file) := by
  unfold LogBase.write at h
  cases hf : b.file with
  | none =>
    rw [hf] at h
    simp only [Prod.mk.injEq] at h
    obtain ⟨rfl, rfl⟩ := h
    exact ⟨⟨b.file, b.nwrite, rfl⟩, fun _ => ⟨rfl, rfl⟩, fun k hk => by simp at hk, fun _ => by rw [hf]⟩
  | some c =>
    rw [hf] at h
    simp only at h
    cases hw : env.wr b.nwrite with
    | n k =>
      rw [hw] at h
      simp only [Prod.mk.injEq] at h
      obtain ⟨rfl, rfl⟩ := h
      refine ⟨⟨_, _, rfl⟩, (fun hc => by cases hc), ?_, ?_⟩
      · intro k' hk'
        simp only [WOut.wrote.injEq] at hk'
        subst hk'
        refine ⟨by omega, c, rfl, ?_⟩
        simp [← List.take_take]
      · intro hc
        exact absurd rfl (hc _)
    | again =>
      rw [hw] at h
      simp only [Prod.mk.injEq] at h
      obtain ⟨rfl, rfl⟩ := h
      exact ⟨⟨b.file, _, by rw [hf]⟩, (fun hc => by cases hc), fun k hk => by simp at hk,
        fun _ => rfl⟩
    | err =>
      rw [hw] at h
      simp only [Prod.mk.injEq] at h
      obtain ⟨rfl, rfl⟩ := h
      exact ⟨⟨b.file, _, by rw [hf]⟩, (fun hc => by cases hc), fun k hk => by simp at hk,
        fun _ => rfl⟩

theorem flushPart_spec (env : LogEnv) (fuel : Nat) (b b' : LogBase) (p p' : List UInt8)
    (r : PartRes) (hfuel : p.length ≤ fuel) (h : flushPart env fuel b p = (b', p', r)) :
    (∃ f n, b' = { b with file := f, nwrite := n }) ∧ (b.file = none → b'.file = none) ∧
    (∀ c, b.file = some c → ∃ c', b'.file = some c' ∧ c' ++ p' = c ++ p) ∧
    p'.length ≤ p.length ∧ (r = .empty → p' = []) := by
  induction fuel generalizing b p with
  | zero =>
    have : p = [] := List.eq_nil_of_length_eq_zero (by omega)
    subst this
    simp only [flushPart, Prod.mk.injEq] at h
    obtain ⟨rfl, rfl, rfl⟩ := h
    exact ⟨⟨b.file, b.nwrite, rfl⟩, fun h => h, fun c hc => ⟨c, hc, rfl⟩, by simp, fun _ => rfl⟩
  | succ fuel ih =>
    cases p with
    | nil =>
      simp only [flushPart, Prod.mk.injEq] at h
      obtain ⟨rfl, rfl, rfl⟩ := h
      exact ⟨⟨b.file, b.nwrite, rfl⟩, fun h => h, fun c hc => ⟨c, hc, rfl⟩, by simp, fun _ => rfl⟩
    | cons x p =>
      simp only [flushPart] at h
      cases hw : b.write env (x :: p) with
      | mk b1 w =>
        rw [hw] at h
        obtain ⟨⟨f, n, hb⟩, hnone, hwrote, hno⟩ := write_spec env b b1 (x :: p) w hw
        cases w with
        | again =>
          simp only [Prod.mk.injEq] at h
          obtain ⟨rfl, rfl, rfl⟩ := h
          have := hno (by simp)
          exact ⟨⟨f, n, hb⟩, fun h => by rw [this, h], fun c hc => ⟨c, by rw [this, hc], rfl⟩,
            Nat.le_refl _, fun h => by cases h⟩
        | err =>
          simp only [Prod.mk.injEq] at h
          obtain ⟨rfl, rfl, rfl⟩ := h
          have := hno (by simp)
          exact ⟨⟨f, n, hb⟩, fun h => by rw [this, h], fun c hc => ⟨c, by rw [this, hc], rfl⟩,
            Nat.le_refl _, fun h => by cases h⟩
        | wrote k =>
          obtain ⟨hk, c, hc, hc'⟩ := hwrote k rfl
          cases k with
          | zero =>
            simp only [Prod.mk.injEq] at h
            obtain ⟨rfl, rfl, rfl⟩ := h
            simp only [List.take_zero, List.append_nil] at hc'
            refine ⟨⟨f, n, hb⟩, (fun h => by rw [hc] at h; cases h), fun c2 hc2 => ⟨c, hc', ?_⟩,
              Nat.le_refl _, fun h => by cases h⟩
            rw [hc] at hc2
            cases hc2
            rfl
          | succ k =>
            simp only at h
            obtain ⟨⟨f2, n2, hb2⟩, _, h3, h4, h5⟩ := ih b1 ((x :: p).drop (k + 1))
              (by simp at hfuel ⊢; omega) h
            refine ⟨⟨f2, n2, by rw [hb2, hb]⟩, (fun h => by rw [hc] at h; cases h), ?_, ?_, h5⟩
            · intro c2 hc2
              rw [hc] at hc2
              cases hc2
              obtain ⟨c', h6, h7⟩ := h3 _ hc'
              refine ⟨c', h6, ?_⟩
              rw [h7, List.append_assoc, List.take_append_drop]
            · refine Nat.le_trans h4 ?_
              simp
              omega

/-- What a flush may change. -/
structure FlushRel (u u' : ULog) : Prop where
  base : ∃ f n, u'.base = { u.base with file := f, nwrite := n }
  none : u.base.file = none → u'.base.file = none
  expSeq : u'.expSeq = u.expSeq
  waitHdr : u'.waitHdr = u.waitHdr
  waitFirst : u'.waitFirst = u.waitFirst
  oob : u'.oob = u.oob
  oobWrite : u'.oobWrite = u.oobWrite
  cut : u'.cut = u.cut
  dropped : u'.dropped = u.dropped
  wrapped : u.wrapped = true → u'.wrapped = true
  lost : u.lost = true → u'.lost = true
  idx : u'.idx + u'.pend.length = u.idx + u.pend.length
  part : u'.part.length ≤ max u.part.length ulogPart
  suffix : ∃ pre, u.pend = pre ++ u'.pend
  data : u'.wrapped = false → u'.lost = false → ∃ msgs : List (List UInt8),
    (∀ m ∈ msgs, WholeMsg m) ∧ u.pend = msgs.flatten ++ u'.pend ∧
    ∀ c, u.base.file = some c → ∃ c', u'.base.file = some c' ∧
      c' ++ u'.part = c ++ u.part ++ msgs.flatten

theorem false_of_mono {a b : Bool} (h : a = true → b = true) (hb : b = false) : a = false := by
  cases a with
  | false => rfl
  | true => rw [h rfl] at hb; cases hb

theorem FlushRel.refl (u : ULog) : FlushRel u u where
  base := ⟨u.base.file, u.base.nwrite, rfl⟩
  none := fun h => h
  expSeq := rfl
  waitHdr := rfl
  waitFirst := rfl
  oob := rfl
  oobWrite := rfl
  cut := rfl
  dropped := rfl
  wrapped := fun h => h
  lost := fun h => h
  idx := rfl
  part := Nat.le_max_left _ _
  suffix := ⟨[], rfl⟩
  data := fun _ _ => ⟨[], by simp, by simp, fun c hc => ⟨c, hc, by simp⟩⟩

theorem FlushRel.trans {u v w : ULog} (h1 : FlushRel u v) (h2 : FlushRel v w) : FlushRel u w where
  base := by
    obtain ⟨f, n, e1⟩ := h1.base
    obtain ⟨f', n', e2⟩ := h2.base
    exact ⟨f', n', by rw [e2, e1]⟩
  none := fun h => h2.none (h1.none h)
  expSeq := h2.expSeq.trans h1.expSeq
  waitHdr := h2.waitHdr.trans h1.waitHdr
  waitFirst := h2.waitFirst.trans h1.waitFirst
  oob := h2.oob.trans h1.oob
  oobWrite := h2.oobWrite.trans h1.oobWrite
  cut := h2.cut.trans h1.cut
  dropped := h2.dropped.trans h1.dropped
  wrapped := fun h => h2.wrapped (h1.wrapped h)
  lost := fun h => h2.lost (h1.lost h)
  idx := h2.idx.trans h1.idx
  part := by
    have a := h1.part
    have b := h2.part
    omega
  suffix := by
    obtain ⟨p, hp⟩ := h1.suffix
    obtain ⟨q, hq⟩ := h2.suffix
    exact ⟨p ++ q, by rw [hp, hq, List.append_assoc]⟩
  data := by
    intro hw hl
    obtain ⟨m1, a1, b1, c1⟩ := h1.data (false_of_mono h2.wrapped hw) (false_of_mono h2.lost hl)
    obtain ⟨m2, a2, b2, c2⟩ := h2.data hw hl
    refine ⟨m1 ++ m2, ?_, ?_, ?_⟩
    · intro m hm
      rcases List.mem_append.1 hm with hm | hm
      · exact a1 m hm
      · exact a2 m hm
    · rw [b1, b2, List.flatten_append, List.append_assoc]
    · intro c hc
      obtain ⟨c', e1, e2⟩ := c1 c hc
      obtain ⟨c'', e3, e4⟩ := c2 c' e1
      exact ⟨c'', e3, by rw [e4, e2, List.flatten_append, List.append_assoc]⟩

/-- A message whose announced size is completely present is a whole message. -/
theorem whole_of_size {p : List UInt8} (h3 : 3 ≤ p.length) (hw : sizeWraps p = false)
    (hfull : fullSize p ≤ p.length) : WholeMsg (p.take (fullSize p)) := by
  cases p with
  | nil => simp at h3
  | cons lo p =>
    cases p with
    | nil => simp at h3
    | cons hi p =>
      cases p with
      | nil => simp at h3
      | cons ty p =>
        simp only [sizeWraps, ge_iff_le, decide_eq_false_iff_not, Nat.not_le] at hw
        have hs : fullSize (lo :: hi :: ty :: p) = lo.toNat + 256 * hi.toNat + 3 := by
          simp only [fullSize]
          exact Nat.mod_eq_of_lt hw
        rw [hs] at hfull ⊢
        refine ⟨lo, hi, ty, p.take (lo.toNat + 256 * hi.toNat), by simp [List.take_succ_cons], ?_⟩
        rw [List.length_take]
        simp only [List.length_cons] at hfull
        omega

theorem flushBuf_spec (env : LogEnv) (fuel : Nat) (u u' : ULog) (r : Bool)
    (h : flushBuf env fuel u = some (u', r)) : FlushRel u u' := by
  induction fuel generalizing u with
  | zero =>
    simp only [flushBuf, Option.some.injEq, Prod.mk.injEq] at h
    rw [← h.1]
    exact FlushRel.refl u
  | succ fuel ih =>
    simp only [flushBuf] at h
    split at h
    · simp only [Option.some.injEq, Prod.mk.injEq] at h
      rw [← h.1]
      exact FlushRel.refl u
    · rename_i hgo
      have hlen : 3 ≤ u.pend.length := by
        by_cases hc : u.pend.length < 3
        · exact absurd (.inl hc) hgo
        · omega
      have hpart : u.part = [] := by
        by_cases hc : u.part = []
        · exact hc
        · exact absurd (.inr hc) hgo
      -- only the bookkeeping flag changes
      have hflag : FlushRel u { u with wrapped := u.wrapped || sizeWraps u.pend } := {
        base := ⟨u.base.file, u.base.nwrite, rfl⟩
        none := fun h => h
        expSeq := rfl
        waitHdr := rfl
        waitFirst := rfl
        oob := rfl
        oobWrite := rfl
        cut := rfl
        dropped := rfl
        wrapped := fun h => by simp [h]
        lost := fun h => h
        idx := rfl
        part := Nat.le_max_left _ _
        suffix := ⟨[], rfl⟩
        data := fun _ _ => ⟨[], by simp, by simp, fun c hc => ⟨c, hc, by simp⟩⟩ }
      split at h
      · simp only [Option.some.injEq, Prod.mk.injEq] at h
        rw [← h.1]
        exact hflag
      · rename_i hfull
        have hfull' : fullSize u.pend ≤ u.pend.length := by omega
        cases hw : u.base.write env (u.pend.take (fullSize u.pend)) with
        | mk b w =>
          simp only [hw] at h
          obtain ⟨⟨f, n, hb⟩, hnone, hwrote, hno⟩ := write_spec env u.base b _ w hw
          cases w with
          | again =>
            simp only [Option.some.injEq, Prod.mk.injEq] at h
            rw [← h.1]
            have := hno (by simp)
            refine hflag.trans ?_
            exact {
              base := ⟨f, n, hb⟩
              none := fun h => by show b.file = Option.none; rw [this]; exact h
              expSeq := rfl
              waitHdr := rfl
              waitFirst := rfl
              oob := rfl
              oobWrite := rfl
              cut := rfl
              dropped := rfl
              wrapped := fun h => h
              lost := fun h => h
              idx := rfl
              part := Nat.le_max_left _ _
              suffix := ⟨[], rfl⟩
              data := fun _ _ => ⟨[], by simp, by simp,
                fun c hc => ⟨c, by show b.file = _; rw [this]; exact hc, by simp⟩⟩ }
          | err =>
            simp only [Option.some.injEq, Prod.mk.injEq] at h
            rw [← h.1]
            have := hno (by simp)
            refine hflag.trans ?_
            exact {
              base := ⟨f, n, hb⟩
              none := fun h => by show b.file = Option.none; rw [this]; exact h
              expSeq := rfl
              waitHdr := rfl
              waitFirst := rfl
              oob := rfl
              oobWrite := rfl
              cut := rfl
              dropped := rfl
              wrapped := fun h => h
              lost := fun h => h
              idx := rfl
              part := Nat.le_max_left _ _
              suffix := ⟨[], rfl⟩
              data := fun _ _ => ⟨[], by simp, by simp,
                fun c hc => ⟨c, by show b.file = _; rw [this]; exact hc, by simp⟩⟩ }
          | wrote k =>
            obtain ⟨hk, c, hc, hc'⟩ := hwrote k rfl
            rw [List.length_take, Nat.min_eq_left hfull'] at hk
            simp only at h
            split at h
            · rename_i hkf
              split at h
              · cases h
              · rename_i hf0
                refine FlushRel.trans ?_ (ih _ h)
                exact {
                  base := ⟨f, n, hb⟩
                  none := fun h => by rw [hc] at h; cases h
                  expSeq := rfl
                  waitHdr := rfl
                  waitFirst := rfl
                  oob := rfl
                  oobWrite := rfl
                  cut := rfl
                  dropped := rfl
                  wrapped := fun h => by simp [h]
                  lost := fun h => h
                  idx := by
                    show u.idx + fullSize u.pend + (u.pend.drop (fullSize u.pend)).length = _
                    rw [List.length_drop]
                    omega
                  part := Nat.le_max_left _ _
                  suffix := ⟨u.pend.take (fullSize u.pend), by simp⟩
                  data := by
                    intro hwr _
                    simp only [Bool.or_eq_false_iff] at hwr
                    refine ⟨[u.pend.take (fullSize u.pend)], ?_, by simp, ?_⟩
                    · intro m hm
                      simp only [List.mem_singleton] at hm
                      subst hm
                      exact whole_of_size hlen hwr.2 hfull'
                    · intro c2 hc2
                      rw [hc] at hc2
                      cases hc2
                      refine ⟨_, hc', ?_⟩
                      show c ++ (u.pend.take (fullSize u.pend)).take k ++ u.part = _
                      rw [hkf, List.take_take, Nat.min_self, hpart]
                      simp }
            · rename_i hkf
              split at h
              · rename_i hk0
                simp only [Option.some.injEq, Prod.mk.injEq] at h
                rw [← h.1]
                refine hflag.trans ?_
                subst hk0
                simp only [List.take_zero, List.append_nil] at hc'
                exact {
                  base := ⟨f, n, hb⟩
                  none := fun h => by
                    have h' : u.base.file = Option.none := h
                    rw [hc] at h'; cases h'
                  expSeq := rfl
                  waitHdr := rfl
                  waitFirst := rfl
                  oob := rfl
                  oobWrite := rfl
                  cut := rfl
                  dropped := rfl
                  wrapped := fun h => h
                  lost := fun h => h
                  idx := rfl
                  part := Nat.le_max_left _ _
                  suffix := ⟨[], rfl⟩
                  data := fun _ _ => ⟨[], by simp, by simp, fun c2 hc2 => by
                    have h' : u.base.file = some c2 := hc2
                    rw [hc] at h'
                    cases h'
                    exact ⟨c, hc', by simp⟩⟩ }
              · split at h
                · rename_i hbig
                  simp only [Option.some.injEq, Prod.mk.injEq] at h
                  rw [← h.1]
                  exact {
                    base := ⟨f, n, hb⟩
                    none := fun h => by rw [hc] at h; cases h
                    expSeq := rfl
                    waitHdr := rfl
                    waitFirst := rfl
                    oob := rfl
                    oobWrite := rfl
                    cut := rfl
                    dropped := rfl
                    wrapped := fun h => by simp [h]
                    lost := fun _ => rfl
                    idx := rfl
                    part := by simp
                    suffix := ⟨[], rfl⟩
                    data := fun _ hl => by cases hl }
                · rename_i hbig
                  simp only [Option.some.injEq, Prod.mk.injEq] at h
                  rw [← h.1]
                  exact {
                    base := ⟨f, n, hb⟩
                    none := fun h => by rw [hc] at h; cases h
                    expSeq := rfl
                    waitHdr := rfl
                    waitFirst := rfl
                    oob := rfl
                    oobWrite := rfl
                    cut := rfl
                    dropped := rfl
                    wrapped := fun h => by simp [h]
                    lost := fun h => h
                    idx := by
                      show u.idx + fullSize u.pend + (u.pend.drop (fullSize u.pend)).length = _
                      rw [List.length_drop]
                      omega
                    part := by
                      show ((u.pend.take (fullSize u.pend)).drop k).length ≤ _
                      rw [List.length_drop, List.length_take]
                      omega
                    suffix := ⟨u.pend.take (fullSize u.pend), by simp⟩
                    data := by
                      intro hwr _
                      simp only [Bool.or_eq_false_iff] at hwr
                      refine ⟨[u.pend.take (fullSize u.pend)], ?_, by simp, ?_⟩
                      · intro m hm
                        simp only [List.mem_singleton] at hm
                        subst hm
                        exact whole_of_size hlen hwr.2 hfull'
                      · intro c2 hc2
                        rw [hc] at hc2
                        cases hc2
                        refine ⟨_, hc', ?_⟩
                        show c ++ (u.pend.take (fullSize u.pend)).take k ++
                          (u.pend.take (fullSize u.pend)).drop k = _
                        rw [List.append_assoc, List.take_append_drop, hpart]
                        simp }

theorem flush_spec (env : LogEnv) (u u' : ULog) (r : Bool) (h : u.flush env = some (u', r)) :
    FlushRel u u' := by
  unfold ULog.flush at h
  cases hp : flushPart env u.part.length u.base u.part with
  | mk b q =>
    obtain ⟨p, st⟩ := q
    rw [hp] at h
    obtain ⟨⟨f, n, hb⟩, hn, hc, hl, he⟩ := flushPart_spec env _ _ _ _ _ _ (Nat.le_refl _) hp
    have hrel : FlushRel u { u with base := b, part := p } := {
      base := ⟨f, n, hb⟩
      none := hn
      expSeq := rfl
      waitHdr := rfl
      waitFirst := rfl
      oob := rfl
      oobWrite := rfl
      cut := rfl
      dropped := rfl
      wrapped := fun h => h
      lost := fun h => h
      idx := rfl
      part := by
        show p.length ≤ _
        omega
      suffix := ⟨[], rfl⟩
      data := fun _ _ => ⟨[], by simp, by simp, fun c hcf => by
        obtain ⟨c', h1, h2⟩ := hc c hcf
        exact ⟨c', h1, by simpa using h2⟩⟩ }
    cases st with
    | empty => exact hrel.trans (flushBuf_spec env _ _ _ _ h)
    | wait =>
      simp only [Option.some.injEq, Prod.mk.injEq] at h
      rw [← h.1]
      exact hrel
    | fail =>
      simp only [Option.some.injEq, Prod.mk.injEq] at h
      rw [← h.1]
      exact hrel

/-- A flush that does not return has met the size field 0xFFFD. -/
theorem flushBuf_none (env : LogEnv) (fuel : Nat) (u : ULog) (h : flushBuf env fuel u = none) :
    ∃ pre rest, u.pend = pre ++ 0xFD :: 0xFF :: rest := by
  induction fuel generalizing u with
  | zero => simp [flushBuf] at h
  | succ fuel ih =>
    simp only [flushBuf] at h
    split at h
    · cases h
    · rename_i hgo
      have hlen : 3 ≤ u.pend.length := by
        by_cases hc : u.pend.length < 3
        · exact absurd (.inl hc) hgo
        · omega
      split at h
      · cases h
      · cases hw : u.base.write env (u.pend.take (fullSize u.pend)) with
        | mk b w =>
          simp only [hw] at h
          cases w with
          | again => cases h
          | err => cases h
          | wrote k =>
            simp only at h
            split at h
            · split at h
              · rename_i hf0
                match hp : u.pend, hlen with
                | lo :: hi :: ty :: rest, _ =>
                  rw [hp] at hf0
                  simp only [fullSize] at hf0
                  have h1 := lo.toNat_lt
                  have h2 := hi.toNat_lt
                  have e1 : lo.toNat = 253 := by omega
                  have e2 : hi.toNat = 255 := by omega
                  have e1' : lo = 0xFD := UInt8.toNat_inj.1 e1
                  have e2' : hi = 0xFF := UInt8.toNat_inj.1 e2
                  exact ⟨[], ty :: rest, by rw [e1', e2']; rfl⟩
              · obtain ⟨pre, rest, hq⟩ := ih _ h
                refine ⟨u.pend.take (fullSize u.pend) ++ pre, rest, ?_⟩
                rw [List.append_assoc, ← hq, List.take_append_drop]
            · split at h
              · cases h
              · split at h <;> cases h

theorem flush_none (env : LogEnv) (u : ULog) (h : u.flush env = none) :
    ∃ pre rest, u.pend = pre ++ 0xFD :: 0xFF :: rest := by
  unfold ULog.flush at h
  cases hp : flushPart env u.part.length u.base u.part with
  | mk b q =>
    obtain ⟨p, st⟩ := q
    rw [hp] at h
    cases st with
    | empty =>
      obtain ⟨pre, rest, hq⟩ := flushBuf_none env (u.pend.length + 1) { u with base := b, part := p } h
      exact ⟨pre, rest, hq⟩
    | wait => cases h
    | fail => cases h

end Verif
