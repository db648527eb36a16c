/- Sequence tracking over histories, termination, verbatim storage of ULog streams. -/
import Verif.Lemmas.ULogHist

namespace Verif

open Spec (WholeMsg ULogFile dist Polite PoliteHeader Carries Arrivals fresh InWindow WritesAll
  Progress HasFDFF Started Cut)

/-! ## Sequence numbers -/

theorem dist_ofNat (a b : Nat) : dist (UInt16.ofNat a) (UInt16.ofNat b) =
    (b % 65536 + 65536 - a % 65536) % 65536 := by
  simp [dist, UInt16.toNat_ofNat']

theorem logSeq_ahead {a b : Nat} (h1 : a ≤ b) (h2 : b ≤ a + 32766) :
    ∃ d, logSeq (UInt16.ofNat a) (UInt16.ofNat b) = some (d, UInt16.ofNat b + 1) := by
  obtain ⟨h3, h4⟩ := logSeq_iff (UInt16.ofNat a) (UInt16.ofNat b)
  rcases h3 with h3 | h3
  · exfalso
    have h5 := h4.1 h3
    rw [dist_ofNat] at h5
    split at h5 <;> omega
  · exact ⟨_, h3⟩

theorem logSeq_behind {a b : Nat} (h1 : b < a) (h2 : a ≤ b + 32766) :
    logSeq (UInt16.ofNat a) (UInt16.ofNat b) = none := by
  obtain ⟨_, h4⟩ := logSeq_iff (UInt16.ofNat a) (UInt16.ofNat b)
  refine h4.2 ?_
  rw [dist_ofNat]
  split <;> omega

theorem ofNat_succ16 (n : Nat) : UInt16.ofNat n + 1 = UInt16.ofNat (n + 1) := by
  apply UInt16.toNat_inj.1
  simp [UInt16.toNat_add, UInt16.toNat_ofNat']

theorem afterLoss_keeps {env : LogEnv} {u v : ULog} {drops : Bool}
    (r : u.afterLoss env drops = some v) : v.expSeq = u.expSeq ∧ v.waitHdr = u.waitHdr := by
  rcases afterLoss_spec env u v drops r with ⟨_, rfl⟩ | ⟨_, w, hr, rfl⟩
  · exact ⟨rfl, rfl⟩
  · exact ⟨hr.expSeq, hr.waitHdr⟩

theorem append_keeps {env : LogEnv} {u u' : ULog} {p q : Pkt} {drops : Bool}
    (r : u.append env p drops = some (u', q)) :
    u'.expSeq = u.expSeq ∧ u'.waitHdr = u.waitHdr := by
  unfold ULog.append at r
  cases ha : u.afterLoss env drops with
  | none => rw [ha] at r; cases r
  | some v =>
    rw [ha] at r
    simp only at r
    have h1 := afterLoss_keeps ha
    have h2 : (v.makeRoom p.length.toNat).expSeq = v.expSeq ∧
        (v.makeRoom p.length.toNat).waitHdr = v.waitHdr := by
      rcases (makeRoom_spec v p.length.toNat).1 with ⟨e, _⟩ | ⟨e, _⟩ <;> rw [e] <;> exact ⟨rfl, rfl⟩
    have h3 : u'.expSeq = (v.makeRoom p.length.toNat).expSeq ∧
        u'.waitHdr = (v.makeRoom p.length.toNat).waitHdr := by
      rcases store_spec env _ u' p q r with ⟨_, _, rfl⟩ | ⟨_, rfl⟩ | ⟨hn, hl, hr⟩
      · exact ⟨rfl, rfl⟩
      · exact ⟨rfl, rfl⟩
      · exact ⟨hr.expSeq, hr.waitHdr⟩
    exact ⟨by rw [h3.1, h2.1, h1.1], by rw [h3.2, h2.2, h1.2]⟩

/-- Packets already seen have no effect at all: a history has the same result as the history of
the new packets in it. -/
theorem processAll_fresh (env : LogEnv) (ps : List (Nat × Pkt)) (next : Nat) (u : ULog)
    (hseq : ∀ x ∈ ps, x.2.seq = UInt16.ofNat x.1) (hw : InWindow next ps)
    (hu : u.expSeq = UInt16.ofNat next) (hh : u.waitHdr = false) :
    u.processAll env (ps.map (·.2)) = u.processAll env ((fresh next ps).map (·.2)) := by
  induction ps generalizing next u with
  | nil => rfl
  | cons x ps ih =>
    obtain ⟨n, p⟩ := x
    obtain ⟨hw1, hw2, hw3⟩ := hw
    have hp : p.seq = UInt16.ofNat n := hseq (n, p) List.mem_cons_self
    have hseq' : ∀ x ∈ ps, x.2.seq = UInt16.ofNat x.1 := fun x hx =>
      hseq x (List.mem_cons_of_mem _ hx)
    by_cases hn : next ≤ n
    · simp only [fresh, if_pos hn, List.map_cons, ULog.processAll]
      rw [if_pos hn] at hw3
      cases hr : u.process env p with
      | none => rfl
      | some r =>
        obtain ⟨v, q⟩ := r
        simp only
        have hv : v.expSeq = UInt16.ofNat (n + 1) ∧ v.waitHdr = false := by
          unfold ULog.process at hr
          obtain ⟨d, hd⟩ := logSeq_ahead hn hw1
          rw [hu, hp, hd] at hr
          simp only [hh, Bool.false_eq_true, if_false] at hr
          obtain ⟨h1, h2⟩ := append_keeps hr
          exact ⟨by rw [h1, ← ofNat_succ16], by rw [h2]⟩
        exact ih (n + 1) v hseq' hw3 hv.1 hv.2
    · simp only [fresh, if_neg hn, List.map_cons, ULog.processAll]
      rw [if_neg hn] at hw3
      have hr : u.process env p = some (u, p) := by
        unfold ULog.process
        rw [hu, hp, logSeq_behind (by omega) hw2]
      rw [hr]
      exact ih next u hseq' hw3 hu hh

theorem fresh_ge (next : Nat) (ps : List (Nat × Pkt)) : ∀ x ∈ fresh next ps, next ≤ x.1 := by
  induction ps generalizing next with
  | nil => simp [fresh]
  | cons x ps ih =>
    obtain ⟨n, p⟩ := x
    intro y hy
    simp only [fresh] at hy
    split at hy
    · rcases List.mem_cons.1 hy with rfl | hy
      · assumption
      · have := ih (n + 1) y hy
        omega
    · exact ih next y hy

theorem fresh_increasing (next : Nat) (ps : List (Nat × Pkt)) :
    (fresh next ps).Pairwise (fun a b => a.1 < b.1) := by
  induction ps generalizing next with
  | nil => simp [fresh]
  | cons x ps ih =>
    obtain ⟨n, p⟩ := x
    simp only [fresh]
    split
    · refine List.Pairwise.cons ?_ (ih (n + 1))
      intro y hy
      have := fresh_ge (n + 1) ps y hy
      show n < y.1
      omega
    · exact ih next

/-! ## Termination -/

theorem store_none {env : LogEnv} {u : ULog} {p : Pkt} (h : u.store env p = none) :
    HasFDFF (u.pend ++ chunkOf u p) := by
  rw [store_eq] at h
  split at h
  · cases h
  · split at h
    · cases h
    · cases hf : (stored u p).flush env with
      | none => exact flush_none env _ hf
      | some r => rw [hf] at h; cases h

theorem append_none {env : LogEnv} {u : ULog} {p : Pkt} {drops : Bool}
    (h : u.append env p drops = none) :
    HasFDFF u.pend ∨ ∃ l i k, l <:+ u.pend ∧ HasFDFF (l ++ (p.mem.drop i).take k) := by
  unfold ULog.append at h
  cases ha : u.afterLoss env drops with
  | none =>
    left
    unfold ULog.afterLoss at ha
    split at ha
    · cases hf : u.flush env with
      | none => exact flush_none env _ hf
      | some r => rw [hf] at ha; cases ha
    · cases ha
  | some v =>
    right
    rw [ha] at h
    have hs := store_none h
    refine ⟨(v.makeRoom p.length.toNat).pend, _, _, ?_, hs⟩
    have hv : v.pend <:+ u.pend := by
      rcases afterLoss_spec env u v drops ha with ⟨_, rfl⟩ | ⟨_, w, _, rfl⟩
      · exact List.suffix_refl _
      · exact List.nil_suffix
    rcases (makeRoom_spec v p.length.toNat).1 with ⟨e, _⟩ | ⟨e, _⟩
    · rw [e]
      exact hv
    · rw [e]
      exact List.nil_suffix

theorem flushPart_cases (env : LogEnv) (b b' : LogBase) (x : UInt8) (p p' : List UInt8) (r : PartRes)
    (h : flushPart env (x :: p).length b (x :: p) = (b', p', r)) :
    r = .fail ∨ p'.length < (x :: p).length ∨
    (p' = x :: p ∧ r = .wait ∧ b'.nwrite = b.nwrite + 1 ∧
      (env.wr b.nwrite = .again ∨ env.wr b.nwrite = .n 0)) := by
  simp only [List.length_cons, flushPart] at h
  cases hw : b.write env (x :: p) with
  | mk b1 w =>
    rw [hw] at h
    unfold LogBase.write at hw
    cases w with
    | err =>
      simp only [Prod.mk.injEq] at h
      exact .inl h.2.2.symm
    | again =>
      simp only [Prod.mk.injEq] at h
      right
      right
      refine ⟨h.2.1.symm, h.2.2.symm, ?_⟩
      rw [← h.1]
      cases hf : b.file with
      | none => rw [hf] at hw; simp at hw
      | some c =>
        rw [hf] at hw
        simp only at hw
        cases hr : env.wr b.nwrite with
        | n k => rw [hr] at hw; simp at hw
        | again =>
          rw [hr] at hw
          simp only [Prod.mk.injEq, and_true] at hw
          rw [← hw]
          exact ⟨rfl, .inl rfl⟩
        | err => rw [hr] at hw; simp at hw
    | wrote k =>
      cases k with
      | zero =>
        simp only [Prod.mk.injEq] at h
        right
        right
        refine ⟨h.2.1.symm, h.2.2.symm, ?_⟩
        rw [← h.1]
        cases hf : b.file with
        | none => rw [hf] at hw; simp at hw
        | some c =>
          rw [hf] at hw
          simp only at hw
          cases hr : env.wr b.nwrite with
          | n k =>
            rw [hr] at hw
            simp only [Prod.mk.injEq, WOut.wrote.injEq, List.length_cons] at hw
            rw [← hw.1]
            refine ⟨rfl, .inr ?_⟩
            have : k = 0 := by omega
            rw [this]
          | again => rw [hr] at hw; simp at hw
          | err => rw [hr] at hw; simp at hw
      | succ k =>
        right
        left
        simp only at h
        obtain ⟨_, _, _, hl, _⟩ := flushPart_spec env p.length b1 b' _ p' r (by simp) h
        rw [List.length_drop] at hl
        simp only [List.length_cons] at hl ⊢
        omega

/-- A flush with nothing buffered returns. -/
theorem flush_part_only (env : LogEnv) (u : ULog) (hp : u.pend = []) (b : LogBase)
    (p : List UInt8) (r : PartRes) (h : flushPart env u.part.length u.base u.part = (b, p, r)) :
    u.flush env = some ({ u with base := b, part := p }, decide (r ≠ .fail)) := by
  unfold ULog.flush
  rw [h]
  cases r with
  | wait => rfl
  | fail => rfl
  | empty =>
    show flushBuf env (u.pend.length + 1) { u with base := b, part := p } = _
    rw [hp]
    rfl

theorem stopLoop_returns (env : LogEnv) (hprog : Progress env) (n : Nat) :
    ∀ u : ULog, u.pend = [] → u.part.length ≤ n → ∃ N, ∀ k, N ≤ k → stopLoop env k u ≠ none := by
  induction n with
  | zero =>
    intro u _ hl
    have : u.part = [] := List.eq_nil_of_length_eq_zero (by omega)
    refine ⟨0, fun k _ => ?_⟩
    cases k <;> simp [stopLoop, this]
  | succ n ihn =>
    intro u hp hl
    obtain ⟨j, hj, hj1, hj2⟩ := hprog u.base.nwrite
    obtain ⟨d, hd⟩ : ∃ d, d = j - u.base.nwrite := ⟨_, rfl⟩
    induction d generalizing u with
    | zero =>
      cases hpart : u.part with
      | nil =>
        refine ⟨0, fun k _ => ?_⟩
        cases k <;> simp [stopLoop, hpart]
      | cons x p =>
        cases hf : flushPart env u.part.length u.base u.part with
        | mk b q =>
          obtain ⟨p', r⟩ := q
          have hfl := flush_part_only env u hp b p' r hf
          have hf' := hf
          rw [hpart] at hf'
          rcases flushPart_cases env u.base b x p p' r hf' with hc | hc | ⟨_, _, _, hc⟩
          · refine ⟨1, fun k hk => ?_⟩
            obtain ⟨k, rfl⟩ : ∃ k', k = k' + 1 := ⟨k - 1, by omega⟩
            simp only [stopLoop, hpart, reduceCtorEq, if_false, hfl, hc]
            simp
          · obtain ⟨N, hN⟩ := ihn { u with base := b, part := p' } hp (by
              show p'.length ≤ n
              rw [← hpart] at hc
              omega)
            refine ⟨N + 1, fun k hk => ?_⟩
            obtain ⟨k, rfl⟩ : ∃ k', k = k' + 1 := ⟨k - 1, by omega⟩
            simp only [stopLoop, hpart, reduceCtorEq, if_false, hfl]
            cases r with
            | fail => simp
            | wait => exact hN k (by omega)
            | empty => exact hN k (by omega)
          · have : j = u.base.nwrite := by omega
            rw [← this] at hc
            rcases hc with hc | hc
            · exact absurd hc hj1
            · exact absurd hc hj2
    | succ d ihd =>
      cases hpart : u.part with
      | nil =>
        refine ⟨0, fun k _ => ?_⟩
        cases k <;> simp [stopLoop, hpart]
      | cons x p =>
        cases hf : flushPart env u.part.length u.base u.part with
        | mk b q =>
          obtain ⟨p', r⟩ := q
          have hfl := flush_part_only env u hp b p' r hf
          have hf' := hf
          rw [hpart] at hf'
          rcases flushPart_cases env u.base b x p p' r hf' with hc | hc | ⟨hc1, hc2, hc3, _⟩
          · refine ⟨1, fun k hk => ?_⟩
            obtain ⟨k, rfl⟩ : ∃ k', k = k' + 1 := ⟨k - 1, by omega⟩
            simp only [stopLoop, hpart, reduceCtorEq, if_false, hfl, hc]
            simp
          · obtain ⟨N, hN⟩ := ihn { u with base := b, part := p' } hp (by
              show p'.length ≤ n
              rw [← hpart] at hc
              omega)
            refine ⟨N + 1, fun k hk => ?_⟩
            obtain ⟨k, rfl⟩ : ∃ k', k = k' + 1 := ⟨k - 1, by omega⟩
            simp only [stopLoop, hpart, reduceCtorEq, if_false, hfl]
            cases r with
            | fail => simp
            | wait => exact hN k (by omega)
            | empty => exact hN k (by omega)
          · obtain ⟨N, hN⟩ := ihd { u with base := b, part := p' } hp (by
              show p'.length ≤ n + 1
              rw [hc1, ← hpart]
              exact hl) (by show b.nwrite ≤ j; omega) (by show d = j - b.nwrite; omega)
            refine ⟨N + 1, fun k hk => ?_⟩
            obtain ⟨k, rfl⟩ : ∃ k', k = k' + 1 := ⟨k - 1, by omega⟩
            simp only [stopLoop, hpart, reduceCtorEq, if_false, hfl, hc2]
            exact hN k (by omega)

/-! ## Storing a stream -/

theorem FlushRel.bytes {u v : ULog} (r : FlushRel u v) (hc : ULogClean v) {c : List UInt8}
    (hf : u.base.file = some c) : ∃ c', v.base.file = some c' ∧
      c' ++ v.part ++ v.pend = c ++ u.part ++ u.pend := by
  obtain ⟨msgs, _, hp, hd⟩ := r.data hc.1 hc.2
  obtain ⟨c', e1, e2⟩ := hd c hf
  refine ⟨c', e1, ?_⟩
  rw [e2, hp]
  simp [List.append_assoc]

theorem wholeMsg_size {m rest : List UInt8} (h : WholeMsg m) (hl : m.length ≤ 2048) :
    3 ≤ m.length ∧ fullSize (m ++ rest) = m.length ∧ sizeWraps (m ++ rest) = false := by
  obtain ⟨lo, hi, ty, pl, rfl, hpl⟩ := h
  simp only [List.length_cons] at hl
  refine ⟨by simp, ?_, ?_⟩
  · simp only [List.cons_append, fullSize, List.length_cons]
    omega
  · simp only [List.cons_append, sizeWraps, decide_eq_false_iff_not]
    omega

theorem take2_size {p m : List UInt8} {r1 r2 : List UInt8} (h3 : 2 ≤ p.length) (h4 : 2 ≤ m.length)
    (h : p ++ r1 = m ++ r2) : fullSize p = fullSize (m ++ r2) ∧ sizeWraps p = sizeWraps (m ++ r2) := by
  match p, m, h3, h4 with
  | a :: b :: p, c :: d :: m, _, _ =>
    simp only [List.cons_append, List.cons.injEq] at h
    obtain ⟨rfl, rfl, _⟩ := h
    exact ⟨rfl, rfl⟩

/-- With writes that are carried out, a flush writes exactly the complete messages of the stream. -/
theorem flushBuf_stream (env : LogEnv) (hw : WritesAll env) (msgs : List (List UInt8))
    (hm : ∀ m ∈ msgs, WholeMsg m ∧ m.length ≤ 2048) :
    ∀ (fuel : Nat) (u : ULog) (rest c : List UInt8), u.pend.length < fuel → u.part = [] →
      u.base.file = some c → u.pend ++ rest = msgs.flatten →
      ∃ (v : ULog) (j : Nat), flushBuf env fuel u = some (v, true) ∧
        v.base.file = some (c ++ (msgs.take j).flatten) ∧ v.part = [] ∧
        u.pend = (msgs.take j).flatten ++ v.pend ∧ v.pend ++ rest = (msgs.drop j).flatten ∧
        (v.pend = [] ∨ ∃ m, msgs[j]? = some m ∧ v.pend.length < m.length) ∧
        v.wrapped = u.wrapped ∧ v.lost = u.lost := by
  induction msgs with
  | nil =>
    intro fuel u rest c hfuel hpart hf hst
    obtain ⟨fuel, rfl⟩ : ∃ k, fuel = k + 1 := ⟨fuel - 1, by omega⟩
    simp only [List.flatten_nil, List.append_eq_nil_iff] at hst
    refine ⟨u, 0, ?_, by simpa using hf, hpart, by simp, by simp [hst.1, hst.2], .inl hst.1, rfl, rfl⟩
    simp [flushBuf, hst.1]
  | cons m ms ih =>
    intro fuel u rest c hfuel hpart hf hst
    obtain ⟨fuel, rfl⟩ : ∃ k, fuel = k + 1 := ⟨fuel - 1, by omega⟩
    obtain ⟨hm1, hm2⟩ := hm m List.mem_cons_self
    rw [List.flatten_cons] at hst
    obtain ⟨h3, hfs, hsw⟩ := wholeMsg_size (rest := ms.flatten) hm1 hm2
    by_cases hlt : u.pend.length < m.length
    · have hout : ∀ v : ULog, flushBuf env (fuel + 1) u = some (v, true) → v.base = u.base →
          v.part = u.part → v.pend = u.pend → v.wrapped = u.wrapped → v.lost = u.lost →
          ∃ (v : ULog) (j : Nat), flushBuf env (fuel + 1) u = some (v, true) ∧
            v.base.file = some (c ++ ((m :: ms).take j).flatten) ∧ v.part = [] ∧
            u.pend = ((m :: ms).take j).flatten ++ v.pend ∧
            v.pend ++ rest = ((m :: ms).drop j).flatten ∧
            (v.pend = [] ∨ ∃ m', (m :: ms)[j]? = some m' ∧ v.pend.length < m'.length) ∧
            v.wrapped = u.wrapped ∧ v.lost = u.lost := by
        intro v h1 h2 h4 h5 h6 h7
        exact ⟨v, 0, h1, by rw [h2]; simpa using hf, by rw [h4, hpart], by rw [h5]; simp,
          by rw [h5]; simpa using hst, .inr ⟨m, by simp, by rw [h5]; exact hlt⟩, h6, h7⟩
      by_cases hs3 : u.pend.length < 3
      · exact hout u (by simp [flushBuf, hs3]) rfl rfl rfl rfl rfl
      · obtain ⟨e1, e2⟩ := take2_size (by omega) (by omega) hst
        rw [hfs] at e1
        rw [hsw] at e2
        refine hout { u with wrapped := u.wrapped || sizeWraps u.pend } ?_ rfl rfl rfl
          (by simp [e2]) rfl
        simp only [flushBuf, hpart, e1]
        rw [if_neg (by simp; omega), if_pos (by omega)]
    · -- the message is complete
      obtain ⟨p1, hp1⟩ : ∃ p1, u.pend = m ++ p1 := by
        refine ⟨u.pend.drop m.length, ?_⟩
        have : u.pend.take m.length = m := by
          have h := congrArg (List.take m.length) hst
          rw [List.take_append_of_le_length (by omega)] at h
          simpa using h
        have h2 := List.take_append_drop m.length u.pend
        rw [this] at h2
        exact h2.symm
      have hst1 : p1 ++ rest = ms.flatten := by
        rw [hp1, List.append_assoc] at hst
        exact List.append_cancel_left hst
      obtain ⟨_, hfs1, hsw1⟩ := wholeMsg_size (rest := p1) hm1 hm2
      rw [← hp1] at hfs1 hsw1
      obtain ⟨k, hk1, hk2⟩ := hw u.base.nwrite
      have htake : u.pend.take m.length = m := by rw [hp1]; simp
      have hwr : u.base.write env m = ({ u.base with file := some (c ++ m), nwrite := u.base.nwrite + 1 }, .wrote m.length) := by
        unfold LogBase.write
        rw [hf]
        simp only [hk1]
        rw [List.take_of_length_le (by omega), Nat.min_eq_right (by omega)]
      have hstep : flushBuf env (fuel + 1) u = flushBuf env fuel { u with
          base := { u.base with file := some (c ++ m), nwrite := u.base.nwrite + 1 }
          pend := p1
          idx := u.idx + m.length } := by
        simp only [flushBuf, hpart, hfs1, hsw1, htake, hwr]
        rw [if_neg (by simp; omega), if_neg (by omega), if_pos trivial, if_neg (by omega)]
        rw [hp1]
        simp
      obtain ⟨v, j, h1, h2, h4, h5, h6, h7, h8, h9⟩ := ih (fun x hx => hm x (List.mem_cons_of_mem _ hx))
        fuel { u with
          base := { u.base with file := some (c ++ m), nwrite := u.base.nwrite + 1 }
          pend := p1
          idx := u.idx + m.length } rest (c ++ m) (by
            show p1.length < fuel
            rw [hp1, List.length_append] at hfuel
            omega) hpart rfl hst1
      refine ⟨v, j + 1, by rw [hstep, h1], ?_, h4, ?_, ?_, ?_, h8, h9⟩
      · rw [h2]
        simp
      · rw [hp1]
        have h5' : p1 = (ms.take j).flatten ++ v.pend := h5
        rw [h5']
        simp
      · simpa using h6
      · simpa using h7

/-- What is known while a stream arrives: everything received is in the file or pending. -/
structure ULogTaken (hdr : List UInt8) (msgs chunks : List (List UInt8)) (k : Nat) (u : ULog) : Prop where
  exp : u.expSeq = UInt16.ofNat k
  first : u.waitFirst = false
  part : u.part.length ≤ 16
  clean : ULogClean u
  dropped : u.dropped = false
  start : k = 0 → Started u
  data : 0 < k → u.waitHdr = false ∧ ∃ c j, u.base.file = some c ∧
    c ++ u.part = hdr ++ (msgs.take j).flatten ∧
    hdr ++ (msgs.take j).flatten ++ u.pend = (chunks.take k).flatten ∧
    (u.pend = [] ∨ ∃ m, msgs[j]? = some m ∧ u.pend.length < m.length) ∧
    (u.part = [] ∨ (chunks.take k).flatten = hdr)

theorem makeRoom_small {u : ULog} {n : Nat} (h : u.pend.length + n ≤ ulogBuf) :
    u.makeRoom n = { u with idx := (u.makeRoom n).idx } := by
  rcases (makeRoom_spec u n).1 with ⟨e, _⟩ | ⟨_, h2, _⟩
  · exact e
  · omega

/-- Appending data of the stream: everything complete is written. -/
theorem append_stream (env : LogEnv) (hw : WritesAll env) (msgs : List (List UInt8))
    (hm : ∀ m ∈ msgs, WholeMsg m ∧ m.length ≤ 2048) (u : ULog) (p : Pkt) (c rest : List UInt8)
    (hf : u.base.file = some c) (hfirst : u.waitFirst = false) (hpl : u.part.length ≤ 2048)
    (hroom : u.pend.length + p.length.toNat ≤ 2048)
    (hst : u.pend ++ p.mem.take p.length.toNat ++ rest = msgs.flatten)
    (hinc : u.pend = [] ∨ ∃ m, msgs[0]? = some m ∧ u.pend.length < m.length) :
    ∃ (v : ULog) (q : Pkt) (c' : List UInt8) (j : Nat), u.append env p false = some (v, q) ∧
      v.base.file = some c' ∧ c' ++ v.part = c ++ u.part ++ (msgs.take j).flatten ∧
      (v.part = [] ∨ p.length = 0 ∧ v.part = u.part) ∧
      u.pend ++ p.mem.take p.length.toNat = (msgs.take j).flatten ++ v.pend ∧
      (v.pend = [] ∨ ∃ m, msgs[j]? = some m ∧ v.pend.length < m.length) ∧
      v.wrapped = u.wrapped ∧ v.lost = u.lost ∧ v.dropped = u.dropped ∧ v.waitFirst = false ∧
      v.expSeq = u.expSeq ∧ v.waitHdr = u.waitHdr := by
  have hroom' : u.pend.length + p.length.toNat ≤ ulogBuf := hroom
  have hmr := makeRoom_small hroom'
  generalize hx : (u.makeRoom p.length.toNat).idx = x at hmr
  have happ : u.append env p false = ULog.store env { u with idx := x } p := by
    show ULog.store env (u.makeRoom p.length.toNat) p = _
    rw [hmr]
  by_cases hl0 : p.length = 0
  · have hstore : ULog.store env { u with idx := x } p = some ({ u with idx := x }, p) := by
      rw [store_eq]
      simp only [hfirst, Bool.false_eq_true, false_and, if_false, hl0, if_true]
    refine ⟨{ u with idx := x }, p, c, 0, by rw [happ, hstore], hf, by simp, .inr ⟨hl0, rfl⟩, ?_, ?_,
      rfl, rfl, rfl, hfirst, rfl, rfl⟩
    · simp [hl0]
    · simpa using hinc
  · have hb : beginOf { u with idx := x } p = 0 := by simp [beginOf, hfirst]
    have hch : chunkOf { u with idx := x } p = p.mem.take p.length.toNat := by
      simp [chunkOf, hb]
    obtain ⟨s, hs⟩ : ∃ s, s = stored { u with idx := x } p := ⟨_, rfl⟩
    have s1 : s.pend = u.pend ++ p.mem.take p.length.toNat := by
      rw [hs]
      simp only [stored, hch]
    have s2 : s.base = u.base := by rw [hs]; rfl
    have s3 : s.part = u.part := by rw [hs]; rfl
    -- the remainder (the header) is written first
    have hfp : ∃ b, flushPart env s.part.length s.base s.part = (b, [], .empty) ∧
        b.file = some (c ++ u.part) := by
      rw [s3, s2]
      cases hup : u.part with
      | nil => exact ⟨u.base, rfl, by simpa using hf⟩
      | cons y ys =>
        obtain ⟨k, hk1, hk2⟩ := hw u.base.nwrite
        have hwr : u.base.write env (y :: ys) = ({ u.base with file := some (c ++ (y :: ys)), nwrite := u.base.nwrite + 1 }, .wrote (ys.length + 1)) := by
          unfold LogBase.write
          rw [hf]
          simp only [hk1]
          rw [hup] at hpl
          rw [List.take_of_length_le (by simp at hpl ⊢; omega), Nat.min_eq_right (by omega)]
          simp
        refine ⟨{ u.base with file := some (c ++ (y :: ys)), nwrite := u.base.nwrite + 1 }, ?_, rfl⟩
        simp only [List.length_cons, flushPart, hwr]
        rw [show (y :: ys).drop (ys.length + 1) = [] from by simp]
        cases ys <;> rfl
    obtain ⟨b, hb1, hb2⟩ := hfp
    obtain ⟨v, j, h1, h2, h3, h4, h5, h6, h7, h8⟩ := flushBuf_stream env hw msgs hm
      (s.pend.length + 1) { s with base := b, part := [] } rest (c ++ u.part)
      (Nat.lt_succ_self _) rfl hb2 (by show s.pend ++ rest = _; rw [s1]; exact hst)
    have hfl : s.flush env = some (v, true) := by
      unfold ULog.flush
      rw [hb1]
      exact h1
    have hrel := flush_spec env s v true hfl
    have hstore : ULog.store env { u with idx := x } p = some (v, { p with length := p.length - beginOf { u with idx := x } p }) := by
      rw [store_eq, ← hs, hfl]
      simp only [hfirst, Bool.false_eq_true, false_and, if_false, hl0]
    refine ⟨v, _, _, j, by rw [happ, hstore], h2, by rw [h3, List.append_nil], .inl h3,
      by rw [← s1]; exact h4, h6, ?_, ?_, ?_, ?_, ?_, ?_⟩
    · rw [h7, hs]; rfl
    · rw [h8, hs]; rfl
    · rw [hrel.dropped, hs]; rfl
    · rw [hrel.waitFirst, hs]; rfl
    · rw [hrel.expSeq, hs]; rfl
    · rw [hrel.waitHdr, hs]; rfl

theorem take_succ_flatten (chunks : List (List UInt8)) (k : Nat) (chunk : List UInt8)
    (h : chunks[k]? = some chunk) :
    (chunks.take (k + 1)).flatten = (chunks.take k).flatten ++ chunk := by
  rw [List.take_add_one, h]
  simp

theorem flatten_take_prefix (chunks : List (List UInt8)) (k : Nat) :
    ∃ rest, (chunks.take k).flatten ++ rest = chunks.flatten :=
  ⟨(chunks.drop k).flatten, by rw [← List.flatten_append, List.take_append_drop]⟩

theorem ULogTaken.next {env : LogEnv} (hw : WritesAll env) {hdr : List UInt8}
    {msgs chunks : List (List UInt8)} (hcut : Cut hdr msgs chunks) {k : Nat} {u : ULog} {p : Pkt}
    {chunk : List UInt8} (h : ULogTaken hdr msgs chunks k u) (hk : chunks[k]? = some chunk)
    (hp : Carries k chunk p) :
    ∃ v q, u.process env p = some (v, q) ∧ ULogTaken hdr msgs chunks (k + 1) v := by
  obtain ⟨hp1, hp2, hp3, hp4⟩ := hp
  have hwhole : ∀ m ∈ msgs, WholeMsg m ∧ m.length ≤ 2048 := fun m hm =>
    ⟨(hcut.whole m hm).1, by have := (hcut.whole m hm).2; omega⟩
  have hshort : chunk.length ≤ 249 := hcut.short chunk (List.mem_of_getElem? hk)
  have htake := take_succ_flatten chunks k chunk hk
  obtain ⟨rest0, hrest0⟩ := hcut.stream
  obtain ⟨rest1, hrest1⟩ := flatten_take_prefix chunks (k + 1)
  -- the rest of the stream after this chunk
  have hstream : (chunks.take k).flatten ++ chunk ++ (rest1 ++ rest0) = hdr ++ msgs.flatten := by
    rw [← hrest0, ← hrest1, htake]
    simp [List.append_assoc]
  have hseq : logSeq u.expSeq p.seq = some (false, UInt16.ofNat (k + 1)) := by
    rw [h.exp, hp1, ← ofNat_succ16]
    simp [logSeq]
  unfold ULog.process
  rw [hseq]
  simp only
  by_cases hk0 : k = 0
  · -- the header packet
    subst hk0
    obtain ⟨s1, s2, s3, s4, s5, s6, s7⟩ := h.start rfl
    obtain ⟨hh1, hh2⟩ := hcut.head chunk hk
    simp only [List.take_zero, List.flatten_nil, List.nil_append] at hstream
    have hc16 : chunk.take 16 = hdr := by
      have := congrArg (List.take 16) hstream
      rw [List.take_append_of_le_length hh1, List.take_append_of_le_length (by rw [hcut.hdrLen]; omega)]
        at this
      rw [this, List.take_of_length_le (by rw [hcut.hdrLen]; omega)]
    have hm16 : p.mem.take 16 = hdr := by
      rw [← hc16, ← hp3, List.take_take, Nat.min_eq_left hh1]
    have hm7 : p.mem.take 7 = ulogMagic := by
      refine Eq.trans ?_ hcut.magic
      rw [← hm16, List.take_take]
      rfl
    have hl16 : (p.length - 16).toNat = chunk.length - 16 := by
      rw [UInt8.toNat_sub_of_le _ _ (UInt8.le_iff_toNat_le.2 (by rw [hp2]; simpa using hh1)), hp2]
      rfl
    rw [if_pos s2, if_neg (by
      intro hc
      rcases hc with hc | hc
      · rw [hp2] at hc
        simp only [ulogHdr] at hc
        omega
      · exact hc hm7)]
    have hdata : (takeHeader { u with expSeq := UInt16.ofNat (0 + 1) } p).2.mem.take (chunk.length - 16) =
        chunk.drop 16 := by
      simp only [takeHeader, ulogHdr, hp2]
      rw [List.take_append_of_le_length (by rw [List.length_take, List.length_drop]; omega),
        List.take_take, Nat.min_eq_left (by omega)]
      conv => rhs; rw [← hp3]
      rw [List.drop_take]
    have hdrop : chunk.drop 16 ++ (rest1 ++ rest0) = msgs.flatten := by
      have := congrArg (List.drop 16) hstream
      rw [List.drop_append_of_le_length hh1, List.drop_append_of_le_length (by rw [hcut.hdrLen]; omega),
        List.drop_of_length_le (l := hdr) (by rw [hcut.hdrLen]; omega)] at this
      simpa using this
    obtain ⟨v, q, c', j, h1, h2, h3, h4, h5, h6, h7, h8, h9, h10, h11, h12⟩ :=
      append_stream env hw msgs hwhole (takeHeader { u with expSeq := UInt16.ofNat (0 + 1) } p).1
        (takeHeader { u with expSeq := UInt16.ofNat (0 + 1) } p).2 [] (rest1 ++ rest0) s1 s3
        (by simp [takeHeader, ulogHdr]; omega)
        (by
          show u.pend.length + (p.length - 16).toNat ≤ 2048
          rw [s5, hl16]
          simp
          omega)
        (by
          show u.pend ++ _ ++ _ = _
          rw [show (takeHeader { u with expSeq := UInt16.ofNat (0 + 1) } p).2.length.toNat =
            chunk.length - 16 from hl16, hdata, s5]
          simpa using hdrop)
        (.inl s5)
    rw [show (takeHeader { u with expSeq := UInt16.ofNat (0 + 1) } p).2.length.toNat =
      chunk.length - 16 from hl16, hdata] at h5
    have hpt : (takeHeader { u with expSeq := UInt16.ofNat (0 + 1) } p).1.part = hdr := hm16
    have hpe : (takeHeader { u with expSeq := UInt16.ofNat (0 + 1) } p).1.pend = [] := s5
    rw [hpt] at h3 h4
    rw [hpe, List.nil_append] at h5
    have hchunk : hdr ++ chunk.drop 16 = chunk := by
      rw [← hc16, List.take_append_drop]
    refine ⟨v, q, h1, ?_⟩
    refine ⟨h11, h10, ?_, ⟨h7.trans h.clean.1, h8.trans h.clean.2⟩, h9.trans h.dropped,
      fun hc => by omega, fun _ => ⟨h12, c', j, h2, by simpa using h3, ?_, h6, ?_⟩⟩
    · rcases h4 with h4 | ⟨_, h4⟩
      · rw [h4]; simp
      · rw [h4, hcut.hdrLen]; omega
    · rw [htake, List.append_assoc, ← h5]
      simpa using hchunk
    · rcases h4 with h4 | ⟨h4, _⟩
      · exact .inl h4
      · right
        have h4' : (p.length - 16).toNat = 0 := by
          have := congrArg UInt8.toNat h4
          simpa [takeHeader] using this
        rw [hl16] at h4'
        rw [htake]
        simp only [List.take_zero, List.flatten_nil, List.nil_append]
        rw [← hchunk, List.drop_of_length_le (by omega), List.append_nil]
  · obtain ⟨d1, c, j, d2, d3, d4, d5, d6⟩ := h.data (by omega)
    rw [if_neg (by rw [d1]; simp)]
    have hst : u.pend ++ chunk ++ (rest1 ++ rest0) = (msgs.drop j).flatten := by
      have e : hdr ++ (msgs.take j).flatten ++ (u.pend ++ chunk ++ (rest1 ++ rest0)) =
          hdr ++ (msgs.take j).flatten ++ (msgs.drop j).flatten := by
        have e1 : hdr ++ (msgs.take j).flatten ++ (msgs.drop j).flatten = hdr ++ msgs.flatten := by
          rw [List.append_assoc, ← List.flatten_append, List.take_append_drop]
        rw [e1, ← hstream, ← d4]
        simp [List.append_assoc]
      exact List.append_cancel_left e
    have hpend : u.pend.length ≤ 1799 := by
      rcases d5 with d5 | ⟨m, d5, d7⟩
      · rw [d5]; simp
      · have := (hcut.whole m (List.mem_of_getElem? d5)).2
        omega
    obtain ⟨v, q, c', i, h1, h2, h3, h4, h5, h6, h7, h8, h9, h10, h11, h12⟩ :=
      append_stream env hw (msgs.drop j) (fun m hm => hwhole m (List.mem_of_mem_drop hm))
        { u with expSeq := UInt16.ofNat (k + 1) } p c (rest1 ++ rest0) d2 h.first
        (by have := h.part; show u.part.length ≤ 2048; omega)
        (by show u.pend.length + p.length.toNat ≤ 2048; rw [hp2]; omega)
        (by
          show u.pend ++ _ ++ _ = _
          rw [hp2, hp3]
          exact hst)
        (by
          rcases d5 with d5 | ⟨m, d5, d7⟩
          · exact .inl d5
          · exact .inr ⟨m, by simpa using d5, d7⟩)
    rw [hp2, hp3] at h5
    have htk : (msgs.take j).flatten ++ ((msgs.drop j).take i).flatten = (msgs.take (j + i)).flatten := by
      rw [← List.flatten_append, List.take_add]
    have h3' : c' ++ v.part = hdr ++ (msgs.take (j + i)).flatten := by
      rw [h3, ← htk]
      show c ++ u.part ++ _ = _
      rw [d3, List.append_assoc]
    have hall : hdr ++ (msgs.take (j + i)).flatten ++ v.pend = (chunks.take (k + 1)).flatten := by
      rw [htake, ← d4, ← htk]
      have h5' : u.pend ++ chunk = ((msgs.drop j).take i).flatten ++ v.pend := h5
      simp only [List.append_assoc]
      rw [h5']
    refine ⟨v, q, h1, ?_⟩
    refine ⟨h11, h10, ?_, ⟨h7.trans h.clean.1, h8.trans h.clean.2⟩, h9.trans h.dropped,
      fun hc => by omega, fun _ => ⟨h12.trans d1, c', j + i, h2, h3', hall, ?_, ?_⟩⟩
    · rcases h4 with h4 | ⟨_, h4⟩
      · rw [h4]; simp
      · rw [h4]; exact h.part
    · rcases h6 with h6 | ⟨m, h6, h6'⟩
      · exact .inl h6
      · refine .inr ⟨m, ?_, h6'⟩
        rw [List.getElem?_drop] at h6
        exact h6
    · rcases h4 with h4 | ⟨h4, h4'⟩
      · exact .inl h4
      · rcases d6 with d6 | d6
        · left
          rw [h4']
          exact d6
        · right
          have : chunk = [] := by
            apply List.eq_nil_of_length_eq_zero
            rw [← hp2, h4]
            rfl
          rw [htake, this, List.append_nil, d6]

/-- What is known for any results of the writes, as long as nothing was dropped or lost. -/
def BytesKept (chunks : List (List UInt8)) (k : Nat) (u : ULog) : Prop :=
  ULogClean u → u.dropped = false →
    u.expSeq = UInt16.ofNat k ∧ u.waitFirst = false ∧ (k = 0 → Started u) ∧
    (0 < k → u.waitHdr = false ∧ ∃ c, u.base.file = some c ∧
      c ++ u.part ++ u.pend = (chunks.take k).flatten)

theorem makeRoom_clean (u : ULog) (n : Nat) :
    (ULogClean (u.makeRoom n) ↔ ULogClean u) ∧ (u.dropped = true → (u.makeRoom n).dropped = true) ∧
    ((u.makeRoom n).dropped = false → u.makeRoom n = { u with idx := (u.makeRoom n).idx }) := by
  rcases (makeRoom_spec u n).1 with ⟨e, _⟩ | ⟨e, _⟩
  · refine ⟨by rw [e]; rfl, by rw [e]; exact fun h => h, fun _ => e⟩
  · refine ⟨by rw [e]; rfl, by rw [e]; exact fun _ => rfl, fun h => ?_⟩
    rw [e] at h
    cases h

/-- Appending without loss keeps every byte, whatever the writes return, unless something is
dropped or lost. -/
theorem append_bytes {env : LogEnv} {u v : ULog} {p q : Pkt} {c : List UInt8}
    (r : u.append env p false = some (v, q)) (hf : u.base.file = some c) (hfirst : u.waitFirst = false)
    (hc : ULogClean v) (hd : v.dropped = false) :
    ULogClean u ∧ u.dropped = false ∧ v.waitFirst = false ∧ ∃ c', v.base.file = some c' ∧
      c' ++ v.part ++ v.pend = c ++ u.part ++ u.pend ++ p.mem.take p.length.toNat := by
  have r' : (u.makeRoom p.length.toNat).store env p = some (v, q) := r
  obtain ⟨m1, m2, m3⟩ := makeRoom_clean u p.length.toNat
  have hdm : (u.makeRoom p.length.toNat).dropped = false := by
    rcases store_spec env _ v p q r' with ⟨_, _, e⟩ | ⟨_, e⟩ | ⟨_, _, hr⟩
    · rw [← e]; exact hd
    · rw [e] at hd; exact hd
    · rw [hr.dropped] at hd; exact hd
  have e := m3 hdm
  generalize (u.makeRoom p.length.toNat).idx = x at e
  rw [e] at r' m1 m2 hdm
  have hb : beginOf { u with idx := x } p = 0 := by simp [beginOf, hfirst]
  have hch : chunkOf { u with idx := x } p = p.mem.take p.length.toNat := by
    simp [chunkOf, hb]
  rcases store_spec env _ v p q r' with ⟨hx, _, _⟩ | ⟨hx, e⟩ | ⟨_, _, hr⟩
  · rw [hfirst] at hx
    cases hx
  · refine ⟨by rw [e] at hc; exact hc, hdm, by rw [e], c, by rw [e]; exact hf, ?_⟩
    rw [e, hx]
    simp
  · refine ⟨hr.clean hc, hdm, by rw [hr.waitFirst]; rfl, ?_⟩
    obtain ⟨c', h1, h2⟩ := hr.bytes hc (c := c) hf
    refine ⟨c', h1, ?_⟩
    rw [h2]
    show c ++ u.part ++ (u.pend ++ chunkOf { u with idx := x } p) = _
    rw [hch, List.append_assoc, List.append_assoc, List.append_assoc]

theorem BytesKept.next {env : LogEnv} {hdr : List UInt8} {msgs chunks : List (List UInt8)}
    (hcut : Cut hdr msgs chunks) {k : Nat} {u v : ULog} {p q : Pkt} {chunk : List UInt8}
    (h : BytesKept chunks k u) (hk : chunks[k]? = some chunk) (hp : Carries k chunk p)
    (hmono : u.dropped = true → v.dropped = true) (hmono' : ULogClean v → ULogClean u)
    (r : u.process env p = some (v, q)) : BytesKept chunks (k + 1) v := by
  intro hc hd
  obtain ⟨a1, a2, a3, a4⟩ := h (hmono' hc) (false_of_mono hmono hd)
  obtain ⟨hp1, hp2, hp3, hp4⟩ := hp
  have htake := take_succ_flatten chunks k chunk hk
  have hseq : logSeq u.expSeq p.seq = some (false, UInt16.ofNat (k + 1)) := by
    rw [a1, hp1, ← ofNat_succ16]
    simp [logSeq]
  unfold ULog.process at r
  rw [hseq] at r
  simp only at r
  by_cases hk0 : k = 0
  · subst hk0
    obtain ⟨s1, s2, s3, s4, s5, s6, s7⟩ := a3 rfl
    obtain ⟨hh1, hh2⟩ := hcut.head chunk hk
    obtain ⟨rest0, hrest0⟩ := hcut.stream
    obtain ⟨rest1, hrest1⟩ := flatten_take_prefix chunks (0 + 1)
    have hstream : chunk ++ (rest1 ++ rest0) = hdr ++ msgs.flatten := by
      rw [← hrest0, ← hrest1, htake]
      simp [List.append_assoc]
    have hc16 : chunk.take 16 = hdr := by
      have := congrArg (List.take 16) hstream
      rw [List.take_append_of_le_length hh1, List.take_append_of_le_length (by rw [hcut.hdrLen]; omega)]
        at this
      rw [this, List.take_of_length_le (by rw [hcut.hdrLen]; omega)]
    have hm16 : p.mem.take 16 = hdr := by
      rw [← hc16, ← hp3, List.take_take, Nat.min_eq_left hh1]
    have hm7 : p.mem.take 7 = ulogMagic := by
      refine Eq.trans ?_ hcut.magic
      rw [← hm16, List.take_take]
      rfl
    have hl16 : (p.length - 16).toNat = chunk.length - 16 := by
      rw [UInt8.toNat_sub_of_le _ _ (UInt8.le_iff_toNat_le.2 (by rw [hp2]; simpa using hh1)), hp2]
      rfl
    rw [if_pos s2, if_neg (by
      intro hc
      rcases hc with hc | hc
      · rw [hp2] at hc
        simp only [ulogHdr] at hc
        omega
      · exact hc hm7)] at r
    have hdata : (takeHeader { u with expSeq := UInt16.ofNat (0 + 1) } p).2.mem.take (chunk.length - 16) =
        chunk.drop 16 := by
      simp only [takeHeader, ulogHdr, hp2]
      rw [List.take_append_of_le_length (by rw [List.length_take, List.length_drop]; omega),
        List.take_take, Nat.min_eq_left (by omega)]
      conv => rhs; rw [← hp3]
      rw [List.drop_take]
    obtain ⟨h1, h2⟩ := append_keeps r
    obtain ⟨_, _, h5, c', h6, h7⟩ := append_bytes (c := []) r s1 s3 hc hd
    refine ⟨h1, h5, fun hx => by omega, fun _ => ⟨h2, c', h6, ?_⟩⟩
    rw [h7, show (takeHeader { u with expSeq := UInt16.ofNat (0 + 1) } p).2.length.toNat =
      chunk.length - 16 from hl16, hdata, htake]
    show [] ++ p.mem.take 16 ++ u.pend ++ chunk.drop 16 = _
    rw [s5, hm16, ← hc16]
    simp
  · obtain ⟨d1, c, d2, d3⟩ := a4 (by omega)
    rw [if_neg (by rw [d1]; simp)] at r
    obtain ⟨h1, h2⟩ := append_keeps r
    obtain ⟨_, _, h5, c', h6, h7⟩ := append_bytes (c := c) r d2 a2 hc hd
    refine ⟨h1, h5, fun hx => by omega, fun _ => ⟨h2.trans d1, c', h6, ?_⟩⟩
    rw [h7, hp2, hp3, htake, ← d3]

/-- The records of what went wrong are never taken back. -/
theorem append_mono {env : LogEnv} {u v : ULog} {p q : Pkt} {drops : Bool}
    (r : u.append env p drops = some (v, q)) :
    (u.dropped = true → v.dropped = true) ∧ (ULogClean v → ULogClean u) := by
  unfold ULog.append at r
  cases ha : u.afterLoss env drops with
  | none => rw [ha] at r; cases r
  | some w =>
    rw [ha] at r
    simp only at r
    have h1 : (u.dropped = true → w.dropped = true) ∧ (ULogClean w → ULogClean u) := by
      rcases afterLoss_spec env u w drops ha with ⟨_, rfl⟩ | ⟨_, x, hr, rfl⟩
      · exact ⟨fun h => h, fun h => h⟩
      · exact ⟨fun h => by show x.dropped = true; rw [hr.dropped]; exact h, fun h => hr.clean h⟩
    obtain ⟨m1, m2, _⟩ := makeRoom_clean w p.length.toNat
    have h2 : ((w.makeRoom p.length.toNat).dropped = true → v.dropped = true) ∧
        (ULogClean v → ULogClean (w.makeRoom p.length.toNat)) := by
      rcases store_spec env _ v p q r with ⟨_, _, e⟩ | ⟨_, e⟩ | ⟨_, _, hr⟩
      · rw [e]; exact ⟨fun h => h, fun h => h⟩
      · rw [e]; exact ⟨fun h => h, fun h => h⟩
      · exact ⟨fun h => by rw [hr.dropped]; exact h, fun h => hr.clean h⟩
    exact ⟨fun h => h2.1 (m2 (h1.1 h)), fun h => h1.2 (m1.1 (h2.2 h))⟩

theorem restart_mono {env : LogEnv} {u v : ULog} (r : u.restart env = some v) :
    (u.dropped = true → v.dropped = true) ∧ (ULogClean v → ULogClean u) := by
  unfold ULog.restart at r
  cases hs : u.stop env with
  | none => rw [hs] at r; cases r
  | some w =>
    rw [hs] at r
    simp only [Option.some.injEq] at r
    obtain ⟨_, _, e1, e2, _, e3⟩ := start_flags env w
    have hw : (u.dropped = true → w.dropped = true) ∧ (ULogClean w → ULogClean u) := by
      rcases stop_spec env u w hs with ⟨_, rfl⟩ | ⟨x, c, _, hr, rfl⟩
      · exact ⟨fun h => h, fun h => h⟩
      · exact ⟨fun h => by show x.dropped = true; rw [hr.dropped]; exact h, fun h => hr.clean h⟩
    rw [← r]
    exact ⟨fun h => by rw [e3]; exact hw.1 h, fun h => hw.2 ⟨by rw [← e1]; exact h.1, by rw [← e2]; exact h.2⟩⟩

theorem process_mono {env : LogEnv} {u v : ULog} {p q : Pkt} (r : u.process env p = some (v, q)) :
    (u.dropped = true → v.dropped = true) ∧ (ULogClean v → ULogClean u) := by
  unfold ULog.process at r
  cases hq : logSeq u.expSeq p.seq with
  | none =>
    rw [hq] at r
    simp only [Option.some.injEq, Prod.mk.injEq] at r
    rw [← r.1]
    exact ⟨fun h => h, fun h => h⟩
  | some de =>
    obtain ⟨drops, exp⟩ := de
    rw [hq] at r
    simp only at r
    split at r
    · split at r
      · cases hs : ULog.restart env { u with expSeq := exp } with
        | none => rw [hs] at r; cases r
        | some w =>
          rw [hs] at r
          simp only [Option.map_some, Option.some.injEq, Prod.mk.injEq] at r
          rw [← r.1]
          have h := restart_mono hs
          exact ⟨h.1, h.2⟩
      · have h := append_mono r
        exact ⟨h.1, h.2⟩
    · have h := append_mono r
      exact ⟨h.1, h.2⟩

theorem BytesKept.arrivals {env : LogEnv} {hdr : List UInt8} {msgs chunks : List (List UInt8)}
    (hcut : Cut hdr msgs chunks) {k n : Nat} {ps : List Pkt} (ha : Arrivals chunks k ps n)
    {u v : ULog} (r : u.processAll env ps = some v) (h : BytesKept chunks k u) :
    BytesKept chunks n v := by
  induction ha generalizing u with
  | nil k =>
    simp only [ULog.processAll, Option.some.injEq] at r
    rw [← r]
    exact h
  | @next k n p ps chunk hk hc _ ih =>
    simp only [ULog.processAll] at r
    cases hp : u.process env p with
    | none => rw [hp] at r; cases r
    | some x =>
      obtain ⟨w, q⟩ := x
      rw [hp] at r
      have hm := process_mono hp
      exact ih r (h.next hcut hk hc hm.1 hm.2 hp)
  | @again k n j p ps hj1 hj2 hs _ ih =>
    simp only [ULog.processAll] at r
    cases hp : u.process env p with
    | none => rw [hp] at r; cases r
    | some x =>
      obtain ⟨w, q⟩ := x
      rw [hp] at r
      refine ih r ?_
      have hm := process_mono hp
      intro hc hd
      have hu := h (hm.2 hc) (false_of_mono hm.1 hd)
      have h1 : u.process env p = some (u, p) := by
        unfold ULog.process
        rw [hu.1, hs, logSeq_behind hj1 hj2]
      rw [h1] at hp
      simp only [Option.some.injEq, Prod.mk.injEq] at hp
      rw [← hp.1]
      exact hu

theorem ULogTaken.arrivals {env : LogEnv} (hw : WritesAll env) {hdr : List UInt8}
    {msgs chunks : List (List UInt8)} (hcut : Cut hdr msgs chunks) {k n : Nat} {ps : List Pkt}
    (ha : Arrivals chunks k ps n) {u : ULog} (h : ULogTaken hdr msgs chunks k u) :
    ∃ v, u.processAll env ps = some v ∧ ULogTaken hdr msgs chunks n v := by
  induction ha generalizing u with
  | nil k => exact ⟨u, rfl, h⟩
  | next hk hc _ ih =>
    obtain ⟨v, q, h1, h2⟩ := h.next hw hcut hk hc
    obtain ⟨w, h3, h4⟩ := ih h2
    exact ⟨w, by simp only [ULog.processAll, h1, h3], h4⟩
  | @again k n j p ps hj1 hj2 hs _ ih =>
    have h1 : u.process env p = some (u, p) := by
      unfold ULog.process
      rw [h.exp, hs, logSeq_behind hj1 hj2]
    obtain ⟨w, h3, h4⟩ := ih h
    exact ⟨w, by simp only [ULog.processAll, h1, h3], h4⟩

end Verif
