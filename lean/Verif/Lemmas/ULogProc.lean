/- Processing of ULog data packets: memory use and file content, for one packet and for whole
histories. -/
import Verif.Lemmas.ULog

namespace Verif

open Spec (WholeMsg ULogFile dist Polite PoliteHeader Carries Arrivals)

theorem afterLoss_spec (env : LogEnv) (u v : ULog) (drops : Bool)
    (h : u.afterLoss env drops = some v) :
    (drops = false ∧ v = u) ∨
    (drops = true ∧ ∃ w, FlushRel u w ∧ v = { w with pend := [], idx := 0, waitFirst := true }) := by
  unfold ULog.afterLoss at h
  cases drops with
  | false =>
    simp only [Bool.false_eq_true, if_false, Option.some.injEq] at h
    exact .inl ⟨rfl, h.symm⟩
  | true =>
    simp only [if_true] at h
    cases hf : u.flush env with
    | none => rw [hf] at h; cases h
    | some q =>
      obtain ⟨w, r⟩ := q
      rw [hf] at h
      simp only [Option.some.injEq] at h
      exact .inr ⟨rfl, w, flush_spec env u w r hf, h.symm⟩

theorem makeRoom_spec (u : ULog) (n : Nat) :
    (u.makeRoom n = { u with idx := (u.makeRoom n).idx } ∧ u.pend.length + n ≤ ulogBuf ∧
      ((u.makeRoom n).idx = u.idx ∨ (u.makeRoom n).idx = 0) ∨
     u.makeRoom n = { u with idx := (u.makeRoom n).idx, pend := [], waitFirst := true, dropped := true } ∧
      ulogBuf < u.pend.length + n ∧ ((u.makeRoom n).idx = u.idx ∨ (u.makeRoom n).idx = 0)) ∧
    ((u.makeRoom n).idx + (u.makeRoom n).pend.length + n ≤ ulogBuf ∨ n > ulogBuf) := by
  unfold ULog.makeRoom
  by_cases h : u.pend.length + n > ulogBuf
  · simp only [if_pos h]
    split
    · refine ⟨.inr ⟨rfl, h, .inr rfl⟩, ?_⟩
      simp
      omega
    · rename_i h2
      exact ⟨.inr ⟨rfl, h, .inl rfl⟩, .inl (Nat.le_of_not_lt h2)⟩
  · simp only [if_neg h]
    split
    · refine ⟨.inl ⟨rfl, by omega, .inr rfl⟩, ?_⟩
      simp
      omega
    · rename_i h2
      exact ⟨.inl ⟨rfl, by omega, .inl rfl⟩, .inl (Nat.le_of_not_lt h2)⟩

/-- Offset at which the data of a packet is taken. -/
def beginOf (u : ULog) (p : Pkt) : UInt8 := if u.waitFirst then p.first else 0

/-- The bytes of a packet that are appended. -/
def chunkOf (u : ULog) (p : Pkt) : List UInt8 :=
  (p.mem.drop (beginOf u p).toNat).take (p.length - beginOf u p).toNat

/-- The state before the flush at the end of `store`. -/
def stored (u : ULog) (p : Pkt) : ULog :=
  let n := (p.length - beginOf u p).toNat
  { u with
      waitFirst := false
      oob := u.oob || (beginOf u p).toNat + n > ulogData || u.idx + u.pend.length + n > ulogBuf
      oobWrite := u.oobWrite || u.idx + u.pend.length + n > ulogBuf
      pend := u.pend ++ chunkOf u p }

theorem store_eq (env : LogEnv) (u : ULog) (p : Pkt) :
    u.store env p =
      if u.waitFirst ∧ p.first = 255 then some (u, p)
      else if p.length = 0 then some ({ u with waitFirst := false }, p)
      else match (stored u p).flush env with
        | none => none
        | some (u', _) => some (u', { p with length := p.length - beginOf u p }) := rfl

theorem store_spec (env : LogEnv) (u u' : ULog) (p q : Pkt) (h : u.store env p = some (u', q)) :
    (u.waitFirst = true ∧ p.first = 255 ∧ u' = u) ∨
    (p.length = 0 ∧ u' = { u with waitFirst := false }) ∨
    (¬(u.waitFirst = true ∧ p.first = 255) ∧ p.length ≠ 0 ∧ FlushRel (stored u p) u') := by
  rw [store_eq] at h
  split at h
  · rename_i h1
    simp only [Option.some.injEq, Prod.mk.injEq] at h
    exact .inl ⟨h1.1, h1.2, h.1.symm⟩
  · rename_i h1
    split at h
    · rename_i h2
      simp only [Option.some.injEq, Prod.mk.injEq] at h
      exact .inr (.inl ⟨h2, h.1.symm⟩)
    · rename_i h2
      cases hf : (stored u p).flush env with
      | none => rw [hf] at h; cases h
      | some r =>
        obtain ⟨w, b⟩ := r
        rw [hf] at h
        simp only [Option.some.injEq, Prod.mk.injEq] at h
        rw [← h.1]
        exact .inr (.inr ⟨h1, h2, flush_spec env _ _ _ hf⟩)

/-! ## Memory -/

/-- The data always fits the two buffers. -/
structure MemOk (u : ULog) : Prop where
  buf : u.idx + u.pend.length ≤ ulogBuf
  part : u.part.length ≤ ulogPart
  first : u.waitFirst = true → u.pend = [] ∧ u.idx ≤ 255

theorem MemOk.flush {u v : ULog} (h : MemOk u) (r : FlushRel u v) : MemOk v := by
  obtain ⟨pre, hp⟩ := r.suffix
  refine ⟨by rw [r.idx]; exact h.buf, Nat.le_trans r.part (by have := h.part; omega), ?_⟩
  intro hw
  rw [r.waitFirst] at hw
  obtain ⟨h1, h2⟩ := h.first hw
  have hi := r.idx
  rw [h1] at hp hi
  have h3 : pre = [] ∧ v.pend = [] := by simpa using hp.symm
  rw [h3.2] at hi
  exact ⟨h3.2, by simp at hi; omega⟩

theorem MemOk.afterLoss {env : LogEnv} {u v : ULog} {drops : Bool} (h : MemOk u)
    (r : u.afterLoss env drops = some v) : MemOk v := by
  rcases afterLoss_spec env u v drops r with ⟨_, rfl⟩ | ⟨_, w, hr, rfl⟩
  · exact h
  · have hw := h.flush hr
    exact ⟨by simp, hw.part, fun _ => ⟨rfl, by simp⟩⟩

theorem ulogBuf_eq : ulogBuf = 2048 := rfl

theorem MemOk.makeRoom {u : ULog} (n : Nat) (hn : n ≤ 255) (h : MemOk u) :
    MemOk (u.makeRoom n) ∧ (u.makeRoom n).idx + (u.makeRoom n).pend.length + n ≤ ulogBuf := by
  have hb := h.buf
  have he := ulogBuf_eq
  obtain ⟨hs, hr⟩ := makeRoom_spec u n
  have hr' : (u.makeRoom n).idx + (u.makeRoom n).pend.length + n ≤ ulogBuf := by
    rcases hr with hr | hr
    · exact hr
    · omega
  refine ⟨?_, hr'⟩
  rcases hs with ⟨e, h1, h2⟩ | ⟨e, h1, h2⟩
  · rw [e]
    refine ⟨?_, h.part, ?_⟩
    · show (u.makeRoom n).idx + u.pend.length ≤ _
      omega
    · intro hw
      obtain ⟨h3, h4⟩ := h.first hw
      refine ⟨h3, ?_⟩
      show (u.makeRoom n).idx ≤ 255
      omega
  · rw [e]
    refine ⟨?_, h.part, ?_⟩
    · simp
      omega
    · intro _
      refine ⟨rfl, ?_⟩
      show (u.makeRoom n).idx ≤ 255
      omega

theorem stored_mem {u : ULog} {p : Pkt} (h : MemOk u)
    (hroom : u.idx + u.pend.length + p.length.toNat ≤ ulogBuf) :
    u.idx + u.pend.length + (p.length - beginOf u p).toNat ≤ ulogBuf := by
  have he := ulogBuf_eq
  unfold beginOf
  cases hw : u.waitFirst with
  | false => simpa using hroom
  | true =>
    obtain ⟨h1, h2⟩ := h.first hw
    have := (p.length - p.first).toNat_lt
    simp only [if_true, h1, List.length_nil]
    omega

theorem MemOk.store {env : LogEnv} {u u' : ULog} {p q : Pkt} (h : MemOk u)
    (hroom : u.idx + u.pend.length + p.length.toNat ≤ ulogBuf)
    (r : u.store env p = some (u', q)) :
    MemOk u' ∧ u'.oobWrite = u.oobWrite ∧
    (u'.oob = true → u.oob = true ∨
      (¬(u.waitFirst = true ∧ p.first = 255) ∧ p.length ≠ 0 ∧
        249 < (beginOf u p).toNat + (p.length - beginOf u p).toNat)) := by
  have hfit := stored_mem h hroom
  rcases store_spec env u u' p q r with ⟨_, _, rfl⟩ | ⟨_, rfl⟩ | ⟨hn, hl, hr⟩
  · exact ⟨h, rfl, .inl⟩
  · exact ⟨⟨h.buf, h.part, fun hw => by simp at hw⟩, rfl, .inl⟩
  · have hm : MemOk (stored u p) := by
      refine ⟨?_, h.part, fun hw => by simp [stored] at hw⟩
      show u.idx + (u.pend ++ chunkOf u p).length ≤ _
      rw [List.length_append]
      unfold chunkOf
      rw [List.length_take]
      omega
    refine ⟨hm.flush hr, ?_, ?_⟩
    · rw [hr.oobWrite]
      simp only [stored]
      have : ¬(u.idx + u.pend.length + (p.length - beginOf u p).toNat > ulogBuf) := by omega
      simp [this]
    · rw [hr.oob]
      simp only [stored]
      have : ¬(u.idx + u.pend.length + (p.length - beginOf u p).toNat > ulogBuf) := by omega
      simp only [this, decide_false, Bool.or_false, Bool.or_eq_true, decide_eq_true_eq]
      rintro (h | h)
      · exact .inl h
      · exact .inr ⟨hn, hl, h⟩

/-- `append` never leaves the buffers, and reads outside the packet only if the packet's length or
offset say so. -/
theorem MemOk.append {env : LogEnv} {u u' : ULog} {p q : Pkt} {drops : Bool} (h : MemOk u)
    (r : u.append env p drops = some (u', q)) :
    MemOk u' ∧ u'.oobWrite = u.oobWrite ∧
    (u'.oob = true → u.oob = true ∨ 249 < p.length.toNat ∨
      (p.first ≠ 255 ∧ p.length ≠ 0 ∧ 249 < p.first.toNat + (p.length - p.first).toNat)) := by
  unfold ULog.append at r
  cases ha : u.afterLoss env drops with
  | none => rw [ha] at r; cases r
  | some v =>
    rw [ha] at r
    simp only at r
    have hv := h.afterLoss ha
    have hvw : v.oobWrite = u.oobWrite ∧ v.oob = u.oob := by
      rcases afterLoss_spec env u v drops ha with ⟨_, rfl⟩ | ⟨_, w, hr, rfl⟩
      · exact ⟨rfl, rfl⟩
      · exact ⟨hr.oobWrite, hr.oob⟩
    obtain ⟨hm, hroom⟩ := hv.makeRoom p.length.toNat (by have := p.length.toNat_lt; omega)
    have hmw : (v.makeRoom p.length.toNat).oobWrite = v.oobWrite ∧
        (v.makeRoom p.length.toNat).oob = v.oob := by
      rcases (makeRoom_spec v p.length.toNat).1 with ⟨e, _⟩ | ⟨e, _⟩ <;> rw [e] <;> exact ⟨rfl, rfl⟩
    obtain ⟨h1, h2, h3⟩ := hm.store hroom r
    refine ⟨h1, by rw [h2, hmw.1, hvw.1], ?_⟩
    intro ho
    rcases h3 ho with h4 | ⟨h4, h5, h6⟩
    · exact .inl (by rw [← hvw.2, ← hmw.2, h4])
    · right
      unfold beginOf at h6
      cases hw : (v.makeRoom p.length.toNat).waitFirst with
      | false =>
        rw [hw] at h6
        left
        simpa using h6
      | true =>
        rw [hw] at h6 h4
        right
        simp only [true_and] at h4
        exact ⟨h4, h5, by simpa using h6⟩

theorem MemOk.start {env : LogEnv} {u : ULog} (h : MemOk u) : MemOk (u.start env).1 := by
  unfold ULog.start
  cases hs : u.base.start env with
  | mk b ok =>
    cases ok with
    | true => exact ⟨by simp, by simp, fun h => by simp at h⟩
    | false => exact ⟨h.buf, h.part, h.first⟩

theorem start_flags (env : LogEnv) (u : ULog) :
    (u.start env).1.oob = u.oob ∧ (u.start env).1.oobWrite = u.oobWrite ∧
    (u.start env).1.wrapped = u.wrapped ∧ (u.start env).1.lost = u.lost ∧
    (u.start env).1.cut = u.cut ∧ (u.start env).1.dropped = u.dropped := by
  unfold ULog.start
  cases hs : u.base.start env with
  | mk b ok => cases ok <;> exact ⟨rfl, rfl, rfl, rfl, rfl, rfl⟩

theorem stopLoop_spec (env : LogEnv) (n : Nat) (u v : ULog) (h : stopLoop env n u = some v) :
    FlushRel u v := by
  induction n generalizing u with
  | zero =>
    simp only [stopLoop] at h
    split at h
    · simp only [Option.some.injEq] at h
      rw [← h]
      exact FlushRel.refl u
    · cases h
  | succ n ih =>
    simp only [stopLoop] at h
    split at h
    · simp only [Option.some.injEq] at h
      rw [← h]
      exact FlushRel.refl u
    · cases hf : u.flush env with
      | none => rw [hf] at h; cases h
      | some q =>
        obtain ⟨w, b⟩ := q
        rw [hf] at h
        have hw := flush_spec env u w b hf
        cases b with
        | true => exact hw.trans (ih w h)
        | false =>
          simp only [Option.some.injEq] at h
          rw [← h]
          exact hw

/-- The state the loop of `stop` starts from. -/
def stopping (u : ULog) : ULog := { u with base := u.base.send .cmdStop, pend := [] }

theorem stop_spec (env : LogEnv) (u v : ULog) (h : u.stop env = some v) :
    (u.base.file = none ∧ v = u) ∨
    (∃ w c, u.base.file = some c ∧ FlushRel (stopping u) w ∧
      v = { w with base := w.base.stop, cut := w.cut || !w.part.isEmpty }) := by
  unfold ULog.stop at h
  cases hf : u.base.file with
  | none =>
    simp only [hf, if_true, Option.some.injEq] at h
    exact .inl ⟨rfl, h.symm⟩
  | some c =>
    simp only [hf, reduceCtorEq, if_false] at h
    cases hs : stopLoop env env.fuel { u with base := u.base.send .cmdStop, pend := [] } with
    | none => rw [hs] at h; cases h
    | some w =>
      rw [hs] at h
      simp only [Option.some.injEq] at h
      exact .inr ⟨w, c, rfl, stopLoop_spec env _ _ _ hs, h.symm⟩

theorem MemOk.stop {env : LogEnv} {u v : ULog} (h : MemOk u) (r : u.stop env = some v) :
    MemOk v ∧ v.oob = u.oob ∧ v.oobWrite = u.oobWrite := by
  rcases stop_spec env u v r with ⟨_, rfl⟩ | ⟨w, c, _, hr, rfl⟩
  · exact ⟨h, rfl, rfl⟩
  · have hm : MemOk (stopping u) :=
      ⟨by simp only [stopping, List.length_nil]; have := h.buf; omega, h.part,
        fun hw => ⟨rfl, (h.first hw).2⟩⟩
    have hw := hm.flush hr
    exact ⟨⟨hw.buf, hw.part, hw.first⟩, hr.oob, hr.oobWrite⟩

theorem MemOk.restart {env : LogEnv} {u v : ULog} (h : MemOk u) (r : u.restart env = some v) :
    MemOk v ∧ v.oob = u.oob ∧ v.oobWrite = u.oobWrite := by
  unfold ULog.restart at r
  cases hs : u.stop env with
  | none => rw [hs] at r; cases r
  | some w =>
    rw [hs] at r
    simp only [Option.some.injEq] at r
    obtain ⟨h1, h2, h3⟩ := h.stop hs
    obtain ⟨e1, e2, _⟩ := start_flags env w
    rw [← r]
    exact ⟨h1.start, by rw [e1, h2], by rw [e2, h3]⟩

/-- One data packet: the buffers always suffice, and what lets an access leave the packet. -/
theorem MemOk.process {env : LogEnv} {u u' : ULog} {p q : Pkt} (h : MemOk u)
    (r : u.process env p = some (u', q)) :
    MemOk u' ∧
    (u'.oobWrite = true → u.oobWrite = true ∨ (u.waitHdr = true ∧ 249 < p.length.toNat)) ∧
    (Polite p → (u.waitHdr = true → PoliteHeader p ∨ p.length.toNat < 16 ∨
        p.mem.take 7 ≠ ulogMagic) → u'.oob = u.oob ∨ u'.oob = false) := by
  unfold ULog.process at r
  cases hq : logSeq u.expSeq p.seq with
  | none =>
    rw [hq] at r
    simp only [Option.some.injEq, Prod.mk.injEq] at r
    rw [← r.1]
    exact ⟨h, .inl, fun _ _ => .inl rfl⟩
  | some de =>
    obtain ⟨drops, exp⟩ := de
    rw [hq] at r
    simp only at r
    have h0 : MemOk { u with expSeq := exp } := ⟨h.buf, h.part, h.first⟩
    split at r
    · rename_i hwh
      split at r
      · rename_i hbad
        cases hrs : ULog.restart env { u with expSeq := exp } with
        | none => rw [hrs] at r; cases r
        | some v =>
          rw [hrs] at r
          simp only [Option.map_some, Option.some.injEq, Prod.mk.injEq] at r
          obtain ⟨h1, h2, h3⟩ := h0.restart hrs
          rw [← r.1]
          exact ⟨h1, fun ho => .inl (by rw [← h3]; exact ho), fun _ _ => .inl h2⟩
      · rename_i hgood
        have hlen : 16 ≤ p.length.toNat := by
          by_cases hc : p.length.toNat < ulogHdr
          · exact absurd (.inl hc) hgood
          · exact Nat.le_of_not_lt hc
        have hmag : p.mem.take 7 = ulogMagic := by
          by_cases hc : p.mem.take 7 = ulogMagic
          · exact hc
          · exact absurd (.inr hc) hgood
        have h1 : MemOk (takeHeader { u with expSeq := exp } p).1 :=
          ⟨h.buf, by simp [takeHeader, ulogHdr, ulogPart]; omega, h.first⟩
        have hl16 : (p.length - 16).toNat = p.length.toNat - 16 :=
          UInt8.toNat_sub_of_le _ _ (UInt8.le_iff_toNat_le.2 (by simpa using hlen))
        obtain ⟨h2, h3, h4⟩ := h1.append r
        refine ⟨h2, ?_, ?_⟩
        · intro ho
          rw [h3] at ho
          simp only [takeHeader, Bool.or_eq_true, decide_eq_true_eq] at ho
          rcases ho with ho | ho
          · exact .inl ho
          · exact .inr ⟨hwh, ho⟩
        · intro _ hph
          have hph' : PoliteHeader p := by
            rcases hph hwh with hc | hc | hc
            · exact hc
            · omega
            · exact absurd hmag hc
          obtain ⟨hp1, hp2⟩ := hph'
          cases ho : u'.oob with
          | false => exact .inr rfl
          | true =>
            left
            rcases h4 ho with h5 | h5 | ⟨h5, h6, h7⟩
            · simp only [takeHeader, Bool.or_eq_true] at h5
              rcases h5 with h5 | h5
              · exact h5.symm
              · have h5' := of_decide_eq_true h5
                simp only [ulogHdr, ulogData] at h5'
                omega
            · simp only [takeHeader] at h5
              omega
            · simp only [takeHeader] at h5 h7
              rcases hp2 with hp2 | hp2
              · exact absurd hp2 h5
              · have : (p.length - 16 - p.first).toNat = p.length.toNat - 16 - p.first.toNat := by
                  rw [UInt8.toNat_sub_of_le _ _ (UInt8.le_iff_toNat_le.2 (by omega)), hl16]
                omega
    · rename_i hwh
      obtain ⟨h2, h3, h4⟩ := h0.append r
      refine ⟨h2, fun ho => .inl (by rw [h3] at ho; exact ho), ?_⟩
      intro hp _
      obtain ⟨hp1, hp2⟩ := hp
      cases ho : u'.oob with
      | false => exact .inr rfl
      | true =>
        left
        rcases h4 ho with h5 | h5 | ⟨h5, h6, h7⟩
        · exact h5.symm
        · omega
        · rcases hp2 with hp2 | hp2
          · exact absurd hp2 h5
          · have : (p.length - p.first).toNat = p.length.toNat - p.first.toNat :=
              UInt8.toNat_sub_of_le _ _ (UInt8.le_iff_toNat_le.2 (by omega))
            omega

end Verif
