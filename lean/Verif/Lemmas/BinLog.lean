import Verif.Spec.BinLog

namespace Verif

open Verif.Spec

theorem writeAt_get (c : List UInt8) (off : Nat) (bs : List UInt8) (i : Nat) (hbs : bs ≠ []) :
    (writeAt c off bs)[i]? =
      if i < off then (if i < c.length then c[i]? else some 0)
      else if i < off + bs.length then bs[i - off]? else c[i]? := by
  unfold writeAt
  rw [if_neg hbs]
  by_cases h1 : i < off
  · rw [if_pos h1]
    by_cases h2 : i < c.length
    · rw [if_pos h2, List.append_assoc, List.append_assoc, List.getElem?_append_left (by simp; omega),
        List.getElem?_take, if_pos h1]
    · rw [if_neg h2, List.append_assoc, List.append_assoc, List.getElem?_append_right (by simp; omega),
        List.getElem?_append_left (by simp; omega)]
      rw [List.getElem?_replicate, if_pos (by simp; omega)]
  · rw [if_neg h1]
    have hlen : (c.take off ++ List.replicate (off - c.length) (0 : UInt8)).length = off := by
      simp; omega
    by_cases h2 : i < off + bs.length
    · rw [if_pos h2, List.append_assoc, List.getElem?_append_right (by omega), hlen,
        List.getElem?_append_left (by omega)]
    · rw [if_neg h2, List.append_assoc, List.getElem?_append_right (by omega), hlen,
        List.getElem?_append_right (by omega), List.getElem?_drop]
      congr 1
      omega

/-- The content a list of writes leaves, as the program computes it. -/
def laidOut (ws : List BlockWrite) : List UInt8 :=
  ws.foldl (fun c w => writeAt c (blockOffset w.seqno) w.bytes) []

theorem laidOut_snoc (ws : List BlockWrite) (w : BlockWrite) :
    laidOut (ws ++ [w]) = writeAt (laidOut ws) (blockOffset w.seqno) w.bytes := by
  simp [laidOut]

theorem blockOffset_eq {n : UInt32} (h : n.toNat < blockLimit) : blockOffset n = 200 * n.toNat := by
  unfold blockOffset
  rw [UInt32.toNat_mul]
  have : (200 : UInt32).toNat = 200 := rfl
  rw [this]
  unfold blockLimit at h
  omega

theorem binSize_snoc (ws : List BlockWrite) (w : BlockWrite) :
    binSize (ws ++ [w]) =
      if w.bytes = [] then binSize ws else max (binSize ws) (200 * w.seqno.toNat + w.bytes.length) := by
  induction ws with
  | nil => simp only [List.nil_append, binSize]; split <;> simp
  | cons v ws ih =>
    simp only [List.cons_append, binSize, ih]
    split <;> split <;> omega

theorem binByte_snoc (ws : List BlockWrite) (w : BlockWrite) (i : Nat) :
    binByte (ws ++ [w]) i =
      if w.seqno.toNat = i / 200 ∧ i % 200 < w.bytes.length then w.bytes.getD (i % 200) 0
      else binByte ws i := by
  unfold binByte
  rw [List.reverse_append]
  simp only [List.reverse_cons, List.reverse_nil, List.nil_append, List.cons_append, List.find?_cons]
  by_cases h : w.seqno.toNat = i / 200 ∧ i % 200 < w.bytes.length
  · simp [h]
  · rw [if_neg h]
    simp [h]

theorem binByte_ge {ws : List BlockWrite} {i : Nat} (h : binSize ws ≤ i) : binByte ws i = 0 := by
  unfold binByte
  have : ws.reverse.find? (fun w => decide (w.seqno.toNat = i / 200 ∧ i % 200 < w.bytes.length)) = none := by
    rw [List.find?_eq_none]
    intro w hw
    rw [List.mem_reverse] at hw
    intro hc
    have hc := of_decide_eq_true hc
    have : ∀ ws : List BlockWrite, w ∈ ws → w.bytes ≠ [] →
        200 * w.seqno.toNat + w.bytes.length ≤ binSize ws := by
      intro ws
      induction ws with
      | nil => intro h; cases h
      | cons v vs ih =>
        intro hm hne
        simp only [binSize]
        rcases List.mem_cons.mp hm with rfl | hm
        · rw [if_neg hne]; omega
        · have := ih hm hne
          split <;> omega
    have hne : w.bytes ≠ [] := by
      intro h0
      rw [h0] at hc
      simp at hc
    have := this ws hw hne
    omega
  rw [this]

/-- The program's layout is the specified one. -/
theorem laidOut_binFile {ws : List BlockWrite} (hnum : ∀ w ∈ ws, w.seqno.toNat < blockLimit)
    (hlen : ∀ w ∈ ws, w.bytes.length ≤ 200) : BinFile ws (laidOut ws) := by
  rw [← List.reverse_reverse ws] at *
  generalize ws.reverse = rs at *
  induction rs with
  | nil => intro i; simp [laidOut, binSize]
  | cons w rs ih =>
    rw [List.reverse_cons] at *
    have hn' := fun v hv => hnum v (List.mem_append_left _ hv)
    have hl' := fun v hv => hlen v (List.mem_append_left _ hv)
    have ih := ih hn' hl'
    have hw := blockOffset_eq (hnum w (by simp))
    have hwl := hlen w (by simp)
    intro i
    rw [laidOut_snoc, binSize_snoc, binByte_snoc, hw]
    have hc : (laidOut rs.reverse).length = binSize rs.reverse := by
      have h1 := ih (binSize rs.reverse)
      rw [if_neg (by omega), List.getElem?_eq_none_iff] at h1
      rcases Nat.lt_or_ge (laidOut rs.reverse).length (binSize rs.reverse) with h2 | h2
      · have h3 := ih (laidOut rs.reverse).length
        rw [if_pos h2] at h3
        simp at h3
      · omega
    by_cases hb : w.bytes = []
    · rw [if_pos hb]
      simp only [writeAt, hb, if_true, List.length_nil, Nat.not_lt_zero, and_false, if_false]
      exact ih i
    · rw [if_neg hb, writeAt_get _ _ _ _ hb, hc]
      have hpos : 0 < w.bytes.length := List.length_pos_iff.mpr hb
      by_cases hm : w.seqno.toNat = i / 200 ∧ i % 200 < w.bytes.length
      · rw [if_pos hm, if_neg (show ¬ i < 200 * w.seqno.toNat by omega),
          if_pos (show i < 200 * w.seqno.toNat + w.bytes.length by omega),
          if_pos (show i < max (binSize rs.reverse) (200 * w.seqno.toNat + w.bytes.length) by omega)]
        have : i - 200 * w.seqno.toNat = i % 200 := by omega
        rw [this, List.getD_eq_getElem?_getD, List.getElem?_eq_getElem hm.2]
        rfl
      · rw [if_neg hm]
        by_cases h1 : i < 200 * w.seqno.toNat
        · rw [if_pos h1,
            if_pos (show i < max (binSize rs.reverse) (200 * w.seqno.toNat + w.bytes.length) by omega)]
          by_cases h2 : i < binSize rs.reverse
          · rw [if_pos h2, ih i, if_pos h2]
          · rw [if_neg h2, binByte_ge (by omega)]
        · rw [if_neg h1, if_neg (show ¬ i < 200 * w.seqno.toNat + w.bytes.length by omega), ih i]
          by_cases h3 : i < binSize rs.reverse
          · rw [if_pos h3,
              if_pos (show i < max (binSize rs.reverse) (200 * w.seqno.toNat + w.bytes.length) by omega)]
          · rw [if_neg h3,
              if_neg (show ¬ i < max (binSize rs.reverse) (200 * w.seqno.toNat + w.bytes.length) by omega)]

theorem BinFile.unique {ws : List BlockWrite} {c d : List UInt8} (hc : BinFile ws c) (hd : BinFile ws d) :
    c = d := List.ext_getElem? fun i => (hc i).trans (hd i).symm

theorem nackFrom_eq (n : UInt32) (fuel : Nat) (i : UInt32) (h : n.toNat - i.toNat ≤ fuel) :
    nackFrom n fuel i = List.replicate (n.toNat - i.toNat) (.blockNack n) := by
  induction fuel generalizing i with
  | zero =>
    have : n.toNat - i.toNat = 0 := by omega
    rw [this]
    rfl
  | succ fuel ih =>
    rw [nackFrom]
    by_cases hlt : i < n
    · have hlt' := UInt32.lt_iff_toNat_lt.mp hlt
      have := n.toNat_lt
      have h1 : (i + 1).toNat = i.toNat + 1 := by
        rw [UInt32.toNat_add]
        have h1 : (1 : UInt32).toNat = 1 := rfl
        rw [h1]
        omega
      rw [if_pos hlt, ih (i + 1) (by omega), h1]
      have : n.toNat - i.toNat = (n.toNat - (i.toNat + 1)) + 1 := by omega
      rw [this, List.replicate_succ]
    · rw [if_neg hlt]
      have : n.toNat - i.toNat = 0 := by
        rw [UInt32.lt_iff_toNat_lt] at hlt
        omega
      rw [this]
      rfl

theorem nackLoop_eq (i n : UInt32) : nackLoop i n = List.replicate (n.toNat - i.toNat) (.blockNack n) :=
  nackFrom_eq n _ i (by have := n.toNat_lt; omega)

end Verif
