import Verif.Spec.Stream

/- Helper lemmas linking the receive-path model to the stream specification. -/

namespace Verif

theorem u8_and_one_ne_zero (x : UInt8) : (x &&& 0x01 ≠ 0) ↔ x.toNat % 2 = 1 := by
  have h1 : (x &&& 0x01).toNat = x.toNat % 2 := by
    rw [UInt8.toNat_and]; exact Nat.and_one_is_mod _
  constructor
  · intro h
    have : (x &&& 0x01).toNat ≠ 0 := fun hh => h (UInt8.toNat_inj.mp (by simpa using hh))
    omega
  · intro h hh
    rw [hh] at h1
    simp at h1
    omega

theorem u16_le_bytes (lo hi : UInt8) :
    (lo.toUInt16 ||| (hi.toUInt16 <<< 8)).toNat = lo.toNat + 256 * hi.toNat := by
  have hl := lo.toNat_lt
  have hh := hi.toNat_lt
  have h2 : (hi.toUInt16 <<< 8).toNat = hi.toNat <<< 8 := by
    rw [UInt16.toNat_shiftLeft]
    simp [Nat.shiftLeft_eq]
    omega
  rw [UInt16.toNat_or, h2, UInt8.toNat_toUInt16, Nat.or_comm,
    ← Nat.shiftLeft_add_eq_or_of_lt (by simpa using hl), Nat.shiftLeft_eq]
  omega

theorem isStx_iff (b : UInt8) : isStx b = (b == 0xFD || b == 0xFE) := rfl

theorem resync_eq (b : List UInt8) :
    resync b = b.dropWhile (fun b => !(b == 0xFD || b == 0xFE)) := rfl

/-- Empty or starting with a marker. -/
def AtStx (b : List UInt8) : Prop := b = [] ∨ ∃ t, b = 0xFD :: t ∨ b = 0xFE :: t

theorem atStx_resync (b : List UInt8) : AtStx (resync b) := by
  induction b with
  | nil => left; rfl
  | cons x t ih =>
    rw [resync_eq, List.dropWhile_cons]
    split
    · exact ih
    · rename_i h
      right
      refine ⟨t, ?_⟩
      simp at h
      rcases Decidable.em (x = 0xFD) with hx | hx
      · left; rw [hx]
      · right; rw [h hx]

theorem resync_of_atStx {b : List UInt8} (h : AtStx b) : resync b = b := by
  rcases h with h | ⟨t, h | h⟩ <;> subst h <;> rfl

theorem resync_resync (b : List UInt8) : resync (resync b) = resync b :=
  resync_of_atStx (atStx_resync b)

theorem list_length_ge {α} (n : Nat) (l : List α) (h : n + 1 ≤ l.length) :
    ∃ a t, l = a :: t ∧ n ≤ t.length := by
  cases l with
  | nil => simp at h
  | cons a t => exact ⟨a, t, rfl, by simpa using h⟩

theorem decode_v2 (t : List UInt8) :
    (decodeHdr (0xFD :: t) = none ∧ Spec.frameLen (0xFD :: t) = none ∧ (0xFD :: t).length < 10) ∨
    ∃ h, decodeHdr (0xFD :: t) = some h ∧ Spec.frameLen (0xFD :: t) = some h.size ∧
      Spec.frameInfo (0xFD :: t) = some (h.hdrLen, h.payloadLen, h.seq, h.sysid, h.compid, h.msgid) ∧
      h.hdrLen = 10 ∧ 10 ≤ (0xFD :: t).length ∧ h.payloadLen = (0xFD :: t).getD 1 0 ∧
      10 + h.payloadLen.toNat + 2 ≤ h.size ∧ h.size ≤ 280 := by
  by_cases hl : (0xFD :: t).length < 10
  · left
    refine ⟨by simp [decodeHdr, stxV2]; simp at hl; omega, ?_, hl⟩
    unfold Spec.frameLen
    split
    · rename_i heq; rw [heq] at hl; simp at hl; omega
    · rename_i heq; simp at heq
    · rfl
  · right
    obtain ⟨l1, t1, rfl, h1⟩ := list_length_ge 8 t (by simp at hl; omega)
    obtain ⟨l2, t2, rfl, h2⟩ := list_length_ge 7 t1 h1
    obtain ⟨l3, t3, rfl, h3⟩ := list_length_ge 6 t2 h2
    obtain ⟨l4, t4, rfl, h4⟩ := list_length_ge 5 t3 h3
    obtain ⟨l5, t5, rfl, h5⟩ := list_length_ge 4 t4 h4
    obtain ⟨l6, t6, rfl, h6⟩ := list_length_ge 3 t5 h5
    obtain ⟨l7, t7, rfl, h7⟩ := list_length_ge 2 t6 h6
    obtain ⟨l8, t8, rfl, h8⟩ := list_length_ge 1 t7 h7
    obtain ⟨l9, t9, rfl, h9⟩ := list_length_ge 0 t8 h8
    have hp := l1.toNat_lt
    refine ⟨_, by simp [decodeHdr, stxV2]; rfl, ?_, rfl, rfl, by simp, rfl, ?_, ?_⟩
    · simp only [Spec.frameLen]
      have := u8_and_one_ne_zero l2
      congr 1
      by_cases hc : l2.toNat % 2 = 1
      · have h' := this.mpr hc
        simp at h'
        simp [hc, h']; omega
      · have h' := mt this.mp hc
        simp at h'
        simp [hc, h']; omega
    · simp only []; omega
    · simp only []; split <;> omega

theorem decode_v1 (t : List UInt8) :
    (decodeHdr (0xFE :: t) = none ∧ Spec.frameLen (0xFE :: t) = none ∧ (0xFE :: t).length < 6) ∨
    ∃ h, decodeHdr (0xFE :: t) = some h ∧ Spec.frameLen (0xFE :: t) = some h.size ∧
      Spec.frameInfo (0xFE :: t) = some (h.hdrLen, h.payloadLen, h.seq, h.sysid, h.compid, h.msgid) ∧
      h.hdrLen = 6 ∧ 6 ≤ (0xFE :: t).length ∧ h.payloadLen = (0xFE :: t).getD 1 0 ∧
      h.size = 6 + h.payloadLen.toNat + 2 ∧ h.size ≤ 280 := by
  by_cases hl : (0xFE :: t).length < 6
  · left
    refine ⟨by simp [decodeHdr, stxV2]; simp at hl; omega, ?_, hl⟩
    unfold Spec.frameLen
    split
    · rename_i heq; simp at heq
    · rename_i heq; rw [heq] at hl; simp at hl; omega
    · rfl
  · right
    obtain ⟨l1, t1, rfl, h1⟩ := list_length_ge 4 t (by simp at hl; omega)
    obtain ⟨l2, t2, rfl, h2⟩ := list_length_ge 3 t1 h1
    obtain ⟨l3, t3, rfl, h3⟩ := list_length_ge 2 t2 h2
    obtain ⟨l4, t4, rfl, h4⟩ := list_length_ge 1 t3 h3
    obtain ⟨l5, t5, rfl, h5⟩ := list_length_ge 0 t4 h4
    have hp := l1.toNat_lt
    refine ⟨_, by simp [decodeHdr, stxV2]; rfl, ?_, rfl, rfl, by simp, rfl, rfl, ?_⟩
    · simp only [Spec.frameLen]
      congr 1
      show 8 + l1.toNat = 6 + l1.toNat + 2
      omega
    · show 6 + l1.toNat + 2 ≤ 280
      omega

/-- Summary of header decoding at a marker. -/
theorem decode_cases {b : List UInt8} (hb : AtStx b) :
    (decodeHdr b = none ∧ Spec.frameLen b = none ∧ b.length < 10) ∨
    ∃ h, decodeHdr b = some h ∧ Spec.frameLen b = some h.size ∧
      Spec.frameInfo b = some (h.hdrLen, h.payloadLen, h.seq, h.sysid, h.compid, h.msgid) ∧
      (if b.getD 0 0 = stxV2 then 10 else 6) = h.hdrLen ∧ 6 ≤ h.hdrLen ∧
      h.payloadLen = b.getD 1 0 ∧ h.hdrLen + h.payloadLen.toNat + 2 ≤ h.size ∧ h.size ≤ 280 ∧
      h.hdrLen ≤ b.length := by
  rcases hb with rfl | ⟨t, rfl | rfl⟩
  · left; exact ⟨rfl, rfl, by simp⟩
  · rcases decode_v2 t with ⟨a, b, c⟩ | ⟨h, h1, h2, h3, h4, h5, h6, h7, h8⟩
    · left; exact ⟨a, b, c⟩
    · right; exact ⟨h, h1, h2, h3, by simp [stxV2, h4], by omega, h6, by omega, h8, by omega⟩
  · rcases decode_v1 t with ⟨a, b, c⟩ | ⟨h, h1, h2, h3, h4, h5, h6, h7, h8⟩
    · left; exact ⟨a, b, by omega⟩
    · right; exact ⟨h, h1, h2, h3, by simp [stxV2, h4], by omega, h6, by omega, h8, by omega⟩

/-- `frameInfo` only looks at the header. -/
theorem frameInfo_take {b : List UInt8} {n : Nat} {x}
    (h : Spec.frameInfo b = some x) (hn : x.1 ≤ n) : Spec.frameInfo (b.take n) = some x := by
  unfold Spec.frameInfo at h
  split at h
  · cases h
    obtain ⟨m, rfl⟩ : ∃ m, n = m + 10 := ⟨n - 10, by simp at hn; omega⟩
    rfl
  · cases h
    obtain ⟨m, rfl⟩ : ∃ m, n = m + 6 := ⟨n - 6, by simp at hn; omega⟩
    rfl
  · cases h

theorem crcValid_iff (e : MsgEntry) (b : List UInt8) (hl pl n : Nat)
    (hh : (if b.getD 0 0 = stxV2 then 10 else 6) = hl) (hp : (b.getD 1 0).toNat = pl)
    (h1 : 1 ≤ hl) (hn : hl + pl + 2 ≤ n) (hb : n ≤ b.length) :
    checkCrc e b = true ↔ Spec.crcValid e.crcExtra hl pl (b.take n) := by
  have hlo : hl + pl < b.length := by omega
  have hhi : hl + pl + 1 < b.length := by omega
  -- the canonical decomposition
  have hdec : (b.take n).drop 1 = (b.drop 1).take (hl + pl - 1) ++
      b.getD (hl + pl) 0 :: b.getD (hl + pl + 1) 0 :: ((b.take n).drop (hl + pl + 2)) := by
    apply List.ext_getElem?
    intro i
    rw [List.getElem?_drop, List.getElem?_take]
    by_cases hi : i < hl + pl - 1
    · rw [List.getElem?_append_left (by simp; omega)]
      rw [List.getElem?_take, List.getElem?_drop]
      simp [hi, show 1 + i < n by omega]
    · rw [List.getElem?_append_right (by simp; omega)]
      have hlen : ((b.drop 1).take (hl + pl - 1)).length = hl + pl - 1 := by simp; omega
      rw [hlen]
      obtain ⟨j, rfl⟩ : ∃ j, i = hl + pl - 1 + j := ⟨i - (hl + pl - 1), by omega⟩
      rw [show hl + pl - 1 + j - (hl + pl - 1) = j by omega,
        show 1 + (hl + pl - 1 + j) = hl + pl + j by omega]
      match j with
      | 0 => simp [List.getD_eq_getElem?_getD, show hl + pl < n by omega, hlo]
      | 1 => simp [List.getD_eq_getElem?_getD, show hl + pl + 1 < n by omega, hhi]
      | j + 2 =>
        simp only [List.getElem?_cons_succ]
        rw [List.getElem?_drop, List.getElem?_take]
        rw [show hl + pl + 2 + j = hl + pl + (j + 2) by omega]
  have key : ∀ (lo hi : UInt8) (c : UInt16),
      (c == (lo.toUInt16 ||| (hi.toUInt16 <<< 8))) = true ↔ c.toNat = lo.toNat + 256 * hi.toNat := by
    intro lo hi c
    rw [beq_iff_eq, ← UInt16.toNat_inj, u16_le_bytes]
  have hfold : ∀ body : List UInt8,
      (body ++ [e.crcExtra]).foldl (fun c b => crcAccumulate b c) 0xffff =
        crcAccumulate e.crcExtra (crcCalculate body) := by
    intro body; simp [List.foldl_append, crcCalculate, crcInit]
  unfold checkCrc Spec.crcValid
  simp only [hh, hp]
  rw [key]
  constructor
  · intro h
    exact ⟨_, _, _, _, hdec, by simp; omega, by rw [hfold]; exact h⟩
  · rintro ⟨body, lo, hi, sig, h1', h2', h3'⟩
    rw [hdec] at h1'
    have := List.append_inj h1' (by rw [h2']; simp; omega)
    obtain ⟨hA, hB⟩ := this
    simp only [List.cons.injEq] at hB
    obtain ⟨hB1, hB2, _⟩ := hB
    rw [← hfold, hA, hB1, hB2]
    exact h3'

theorem getD_zero_append_replicate (l : List UInt8) (n k : Nat) :
    (l ++ List.replicate k 0).getD n 0 = l.getD n 0 := by
  rw [List.getD_eq_getElem?_getD, List.getD_eq_getElem?_getD, List.getElem?_append]
  split
  · rfl
  · rename_i h
    rw [List.getElem?_replicate]
    rw [List.getElem?_eq_none (by omega)]
    split <;> rfl

theorem targetField_eq (pres : Bool) (ofs : Nat) (b : List UInt8) (hl : Nat) (pl : UInt8) (n : Nat)
    (hn : hl + pl.toNat ≤ n) :
    targetField pres ofs b hl pl
      = Spec.target pres ofs (((b.take n).drop hl).take pl.toNat) := by
  unfold targetField Spec.target
  cases pres with
  | false => simp
  | true =>
    simp only [↓reduceIte]
    rw [getD_zero_append_replicate]
    split
    · rename_i h
      rw [List.getD_eq_getElem?_getD, List.getD_eq_getElem?_getD, List.getElem?_take,
        if_pos h, List.getElem?_drop, List.getElem?_take, if_pos (by omega)]
    · rename_i h
      rw [List.getD_eq_getElem?_getD, List.getElem?_eq_none (by simp; omega)]
      rfl

end Verif
