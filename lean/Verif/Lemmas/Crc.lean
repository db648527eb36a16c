import Verif.Model.Crc

/- The checksum step is injective in the running value and in the data byte. -/

namespace Verif

/-- The part of the step that depends only on `data ^ low byte`. -/
def crcR (t : UInt8) : UInt16 :=
  let tmp := t ^^^ (t <<< 4)
  (tmp.toUInt16 <<< 8) ^^^ (tmp.toUInt16 <<< 3) ^^^ (tmp.toUInt16 >>> 4)

/-- Recovers `t` from the high byte of `crcR t`. -/
def crcRinv (r : UInt16) : UInt8 :=
  let hi := (r >>> 8).toUInt8
  let tmp := hi ^^^ (hi >>> 5)
  tmp ^^^ (tmp <<< 4)

theorem forall_u8 {p : UInt8 → Prop} (h : ∀ i : Fin 256, p (UInt8.ofNat i.val)) (t : UInt8) : p t := by
  have := h ⟨t.toNat, t.toNat_lt⟩
  simpa using this

theorem crcRinv_crcR (t : UInt8) : crcRinv (crcR t) = t := by
  revert t
  apply forall_u8
  decide +kernel

theorem crcAccumulate_eq (d : UInt8) (c : UInt16) :
    crcAccumulate d c = (c >>> 8) ^^^ crcR (d ^^^ c.toUInt8) := by
  simp only [crcAccumulate, crcR, UInt16.xor_assoc]

theorem u16_shr_shr (c : UInt16) : (c >>> 8) >>> 8 = 0 := by
  apply UInt16.toNat_inj.mp
  simp only [UInt16.toNat_shiftRight]
  have := c.toNat_lt
  simp [Nat.shiftRight_eq_div_pow]
  omega

/-- What a step's result tells about its inputs. -/
theorem crcAccumulate_inv {d d' : UInt8} {c c' : UInt16} (h : crcAccumulate d c = crcAccumulate d' c') :
    d ^^^ c.toUInt8 = d' ^^^ c'.toUInt8 ∧ c >>> 8 = c' >>> 8 := by
  have hinv : ∀ (d : UInt8) (c : UInt16), crcRinv (crcAccumulate d c) = d ^^^ c.toUInt8 := by
    intro d c
    have : (crcAccumulate d c) >>> 8 = crcR (d ^^^ c.toUInt8) >>> 8 := by
      rw [crcAccumulate_eq, UInt16.shiftRight_xor, u16_shr_shr]
      simp
    have h2 := crcRinv_crcR (d ^^^ c.toUInt8)
    simp only [crcRinv] at h2 ⊢
    rw [this]
    exact h2
  have h1 : d ^^^ c.toUInt8 = d' ^^^ c'.toUInt8 := by rw [← hinv, ← hinv, h]
  refine ⟨h1, ?_⟩
  rw [crcAccumulate_eq, crcAccumulate_eq, h1] at h
  have := congrArg (· ^^^ crcR (d' ^^^ c'.toUInt8)) h
  simpa [UInt16.xor_assoc] using this

theorem crcAccumulate_inj_data {d d' : UInt8} {c : UInt16} (h : crcAccumulate d c = crcAccumulate d' c) :
    d = d' := by
  have := (crcAccumulate_inv h).1
  have := congrArg (· ^^^ c.toUInt8) this
  simpa [UInt8.xor_assoc] using this

theorem u16_ext {c c' : UInt16} (h1 : c.toUInt8 = c'.toUInt8) (h2 : c >>> 8 = c' >>> 8) : c = c' := by
  apply UInt16.toNat_inj.mp
  have a := congrArg UInt8.toNat h1
  have b := congrArg UInt16.toNat h2
  simp only [UInt16.toNat_toUInt8, UInt16.toNat_shiftRight] at a b
  simp [Nat.shiftRight_eq_div_pow] at a b
  omega

theorem crcAccumulate_inj_crc {d : UInt8} {c c' : UInt16} (h : crcAccumulate d c = crcAccumulate d c') :
    c = c' := by
  obtain ⟨h1, h2⟩ := crcAccumulate_inv h
  have := congrArg (d ^^^ ·) h1
  simp only [← UInt8.xor_assoc, UInt8.xor_self, UInt8.zero_xor] at this
  exact u16_ext this h2

theorem foldl_crc_inj (l : List UInt8) : ∀ {c c' : UInt16},
    l.foldl (fun c b => crcAccumulate b c) c = l.foldl (fun c b => crcAccumulate b c) c' → c = c' := by
  induction l with
  | nil => intro c c' h; exact h
  | cons x t ih => intro c c' h; exact crcAccumulate_inj_crc (ih h)

/-- Changing one byte always changes the checksum. -/
theorem crc_one_byte (pre post : List UInt8) (x y : UInt8) (hxy : x ≠ y) (c : UInt16) :
    (pre ++ x :: post).foldl (fun c b => crcAccumulate b c) c ≠
      (pre ++ y :: post).foldl (fun c b => crcAccumulate b c) c := by
  intro h
  simp only [List.foldl_append, List.foldl_cons] at h
  exact hxy (crcAccumulate_inj_data (foldl_crc_inj post h))

end Verif
