import Verif.Spec.Routing

/- Helper lemmas about routing: addresses, the accept decision, learning, the route loop. -/

namespace Verif

open Spec

theorem sysComp_toNat (s c : UInt8) : (sysComp s c).toNat = 256 * s.toNat + c.toNat := by
  have hs := s.toNat_lt
  have hc := c.toNat_lt
  have h1 : (s.toUInt16 <<< 8).toNat = s.toNat <<< 8 := by
    rw [UInt16.toNat_shiftLeft]
    simp [Nat.shiftLeft_eq]
    omega
  unfold sysComp
  rw [UInt16.toNat_or, h1, UInt8.toNat_toUInt16, ← Nat.shiftLeft_add_eq_or_of_lt (by omega),
    Nat.shiftLeft_eq]
  omega

theorem hasSysComp_iff (e : Ep) (s c : UInt8) :
    e.hasSysComp (sysComp s c) = true ↔ Knows e s.toNat c.toNat := by
  unfold Ep.hasSysComp Knows
  rw [List.any_eq_true]
  constructor
  · rintro ⟨x, hx, h⟩
    have : sysComp s c = x := by simpa using h
    exact ⟨x, hx, by rw [← this, sysComp_toNat]⟩
  · rintro ⟨x, hx, h⟩
    refine ⟨x, hx, ?_⟩
    have : sysComp s c = x := UInt16.toNat_inj.mp (by rw [sysComp_toNat, h])
    simp [this]

theorem hasSysComp_mem (e : Ep) (id : UInt16) : e.hasSysComp id = true ↔ id ∈ e.learned := by
  unfold Ep.hasSysComp
  simp [List.any_eq_true]

theorem hasSysComp2_iff (e : Ep) (s c : Int) (hs : 0 ≤ s ∧ s ≤ 255) (hc : 0 ≤ c ∧ c ≤ 255) :
    e.hasSysComp2 s c = true ↔ Knows e s.toNat c.toNat := by
  unfold Ep.hasSysComp2
  rw [hasSysComp_iff]
  have h1 : (UInt8.ofNat (s % 256).toNat).toNat = s.toNat := by
    rw [UInt8.toNat_ofNat']; omega
  have h2 : (UInt8.ofNat (c % 256).toNat).toNat = c.toNat := by
    rw [UInt8.toNat_ofNat']; omega
  rw [h1, h2]

theorem hasSysId_iff (e : Ep) (s : Int) (hs : 0 ≤ s ∧ s ≤ 255) :
    e.hasSysId s = true ↔ KnowsSys e s.toNat := by
  unfold Ep.hasSysId KnowsSys Knows
  rw [List.any_eq_true]
  have hsm : (s % 256).toNat = s.toNat := by omega
  have hsh : ∀ x : UInt16, (x >>> 8).toNat = x.toNat / 256 := by
    intro x
    rw [UInt16.toNat_shiftRight]
    simp [Nat.shiftRight_eq_div_pow]
  constructor
  · rintro ⟨x, hx, h⟩
    rw [beq_iff_eq, hsh, hsm] at h
    exact ⟨x.toNat % 256, by omega, x, hx, by omega⟩
  · rintro ⟨c, hc, x, hx, h⟩
    refine ⟨x, hx, ?_⟩
    rw [beq_iff_eq, hsh, hsm]
    omega

theorem filterDrops_iff {α} [BEq α] [LawfulBEq α] (allow block : List α) (x : α) :
    filterDrops allow block x = false ↔ passes allow block x := by
  unfold filterDrops passes
  have key : ∀ a b : Prop, (¬ a → b) ↔ (a ∨ b) := fun a b =>
    ⟨fun h => (Classical.em a).imp_right h, fun h ha => h.resolve_left ha⟩
  cases allow <;> cases block <;> simp [key, and_comm]

theorem filterDrops_true_iff {α} [BEq α] [LawfulBEq α] (allow block : List α) (x : α) :
    filterDrops allow block x = true ↔ ¬ passes allow block x := by
  rw [← filterDrops_iff]; simp

/-- A system id is compared modulo 256. -/
theorem hasSysId_mod (e : Ep) (s : Int) : e.hasSysId s = e.hasSysId (s % 256) := by
  unfold Ep.hasSysId
  rw [Int.emod_emod]

/-- The accept decision, completely, for every sniffer setting. -/
theorem acceptMsg_spec (sniffer : UInt16) (e : Ep) (m : Msg) (hm : MsgOk m) :
    acceptMsg sniffer e m =
      (open Classical in
       if FromHere e m then .rejected
       else if ¬ outOk e.filters m then .filtered
       else if Addressed e m ∨ Sniffs sniffer.toNat e then .accepted
       else .rejected) := by
  have hid : m.msgId ≠ uint32Max := by have := hm.id; unfold uint32Max; omega
  have hsrc : e.hasSysComp2 m.srcSys.toNat m.srcComp.toNat = true ↔ FromHere e m := by
    rw [hasSysComp2_iff _ _ _ ⟨by omega, by have := m.srcSys.toNat_lt; omega⟩
      ⟨by omega, by have := m.srcComp.toNat_lt; omega⟩]
    simp [FromHere]
  have hsniff : (sniffer ≠ 0 ∧ e.hasSysId sniffer.toNat = true) ↔ Sniffs sniffer.toNat e := by
    rw [hasSysId_mod, hasSysId_iff _ _ ⟨by omega, by omega⟩]
    unfold Sniffs
    have : sniffer ≠ 0 ↔ sniffer.toNat ≠ 0 := by
      rw [Ne, Ne, ← UInt16.toNat_inj]; simp
    have h2 : ((sniffer.toNat : Int) % 256).toNat = sniffer.toNat % 256 := by omega
    rw [this, h2]
  have hadd : (m.targetSys = 0 ∨ m.targetSys = -1) ∨
      (m.targetComp > 0 ∧ e.hasSysComp2 m.targetSys m.targetComp = true) ∨
      ((m.targetComp = 0 ∨ m.targetComp = -1) ∧ e.hasSysId m.targetSys = true) ↔ Addressed e m := by
    have h1 := hm.tsys
    have h2 := hm.tcomp
    unfold Addressed
    by_cases hb : m.targetSys ≤ 0
    · have : m.targetSys = 0 ∨ m.targetSys = -1 := by omega
      simp [hb, this]
    · have hb' : ¬ (m.targetSys = 0 ∨ m.targetSys = -1) := by omega
      have hc : (m.targetComp = 0 ∨ m.targetComp = -1) ↔ m.targetComp ≤ 0 := by omega
      rw [hasSysId_iff _ _ ⟨by omega, by omega⟩, hc]
      simp only [hb, hb', false_or]
      by_cases hcp : m.targetComp > 0
      · rw [hasSysComp2_iff _ _ _ ⟨by omega, by omega⟩ ⟨by omega, by omega⟩]
        have : ¬ m.targetComp ≤ 0 := by omega
        simp [hcp, this]
      · have h0 : ¬ (0 < m.targetComp) := by omega
        simp [h0]
  have f1 : (m.msgId ≠ uint32Max ∧ filterDrops e.filters.allowOutMsg e.filters.blockOutMsg m.msgId = true) ↔
      ¬ passes e.filters.allowOutMsg e.filters.blockOutMsg m.msgId := by
    rw [filterDrops_true_iff]; exact ⟨fun h => h.2, fun h => ⟨hid, h⟩⟩
  have f2 : (m.msgId ≠ uint32Max ∧ filterDrops e.filters.allowOutComp e.filters.blockOutComp m.srcComp = true) ↔
      ¬ passes e.filters.allowOutComp e.filters.blockOutComp m.srcComp := by
    rw [filterDrops_true_iff]; exact ⟨fun h => h.2, fun h => ⟨hid, h⟩⟩
  have f3 : (m.msgId ≠ uint32Max ∧ filterDrops e.filters.allowOutSys e.filters.blockOutSys m.srcSys = true) ↔
      ¬ passes e.filters.allowOutSys e.filters.blockOutSys m.srcSys := by
    rw [filterDrops_true_iff]; exact ⟨fun h => h.2, fun h => ⟨hid, h⟩⟩
  unfold acceptMsg
  by_cases h1 : FromHere e m
  · rw [if_pos (hsrc.mpr h1), if_pos h1]
  · rw [if_neg (fun h => h1 (hsrc.mp h)), if_neg h1]
    by_cases h2 : outOk e.filters m
    · have h2' := h2
      obtain ⟨a, b, c⟩ := h2
      rw [if_neg (fun h => f1.mp h a), if_neg (fun h => f2.mp h b), if_neg (fun h => f3.mp h c),
        if_neg (not_not_intro h2')]
      by_cases h3 : Addressed e m
      · rw [if_pos (Or.inl h3)]
        rcases hadd.mpr h3 with h | h | h
        · rw [if_pos h]
        · split
          · rfl
          · first | rfl | rw [if_pos h]
        · split
          · rfl
          · split
            · rfl
            · first | rfl | rw [if_pos h]
      · have h4 := fun h => h3 (hadd.mp h)
        rw [if_neg (fun h => h4 (.inl h)), if_neg (fun h => h4 (.inr (.inl h))),
          if_neg (fun h => h4 (.inr (.inr h)))]
        by_cases h5 : Sniffs sniffer.toNat e
        · rw [if_pos (hsniff.mpr h5), if_pos (Or.inr h5)]
        · rw [if_neg (fun h => h5 (hsniff.mp h)), if_neg (fun h => h.elim h3 h5)]
    · rw [if_pos h2]
      unfold outOk at h2
      split
      · rfl
      · split
        · rfl
        · split
          · rfl
          · rename_i x y z
            exact absurd ⟨Classical.not_not.mp (fun h => x (f1.mpr h)),
              Classical.not_not.mp (fun h => y (f2.mpr h)), Classical.not_not.mp (fun h => z (f3.mpr h))⟩ h2

theorem acceptMsg_accepted (sniffer : UInt16) (e : Ep) (m : Msg) (hm : MsgOk m) :
    acceptMsg sniffer e m = .accepted ↔ ShouldSend sniffer.toNat e m := by
  rw [acceptMsg_spec sniffer e m hm]
  unfold ShouldSend
  by_cases h1 : FromHere e m <;> by_cases h2 : outOk e.filters m <;>
    by_cases h3 : Addressed e m ∨ Sniffs sniffer.toNat e <;> simp [h1, h2, h3]

/-- The decision does not look at the bytes. -/
theorem acceptMsg_data (sniffer : UInt16) (e : Ep) (m : Msg) (data : List UInt8) :
    acceptMsg sniffer e { m with data := data } = acceptMsg sniffer e m := rfl

end Verif
