import Verif.Lemmas.Crc
import Verif.Props.Rx

/- Property C04: corruption of one byte is always detected. -/

namespace Verif

open Spec

theorem crcValid_one_byte {extra : UInt8} {h n : Nat} {s : UInt8} {pre post : List UInt8} {x y : UInt8}
    (hxy : x ≠ y) (hpos : pre.length < h - 1 + n + 2)
    (hv : crcValid extra h n (s :: (pre ++ x :: post))) :
    ¬ crcValid extra h n (s :: (pre ++ y :: post)) := by
  rintro ⟨b', lo', hi', sig', e', l', c'⟩
  obtain ⟨b, lo, hi, sig, e, l, c⟩ := hv
  simp only [List.drop_succ_cons, List.drop_zero] at e e'
  by_cases hin : pre.length < h - 1 + n
  · -- the altered byte is checksummed
    have hb : b = pre ++ x :: post.take (h - 1 + n - pre.length - 1) := by
      have := congrArg (List.take b.length) e
      rw [List.take_left, l, List.take_append] at this
      rw [← this, List.take_of_length_le (by omega)]
      congr 1
      rw [show h - 1 + n - pre.length = (h - 1 + n - pre.length - 1) + 1 by omega]
      simp
    have hb' : b' = pre ++ y :: post.take (h - 1 + n - pre.length - 1) := by
      have := congrArg (List.take b'.length) e'
      rw [List.take_left, l', List.take_append] at this
      rw [← this, List.take_of_length_le (by omega)]
      congr 1
      rw [show h - 1 + n - pre.length = (h - 1 + n - pre.length - 1) + 1 by omega]
      simp
    have ht : lo :: hi :: sig = lo' :: hi' :: sig' := by
      have a := congrArg (List.drop b.length) e
      have a' := congrArg (List.drop b'.length) e'
      rw [List.drop_left, l, List.drop_append, List.drop_of_length_le (by omega)] at a
      rw [List.drop_left, l', List.drop_append, List.drop_of_length_le (by omega)] at a'
      rw [show h - 1 + n - pre.length = (h - 1 + n - pre.length - 1) + 1 by omega] at a a'
      simp only [List.nil_append, List.drop_succ_cons] at a a'
      rw [← a, ← a']
    cases ht
    rw [← c'] at c
    have := UInt16.toNat_inj.mp c
    rw [hb, hb', List.append_assoc, List.append_assoc, List.cons_append, List.cons_append] at this
    exact crc_one_byte _ _ _ _ hxy _ this
  · -- the altered byte is a checksum byte
    have hb : b = pre.take (h - 1 + n) := by
      have := congrArg (List.take b.length) e
      rw [List.take_left, l, List.take_append_of_le_length (by omega)] at this
      exact this.symm
    have hb' : b' = pre.take (h - 1 + n) := by
      have := congrArg (List.take b'.length) e'
      rw [List.take_left, l', List.take_append_of_le_length (by omega)] at this
      exact this.symm
    rw [hb, ← hb', c'] at c
    have hlo := lo.toNat_lt
    have hlo' := lo'.toNat_lt
    have e1 : lo' = lo := UInt8.toNat_inj.mp (by omega)
    have e2 : hi' = hi := UInt8.toNat_inj.mp (by omega)
    have a := congrArg (List.drop b.length) e
    have a' := congrArg (List.drop b'.length) e'
    rw [List.drop_left, l, List.drop_append_of_le_length (by omega)] at a
    rw [List.drop_left, l', List.drop_append_of_le_length (by omega)] at a'
    rw [e1, e2] at a'
    have hlen : (pre.drop (h - 1 + n)).length = 0 ∨ (pre.drop (h - 1 + n)).length = 1 := by
      simp; omega
    rcases hlen with h0 | h1
    · rw [List.length_eq_zero_iff.mp h0] at a a'
      simp only [List.nil_append] at a a'
      have := List.cons.inj a
      have := List.cons.inj a'
      simp_all
    · obtain ⟨z, hz⟩ := List.length_eq_one_iff.mp h1
      rw [hz] at a a'
      simp at a a'
      exact hxy (by rw [a.2.1, a'.2.1])

/-- **C04**: alter one byte of a valid frame of a known message, anywhere after the start marker up to and
including the checksum, leaving the frame's length byte and message id alone: the frame is not handed on, and
is counted as a checksum error. -/
theorem C04_one_byte_detected (tbl : MsgTable) (f : Frame) (hw : f.WF) (e : MsgEntry)
    (hknown : tbl f.msgid = some e) (hcrc : f.CrcOk tbl)
    (s : UInt8) (pre post : List UInt8) (x y : UInt8) (hxy : x ≠ y)
    (horig : f.encode = s :: (pre ++ x :: post))
    (hpos : pre.length < (if f.v2 then 10 else 6) - 1 + f.payload.length + 2)
    (hsame : ∃ seq sys comp, frameInfo (s :: (pre ++ y :: post)) =
      some (if f.v2 then 10 else 6, UInt8.ofNat f.payload.length, seq, sys, comp, f.msgid))
    (hcomplete : firstFrame (s :: (pre ++ y :: post)) = some (s :: (pre ++ y :: post), []))
    (rx : Rx) (hidle : rx.lastLen = 0) (hempty : rx.buf = []) :
    (handleReadRx tbl rx (.got (s :: (pre ++ y :: post)))).2.1 = [] ∧
    (handleReadRx tbl rx (.got (s :: (pre ++ y :: post)))).1.stat.crcError = rx.stat.crcError + 1 := by
  have hcor : Corrupt tbl (s :: (pre ++ y :: post)) := by
    obtain ⟨seq, sys, comp, hi⟩ := hsame
    refine ⟨_, _, _, _, _, _, e, hi, hknown, ?_⟩
    rw [ofNat_toNat_u8 hw.1]
    have hval : crcValid e.crcExtra (if f.v2 then 10 else 6) f.payload.length f.encode :=
      ⟨f.body, f.crcLo, f.crcHi, f.signature, rfl, body_length f, hcrc e hknown⟩
    rw [horig] at hval
    exact crcValid_one_byte hxy hpos hval
  obtain ⟨h1, _, h3⟩ := C03_corrupt_only_counted tbl _ rx hidle hempty hcomplete hcor
  exact ⟨h1, by rw [h3]⟩

/-- Non-trivial instance: the heartbeat's type byte 2 changed to 99. -/
example : (handleReadRx Sample.tbl {} (.got
    (253 :: ([9, 0, 0, 7, 1, 1, 0, 0, 0, 0, 0, 0, 0] ++ 99 :: [3, 81, 4, 3, 164, 172])))).2.1 = [] :=
  (C04_one_byte_detected Sample.tbl Sample.hb2 Sample.hb2_wf Sample.heartbeatEntry rfl Sample.hb2_crc
    253 [9, 0, 0, 7, 1, 1, 0, 0, 0, 0, 0, 0, 0] [3, 81, 4, 3, 164, 172] 2 99 (by decide) (by decide)
    (by decide) ⟨7, 1, 1, by decide⟩ (by decide) {} rfl rfl).1

end Verif
