import Verif.Lemmas.RxFrames

/- Statistics of the receive path. -/

namespace Verif

open Spec

/-- Every counted packet is handled, a checksum error, or lost (modulo 2^32). -/
def RxStat.Balanced (s : RxStat) : Prop := s.total = s.handled + s.crcError + s.dropSeq

theorem seqUpdate_balanced (s : RxStat) (q : UInt8) (h : s.Balanced) : (seqUpdate s q).Balanced := by
  unfold RxStat.Balanced at *
  unfold seqUpdate
  split <;> (try split) <;> simp only [h] <;> ac_rfl

theorem seqUpdate_handled (s : RxStat) (q : UInt8) :
    (seqUpdate s q).handled = s.handled ∧ (seqUpdate s q).handledBytes = s.handledBytes ∧
    (seqUpdate s q).crcError = s.crcError ∧ (seqUpdate s q).crcErrorBytes = s.crcErrorBytes ∧
    (seqUpdate s q).expectedSeq = q + 1 := by
  unfold seqUpdate
  split <;> (try split) <;> simp_all

theorem statOk_balanced (s : RxStat) (n : Nat) (q : UInt8) (h : s.Balanced) :
    (statOk s n q).Balanced := by
  apply seqUpdate_balanced
  unfold RxStat.Balanced at *
  simp only [h]; ac_rfl

theorem statBad_balanced (s : RxStat) (n : Nat) (h : s.Balanced) : (statBad s n).Balanced := by
  unfold RxStat.Balanced at *
  simp only [statBad, h]; ac_rfl

theorem parseBuf_stat (tbl : MsgTable) (p : List UInt8) (st : RxStat) :
    (∃ r, (parseBuf tbl p st).2 = .stop r ∧
      ((parseBuf tbl p st).1.stat = st ∨ ∃ n, (parseBuf tbl p st).1.stat = statBad st n)) ∨
    (∃ m k q, (parseBuf tbl p st).2 = .msg m k ∧
      (parseBuf tbl p st).1.stat = statOk st m.data.length q) := by
  cases hf : firstFrame p with
  | none =>
    left; rw [(parseBuf_none tbl hf st).1]
    exact ⟨0, rfl, .inl rfl⟩
  | some x =>
    obtain ⟨fr, rest⟩ := x
    rcases parseBuf_some tbl hf st with ⟨m, k, seq, hdel, _, h⟩ | ⟨_, h⟩
    · right; rw [h]; exact ⟨m, k, seq, rfl, by rw [hdel.bytes]⟩
    · left; rw [h]; exact ⟨0, rfl, .inr ⟨_, rfl⟩⟩

theorem readMsg_stat (tbl : MsgTable) (fd : Bool) (rx : Rx) (io : SysRead) :
    (∃ r, (readMsg tbl fd rx io).2 = .stop r ∧
      ((readMsg tbl fd rx io).1.stat = rx.stat ∨ ∃ n, (readMsg tbl fd rx io).1.stat = statBad rx.stat n)) ∨
    (∃ m k q, (readMsg tbl fd rx io).2 = .msg m k ∧
      (readMsg tbl fd rx io).1.stat = statOk rx.stat m.data.length q) := by
  unfold readMsg
  split
  · left; exact ⟨_, rfl, .inl rfl⟩
  · split
    · exact parseBuf_stat tbl _ _
    · split
      · left; exact ⟨_, rfl, .inl rfl⟩
      · split
        · left; exact ⟨_, rfl, .inl rfl⟩
        · exact parseBuf_stat tbl _ _

/-- Bytes of the messages in a list. -/
def bytesOf (ms : List (Msg × Bool)) : Nat := (ms.map (fun x => x.1.data.length)).sum

theorem drain_stat (tbl : MsgTable) (fd : Bool) : ∀ n (rx : Rx) (io : SysRead),
    (rx.stat.Balanced → (drain tbl fd n rx io).1.stat.Balanced) ∧
    (drain tbl fd n rx io).1.stat.handled =
      rx.stat.handled + UInt32.ofNat (drain tbl fd n rx io).2.1.length ∧
    (drain tbl fd n rx io).1.stat.handledBytes =
      rx.stat.handledBytes + UInt64.ofNat (bytesOf (drain tbl fd n rx io).2.1) := by
  intro n
  induction n with
  | zero => intro rx io; simp [drain, bytesOf]
  | succ n ih =>
    intro rx io
    rcases readMsg_stat tbl fd rx io with ⟨r, h1, h2⟩ | ⟨m, k, q, h1, h2⟩
    · have hd : drain tbl fd (n + 1) rx io = ((readMsg tbl fd rx io).1, [], r) := by
        rw [drain]; split
        · rename_i heq; rw [heq] at h1; cases h1; rw [heq]
        · rename_i heq; rw [heq] at h1; cases h1
      rw [hd]
      rcases h2 with h2 | ⟨b, h2⟩
      · rw [h2]; simp [bytesOf]
      · rw [h2]; exact ⟨statBad_balanced _ _, by simp [statBad], by simp [statBad, bytesOf]⟩
    · have hd : drain tbl fd (n + 1) rx io =
          ((drain tbl fd n (readMsg tbl fd rx io).1 io).1,
           (m, k) :: (drain tbl fd n (readMsg tbl fd rx io).1 io).2.1,
           (drain tbl fd n (readMsg tbl fd rx io).1 io).2.2) := by
        rw [drain]; split
        · rename_i heq; rw [heq] at h1; cases h1
        · rename_i heq; rw [heq] at h1; cases h1; rw [heq]
      rw [hd]
      obtain ⟨i1, i2, i3⟩ := ih (readMsg tbl fd rx io).1 io
      rw [h2] at i1 i2 i3
      refine ⟨fun hb => i1 (statOk_balanced _ _ _ hb), ?_, ?_⟩
      · simp only [i2, List.length_cons, statOk, (seqUpdate_handled _ _).1]
        rw [Nat.add_comm, UInt32.ofNat_add, show UInt32.ofNat 1 = 1 from rfl]; ac_rfl
      · simp only [i3, bytesOf, List.map_cons, List.sum_cons, statOk, (seqUpdate_handled _ _).2.1]
        rw [UInt64.ofNat_add]; ac_rfl

theorem runRx_stat (tbl : MsgTable) : ∀ (ios : List SysRead) (rx : Rx),
    (rx.stat.Balanced → (runRx tbl rx ios).1.stat.Balanced) ∧
    (runRx tbl rx ios).1.stat.handled = rx.stat.handled + UInt32.ofNat (runRx tbl rx ios).2.length ∧
    (runRx tbl rx ios).1.stat.handledBytes =
      rx.stat.handledBytes + UInt64.ofNat (bytesOf (runRx tbl rx ios).2) := by
  intro ios
  induction ios with
  | nil => intro rx; simp [runRx, bytesOf]
  | cons io ios ih =>
    intro rx
    obtain ⟨d1, d2, d3⟩ := drain_stat tbl true (rxBufMax + 1) rx io
    obtain ⟨i1, i2, i3⟩ := ih (handleReadRx tbl rx io).1
    simp only [runRx]
    refine ⟨fun h => i1 (d1 h), ?_, ?_⟩
    · rw [i2]; simp only [handleReadRx] at *
      rw [d2, List.length_append, UInt32.ofNat_add]; ac_rfl
    · rw [i3]; simp only [handleReadRx] at *
      rw [d3]; simp only [bytesOf, List.map_append, List.sum_append]
      rw [UInt64.ofNat_add]; ac_rfl

end Verif
