import Verif.Lemmas.RxMem
import Verif.Spec.Samples

/- Property C02: memory safety of the receive path; and termination of the read loop. -/

namespace Verif

open Spec RxMem

/-- **C02**: for every message table and every history of read events (any bytes, any chunking, errors,
end of file) starting from a new endpoint, no access of the receive path leaves the allocated buffer or touches
an uninitialised byte (`runM` is not `none`), the buffered amount fits the allocation, every region offered to
the kernel has at least 841 bytes, and the messages handed on are those of the buffer-free model. -/
theorem C02_receive_memory_safe (tbl : MsgTable) (ios : List SysRead) :
    ∃ rm offered, runM tbl fresh ios = some (rm, (runRx tbl {} ios).2, offered) ∧
      rm.cells.length = 1120 ∧ rm.len ≤ 1120 ∧ rm.lastLen ≤ rm.len ∧ ∀ k ∈ offered, 841 ≤ k := by
  obtain ⟨rm, fs, h1, h2, h3, h4⟩ := runM_spec tbl ios rel_fresh inv_fresh
  refine ⟨rm, fs, h1, h2.holds.size, ?_, ?_, h4⟩
  · rw [h2.len]; exact h3.1
  · rw [h2.len, h2.last]; exact h3.2.1

/-- What counts as undefined above: reading a byte outside the array or one that was never stored, moving from or storing to cells
outside the array, and a length that would become negative. What a move and a store leave behind, cell by cell. -/
theorem C02_accesses (m : Cells) (pos n : Nat) (bs : List UInt8) :
    (ld m pos = none ↔ ∀ b, m[pos]? ≠ some (some b)) ∧
    (ldRange m pos n = none ↔ ¬(pos + n ≤ m.length ∧ ∀ k, k < n → ∃ b, m[pos + k]? = some (some b))) ∧
    (move0 m pos n = none ↔ m.length < pos + n) ∧
    (∀ m', move0 m pos n = some m' → ∀ k, m'[k]? = if k < n then m[pos + k]? else m[k]?) ∧
    (store m pos bs = none ↔ m.length < pos + bs.length) ∧
    (∀ m', store m pos bs = some m' → ∀ k,
      m'[k]? = if pos ≤ k ∧ k < pos + bs.length then (bs[k - pos]?).map some else m[k]?) ∧
    (subLen pos n = none ↔ pos < n) := by
  refine ⟨?_, ?_, ?_, ?_, ?_, ?_, ?_⟩
  · unfold ld
    rcases h : m[pos]? with _ | _ | b <;> simp
  · unfold ldRange
    have key : ∀ l : List (Option UInt8), l.mapM id = none ↔ ∃ k : Nat, l[k]? = some none := by
      intro l
      induction l with
      | nil => simp
      | cons x t ih =>
        cases x with
        | none => simp only [List.mapM_cons, id]; exact ⟨fun _ => ⟨0, rfl⟩, fun _ => rfl⟩
        | some b =>
          have : (some b :: t).mapM id = (t.mapM id).map (b :: ·) := by
            simp only [List.mapM_cons, id]; cases t.mapM id <;> rfl
          rw [this, Option.map_eq_none_iff, ih]
          constructor
          · rintro ⟨k, hk⟩; exact ⟨k + 1, by simpa using hk⟩
          · rintro ⟨k, hk⟩
            cases k with
            | zero => simp at hk
            | succ k => exact ⟨k, by simpa using hk⟩
    split
    · rename_i h
      rw [key]
      simp only [List.getElem?_take, List.getElem?_drop]
      constructor
      · rintro ⟨k, hk⟩ ⟨_, h2⟩
        split at hk
        · obtain ⟨b, hb⟩ := h2 k (by assumption); rw [hb] at hk; cases hk
        · cases hk
      · intro hn
        apply Classical.byContradiction
        intro hc
        refine hn ⟨h, fun k hk => ?_⟩
        have hlt : pos + k < m.length := by omega
        cases hv : m[pos + k] with
        | none => exact absurd ⟨k, by rw [if_pos hk, List.getElem?_eq_getElem hlt, hv]⟩ hc
        | some b => exact ⟨b, by rw [List.getElem?_eq_getElem hlt, hv]⟩
    · rename_i h
      simp only [true_iff]
      exact fun hh => h hh.1
  · unfold move0; split <;> simp <;> omega
  · intro m' hm k
    unfold move0 at hm
    split at hm
    · cases hm
      rw [List.getElem?_append]
      simp only [List.length_take, List.length_drop, List.getElem?_take, List.getElem?_drop]
      by_cases hk : k < n
      · rw [if_pos (by omega), if_pos hk, if_pos hk]
      · rw [if_neg (by omega), if_neg hk]
        congr 1
        omega
    · cases hm
  · unfold store; split <;> simp <;> omega
  · intro m' hm k
    unfold store at hm
    split at hm
    · rename_i hl
      cases hm
      rw [List.append_assoc, List.getElem?_append]
      simp only [List.length_take, List.getElem?_take]
      by_cases h1 : k < pos
      · rw [if_pos (by omega), if_pos h1, if_neg (by omega)]
      · rw [if_neg (by omega), List.getElem?_append, show min pos m.length = pos by omega]
        simp only [List.length_map, List.getElem?_map, List.getElem?_drop]
        by_cases h2 : k < pos + bs.length
        · rw [if_pos (by omega), if_pos (by omega)]
        · rw [if_neg (by omega), if_neg (by omega)]
          congr 1
          omega
    · cases hm
  · unfold subLen; split <;> simp <;> omega

example : move0 [some 1, none, some 3] 1 2 = some [none, some 3, some 3] ∧ move0 [some 1, none, some 3] 2 2 = none ∧
    ldRange [some 1, none, some 3] 0 2 = none ∧ store [some 1, none, some 3] 1 [8] = some [some 1, some 8, some 3] := by decide

/-- Every single `read_msg` call, in every reachable state: the region offered to the kernel starts at the
buffered amount and ends exactly at the end of the allocation. -/
theorem C02_offered_region (tbl : MsgTable) (ios : List SysRead) (rm : RxM) (ms : List (Msg × Bool))
    (fs : List Nat) (hrun : runM tbl fresh ios = some (rm, ms, fs)) (fd : Bool) (io : SysRead) :
    ∃ rm' out offered, readMsgM tbl fd rm io = some (rm', out, offered) ∧
      ∀ k, offered = some k → rm.len + k = rm.cells.length ∧ 841 ≤ k := by
  obtain ⟨rm', fs', h1, h2, h3, _⟩ := runM_spec tbl ios rel_fresh inv_fresh
  rw [h1] at hrun
  cases hrun
  obtain ⟨rm'', f, a, b, c⟩ := readMsgM_spec tbl fd h2 h3 io
  exact ⟨rm'', _, f, a, fun k hk => ⟨(c k hk).2, (c k hk).1⟩⟩

/-- A run with a bad frame, noise and a truncated frame. -/
example : ((runM Sample.tbl fresh [.got (Sample.hbBad.encode ++ [1, 2] ++ Sample.hb2.encode), .got [9],
    .fail (-11), .got [0xFD, 200]]).map (fun x => (x.1.len, x.2.1.length, x.2.2))) =
    some (2, 1, [1120, 1120, 1120]) := by
  decide +kernel

theorem drain_stable (tbl : MsgTable) (io : SysRead) : ∀ n (rx : Rx), rx.lastLen ≠ 0 →
    rx.pending.length < n → drain tbl true (n + 1) rx io = drain tbl true n rx io := by
  intro n
  induction n with
  | zero => intro rx _ h; omega
  | succ n ih =>
    intro rx hll hn
    have hread : readMsg tbl true rx io = parseBuf tbl rx.pending rx.stat := by
      simp [readMsg, hll, Rx.pending]
    rw [drain, hread]
    conv => rhs; rw [drain, hread]
    cases hf : firstFrame rx.pending with
    | none => rw [(parseBuf_none tbl hf rx.stat).1]
    | some x =>
      obtain ⟨fr, rest⟩ := x
      have hlen := firstFrame_rest_length hf
      obtain ⟨hd, _, _, g3, _, _, _, g7, _, g9, _, _⟩ := firstFrame_some hf
      rcases parseBuf_some tbl hf rx.stat with ⟨m, k, seq, _, _, h⟩ | ⟨_, h⟩
      · rw [h]
        simp only []
        rw [ih _ (by simp only []; omega) (by simp [Rx.pending]; omega)]
      · rw [h]

/-- **C02** (termination): the loop of `handle_read` ends within the number of `read_msg` calls the model
allows; more fuel changes nothing. -/
theorem C02_read_loop_terminates (tbl : MsgTable) (rx : Rx) (hi : rx.Inv) (io : SysRead) (extra : Nat) :
    drain tbl true (rxBufMax + 1 + extra) rx io = handleReadRx tbl rx io := by
  have key : ∀ m, rxBufMax + 1 ≤ m → drain tbl true (m + 1) rx io = drain tbl true m rx io := by
    intro m hm
    by_cases hll : rx.lastLen = 0
    · obtain ⟨k, rfl⟩ : ∃ k, m = k + 1 := ⟨m - 1, by omega⟩
      rw [drain]
      conv => rhs; rw [drain]
      have hinv := readMsg_inv tbl true rx io hi
      have hcase : (∃ r, (readMsg tbl true rx io).2 = .stop r) ∨
          ((readMsg tbl true rx io).1.lastLen ≠ 0 ∧ (readMsg tbl true rx io).1.pending.length < k) := by
        unfold readMsg
        simp only [Bool.not_true, Bool.false_eq_true, if_false, hll, ne_eq, not_true_eq_false]
        cases io with
        | fail r => left; exact ⟨r, rfl⟩
        | got bs =>
          simp only []
          cases htake : bs.take (rxBufMax - rx.buf.length) with
          | nil => left; exact ⟨0, rfl⟩
          | cons c cs =>
            simp only []
            have hlb : (rx.buf ++ c :: cs).length ≤ rxBufMax := by
              rw [List.length_append, ← htake, List.length_take]
              have := hi.1; omega
            cases hf : firstFrame (rx.buf ++ c :: cs) with
            | none => left; rw [(parseBuf_none tbl hf rx.stat).1]; exact ⟨0, rfl⟩
            | some x =>
              obtain ⟨fr, rest⟩ := x
              have hlen := firstFrame_rest_length hf
              obtain ⟨hd, _, _, g3, _, _, _, g7, _, g9, _, _⟩ := firstFrame_some hf
              rcases parseBuf_some tbl hf rx.stat with ⟨m, k, seq, _, _, h⟩ | ⟨_, h⟩
              · right; rw [h]
                refine ⟨by simp only []; omega, ?_⟩
                simp only [Rx.pending, List.drop_left]
                omega
              · left; rw [h]; exact ⟨0, rfl⟩
      generalize readMsg tbl true rx io = q at hcase hinv
      obtain ⟨rx', o⟩ := q
      cases o with
      | stop r => rfl
      | msg m kk =>
        rcases hcase with ⟨r, h⟩ | ⟨h1, h2⟩
        · cases h
        · simp only []
          rw [drain_stable tbl io k rx' h1 h2]
    · exact drain_stable tbl io m rx hll (by
        have := hi.1; simp [Rx.pending]; omega)
  induction extra with
  | zero => rfl
  | succ e ih => rw [← ih, ← key _ (Nat.le_add_right _ e)]; rfl

example : ({} : Rx).Inv ∧ (handleReadRx Sample.tbl {} (.got (Sample.hb2.encode ++ Sample.unk.encode))).2.1.length
    = 2 := ⟨inv_fresh, by decide +kernel⟩

end Verif
