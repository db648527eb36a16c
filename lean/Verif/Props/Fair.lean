import Verif.Model.Fair
import Verif.Lemmas.RxRun

/-
C103: work per readable event.
-/

namespace Verif

open Spec

/-- A message handed on leaves at least 8 bytes to be dropped by the next `read_msg`. -/
theorem parseBuf_msg (tbl : MsgTable) (p : List UInt8) (st : RxStat) (rx : Rx) (m : Msg) (b : Bool)
    (h : parseBuf tbl p st = (rx, .msg m b)) : rx.lastLen ≠ 0 ∧ rx.pending.length + 8 ≤ p.length := by
  cases hf : firstFrame p with
  | none =>
    rw [(parseBuf_none tbl hf st).1] at h
    exact nomatch h
  | some x =>
    obtain ⟨fr, rest⟩ := x
    obtain ⟨hd, _, _, g3, _, _, _, g7, _, g9, _, _⟩ := firstFrame_some hf
    have hrl := firstFrame_rest_length hf
    rcases parseBuf_some tbl hf st with ⟨m', k, seq, _, _, h'⟩ | ⟨_, h'⟩
    · rw [h'] at h
      simp only [Prod.mk.injEq, ReadOut.msg.injEq] at h
      obtain ⟨rfl, _⟩ := h
      refine ⟨by simp only []; omega, ?_⟩
      simpa [Rx.pending] using hrl
    · rw [h'] at h
      exact nomatch h

/-- While bytes are left behind, the loop does not read, and what it does is bounded by them. -/
theorem readLoop_pending (tbl : MsgTable) (ios : Nat → SysRead) : ∀ (n : Nat) (rx : Rx) (k : Nat), rx.lastLen ≠ 0 →
    (readLoop tbl ios n rx k).2.2.2 = k ∧ 8 * (readLoop tbl ios n rx k).2.1.length ≤ rx.pending.length ∧
    (rx.pending.length < n → (readLoop tbl ios n rx k).2.2.1 = some 0) ∧
    ∀ io, rx.pending.length < n →
      drain tbl true n rx io = ((readLoop tbl ios n rx k).1, (readLoop tbl ios n rx k).2.1, 0) := by
  intro n
  induction n with
  | zero => intro rx k _; exact ⟨rfl, by simp [readLoop], fun h => absurd h (by omega), fun _ h => absurd h (by omega)⟩
  | succ n ih =>
    intro rx k hl
    have hr : ∀ io, readMsg tbl true rx io = parseBuf tbl rx.pending rx.stat := by
      intro io
      simp [readMsg, hl, Rx.pending]
    have hstop : ∀ (rx' : Rx) r, parseBuf tbl rx.pending rx.stat = (rx', .stop r) → r = 0 := by
      intro rx' r h
      cases hf : firstFrame rx.pending with
      | none => rw [(parseBuf_none tbl hf _).1] at h; cases h; rfl
      | some x =>
        rcases parseBuf_some tbl (fr := x.1) (rest := x.2) hf rx.stat with ⟨_, _, _, _, _, h'⟩ | ⟨_, h'⟩
        · rw [h'] at h; cases h
        · rw [h'] at h; cases h; rfl
    simp only [readLoop, drain, hl, if_false, hr]
    split
    · rename_i rx' r he
      have := hstop _ _ he
      subst this
      exact ⟨rfl, by simp, fun _ => rfl, fun _ _ => by simp only [he]⟩
    · rename_i rx' m b he
      obtain ⟨h1, h2⟩ := parseBuf_msg tbl _ _ _ _ _ he
      obtain ⟨i1, i2, i3, i4⟩ := ih rx' k h1
      refine ⟨i1, by simp only [List.length_cons]; omega, fun h => i3 (by omega), fun io h => ?_⟩
      simp only [he, i4 io (by omega)]

/-- C103, part: a readable event makes the router read from the link at most once and hand on at most 140 messages, whatever the
kernel would deliver, however long the loop is allowed to run.  Missing: what log endpoints add (`C103_routed_partial`, `C103_violated` in Replies). -/
theorem C103_bounded_partial (tbl : MsgTable) (ios : Nat → SysRead) (rx : Rx) (hinv : rx.Inv) (n : Nat) :
    (readLoop tbl ios n rx 0).2.2.2 ≤ 1 ∧ (readLoop tbl ios n rx 0).2.1.length ≤ 140 := by
  obtain ⟨h1, h2, h3⟩ := hinv
  cases n with
  | zero => simp [readLoop]
  | succ n =>
    by_cases hl : rx.lastLen = 0
    · simp only [readLoop, hl, if_true]
      split
      · simp
      · rename_i rx' m b he
        have hb : ∃ p : List UInt8, p.length ≤ rxBufMax ∧ parseBuf tbl p rx.stat = (rx', .msg m b) := by
          simp only [readMsg, hl, Bool.not_true, Bool.false_eq_true, if_false, ne_eq, not_true_eq_false] at he
          split at he
          · exact nomatch he
          · split at he
            · exact nomatch he
            · rename_i bs c cs heq
              refine ⟨_, ?_, he⟩
              have := congrArg List.length heq
              simp only [List.length_take, List.length_cons] at this
              simp only [List.length_append, List.length_cons]
              omega
        obtain ⟨p, hp, hpb⟩ := hb
        obtain ⟨g1, g2⟩ := parseBuf_msg tbl _ _ _ _ _ hpb
        obtain ⟨i1, i2, _, _⟩ := readLoop_pending tbl ios n rx' (0 + 1) g1
        have : rxBufMax = 1120 := rfl
        refine ⟨by simp only []; omega, ?_⟩
        simp only [List.length_cons]
        omega
    · obtain ⟨i1, i2, _, _⟩ := readLoop_pending tbl ios (n + 1) rx 0 hl
      have : rxBufMax = 1120 := rfl
      have : rx.pending.length ≤ rx.buf.length := by simp [Rx.pending]
      omega

/-- C103, part: the loop ends, and what it does is what the model of the other properties says for the first kernel read. -/
theorem C103_ends_partial (tbl : MsgTable) (ios : Nat → SysRead) (rx : Rx) (hinv : rx.Inv) :
    let r := handleReadRx tbl rx (ios 0)
    ∃ k, readLoop tbl ios (rxBufMax + 1) rx 0 = (r.1, r.2.1, some r.2.2, k) := by
  obtain ⟨h1, h2, h3⟩ := hinv
  simp only [handleReadRx]
  by_cases hl : rx.lastLen = 0
  · simp only [readLoop, drain, hl, if_true]
    split
    · rename_i rx' r he
      simp [he]
    · rename_i rx' m b he
      have hb : ∃ p : List UInt8, p.length ≤ rxBufMax ∧ parseBuf tbl p rx.stat = (rx', .msg m b) := by
        simp only [readMsg, hl, Bool.not_true, Bool.false_eq_true, if_false, ne_eq, not_true_eq_false] at he
        split at he
        · exact nomatch he
        · split at he
          · exact nomatch he
          · rename_i bs c cs heq
            refine ⟨_, ?_, he⟩
            have := congrArg List.length heq
            simp only [List.length_take, List.length_cons] at this
            simp only [List.length_append, List.length_cons]
            omega
      obtain ⟨p, hp, hpb⟩ := hb
      obtain ⟨g1, g2⟩ := parseBuf_msg tbl _ _ _ _ _ hpb
      obtain ⟨i1, i2, i3, i4⟩ := readLoop_pending tbl ios rxBufMax rx' (0 + 1) g1
      rw [he]
      simp only [i4 (ios 0) (by omega)]
      refine ⟨(readLoop tbl ios rxBufMax rx' (0 + 1)).2.2.2, ?_⟩
      rw [← i3 (by omega)]
  · have : rx.pending.length ≤ rx.buf.length := by simp [Rx.pending]
    obtain ⟨i1, i2, i3, i4⟩ := readLoop_pending tbl ios (rxBufMax + 1) rx 0 hl
    rw [i4 (ios 0) (by omega)]
    refine ⟨(readLoop tbl ios (rxBufMax + 1) rx 0).2.2.2, ?_⟩
    rw [← i3 (by omega)]

namespace Sample

/-- A MAVLink 1 frame of an unknown message without payload. -/
def tinyFrame : List UInt8 := [0xFE, 0, 1, 1, 1, 200, 0, 0]

/-- A peer that always has two more frames ready. -/
def floodIo : Nat → SysRead := fun _ => .got (tinyFrame ++ tinyFrame)

end Sample

/-- A flood: two messages are handed on, one read. -/
example : Rx.Inv {} ∧
    (let r := readLoop (fun _ => none) Sample.floodIo 50 {} 0; (r.2.1.length, r.2.2)) = (2, some 0, 1) := by
  refine ⟨⟨by simp, by simp, by simp⟩, by decide⟩

end Verif
