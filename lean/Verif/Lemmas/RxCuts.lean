import Verif.Spec.Loss
import Verif.Lemmas.RxStat

/- The frames taken from the stream and their statistics. -/

namespace Verif

open Spec

theorem Spec.Cuts.unique {bs frs t} (h : Cuts bs frs t) : ∀ {frs' t'}, Cuts bs frs' t' → frs = frs' ∧ t = t' := by
  induction h with
  | done h0 =>
    intro frs' t' h'
    cases h' with
    | done _ => exact ⟨rfl, rfl⟩
    | frame h1 _ => rw [h0] at h1; cases h1
  | frame h0 _ ih =>
    intro frs' t' h'
    cases h' with
    | done h1 => rw [h0] at h1; cases h1
    | frame h1 h2 =>
      rw [h0] at h1
      cases h1
      obtain ⟨e1, e2⟩ := ih h2
      exact ⟨by rw [e1], e2⟩

/-- From stream `p`, after the frames `frs`, `q` is left. -/
def Leads (p : List UInt8) (frs : List (List UInt8)) (q : List UInt8) : Prop :=
  ∀ c frs2 t, Cuts (q ++ c) frs2 t → Cuts (p ++ c) (frs ++ frs2) t

theorem Leads.refl (p : List UInt8) : Leads p [] p := fun _ _ _ h => h

theorem Leads.frame {p fr rest frs q} (h : firstFrame p = some (fr, rest)) (hl : Leads rest frs q) :
    Leads p (fr :: frs) q := fun c _ _ hc => .frame (firstFrame_append h c) (hl c _ _ hc)

theorem Leads.resync (p : List UInt8) : Leads p [] (resync p) := by
  intro c frs2 t h
  cases h with
  | done h0 =>
    rw [firstFrame_append_resync] at h0
    have : stripNoise (Verif.resync p ++ c) = stripNoise (p ++ c) := resync_append_resync p c
    rw [this]
    exact .done h0
  | frame h0 h1 =>
    rw [firstFrame_append_resync] at h0
    exact .frame h0 h1

theorem Leads.trans {p f1 q c f2 r} (h1 : Leads p f1 q) (h2 : Leads (q ++ c) f2 r) :
    Leads (p ++ c) (f1 ++ f2) r := by
  intro d frs t h
  have := h2 d frs t h
  rw [List.append_assoc] at this ⊢
  rw [List.append_assoc]
  exact h1 _ _ _ this

/-- `Counted tbl st frs ms st'`: statistics `st` become `st'` by the frames `frs`, of which `ms` are handed on. -/
inductive Counted (tbl : MsgTable) : RxStat → List (List UInt8) → List (Msg × Bool) → RxStat → Prop
  | nil {st} : Counted tbl st [] [] st
  | ok {st fr frs m k i ms st'} : Delivers tbl fr m k → frameInfo fr = some i →
      Counted tbl (statOk st fr.length i.2.2.1) frs ms st' → Counted tbl st (fr :: frs) ((m, k) :: ms) st'
  | bad {st fr frs ms st'} : Corrupt tbl fr → Counted tbl (statBad st fr.length) frs ms st' →
      Counted tbl st (fr :: frs) ms st'

theorem Counted.append {tbl st f1 m1 st1 f2 m2 st2} (h1 : Counted tbl st f1 m1 st1) (h2 : Counted tbl st1 f2 m2 st2) :
    Counted tbl st (f1 ++ f2) (m1 ++ m2) st2 := by
  induction h1 with
  | nil => exact h2
  | ok hd hi _ ih => exact .ok hd hi (ih h2)
  | bad hc _ ih => exact .bad hc (ih h2)

theorem drain_cuts (tbl : MsgTable) : ∀ (n : Nat) (p : List UInt8) (io : SysRead), p.length < n →
    ∀ rx, rx.lastLen ≠ 0 → rx.pending = p →
    ∃ frs, Leads p frs (drain tbl true n rx io).1.pending ∧
      Counted tbl rx.stat frs (drain tbl true n rx io).2.1 (drain tbl true n rx io).1.stat := by
  intro n
  induction n with
  | zero => intro p io h; omega
  | succ n ih =>
    intro p io hlt rx hll hp
    have hread : readMsg tbl true rx io = parseBuf tbl p rx.stat := by
      unfold readMsg
      simp only [Bool.not_true, Bool.false_eq_true, ↓reduceIte, hll, ne_eq, not_false_eq_true]
      rw [← hp]; rfl
    simp only [drain, hread]
    cases hf : firstFrame p with
    | none =>
      obtain ⟨h1, h2⟩ := parseBuf_none tbl hf rx.stat
      rw [h1]
      exact ⟨[], by simpa [Rx.pending] using Leads.resync p, .nil⟩
    | some x =>
      obtain ⟨fr, rest⟩ := x
      obtain ⟨hd, _, g2, g3, _, _, _, g7, _, g9, _, _⟩ := firstFrame_some hf
      have hrl := firstFrame_rest_length hf
      have hfr : fr.length ≠ 0 := by omega
      rcases parseBuf_some tbl hf rx.stat with ⟨m, k, seq, hdel, ⟨i, hi1, hi2⟩, h⟩ | ⟨hc, h⟩
      · rw [h]
        simp only []
        obtain ⟨frs, i1, i2⟩ := ih rest io (by omega)
          { buf := fr ++ rest, lastLen := fr.length, stat := statOk rx.stat fr.length seq } hfr
          (by simp [Rx.pending])
        exact ⟨fr :: frs, .frame hf i1, .ok hdel hi1 (by rw [hi2]; exact i2)⟩
      · rw [h]
        exact ⟨[fr], .frame hf (by simpa [Rx.pending] using Leads.refl rest), .bad hc .nil⟩

theorem handleRead_cuts (tbl : MsgTable) (rx : Rx) (io : SysRead) (hinv : rx.Inv) :
    ∃ frs, Leads (rx.pending ++ consumedBy rx io) frs (handleReadRx tbl rx io).1.pending ∧
      Counted tbl rx.stat frs (handleReadRx tbl rx io).2.1 (handleReadRx tbl rx io).1.stat := by
  unfold handleReadRx
  by_cases hll : rx.lastLen = 0
  · have hpend : rx.pending = rx.buf := by simp [Rx.pending, hll]
    have hcons : consumedBy rx io = match io with
      | .fail _ => [] | .got bs => bs.take (rxBufMax - rx.buf.length) := by
      simp only [consumedBy, hll]; rfl
    rw [hpend, hcons]
    cases io with
    | fail r =>
      simp only [drain, readMsg, hll, List.append_nil]
      exact ⟨[], by simpa [Rx.pending, hll] using Leads.refl rx.buf, .nil⟩
    | got bs =>
      simp only
      cases hb : bs.take (rxBufMax - rx.buf.length) with
      | nil =>
        simp only [drain, readMsg, hll, hb, List.append_nil]
        exact ⟨[], by simpa [Rx.pending, hll] using Leads.refl rx.buf, .nil⟩
      | cons c cs =>
        have hlen : (rx.buf ++ c :: cs).length ≤ rxBufMax := by
          have := congrArg List.length hb
          have hb := hinv.1
          simp only [List.length_take, List.length_cons] at this
          simp only [List.length_append, List.length_cons]
          omega
        have key := drain_cuts tbl (rxBufMax + 1) (rx.buf ++ c :: cs) (.got bs)
          (by omega) { buf := 0 :: (rx.buf ++ c :: cs), lastLen := 1, stat := rx.stat } (by simp)
          (by simp [Rx.pending])
        have heq : drain tbl true (rxBufMax + 1) rx (.got bs) =
            drain tbl true (rxBufMax + 1)
              { buf := 0 :: (rx.buf ++ c :: cs), lastLen := 1, stat := rx.stat } (.got bs) := by
          have h1 : readMsg tbl true rx (.got bs) =
              readMsg tbl true
                { buf := 0 :: (rx.buf ++ c :: cs), lastLen := 1, stat := rx.stat } (.got bs) := by
            simp [readMsg, hll, hb]
          simp only [drain, h1]
        rw [heq]
        exact key
  · have hcons : consumedBy rx io = [] := by simp [consumedBy, hll]
    rw [hcons, List.append_nil]
    have h1 := hinv.1
    exact drain_cuts tbl (rxBufMax + 1) rx.pending io (by simp [Rx.pending]; omega) rx hll rfl

theorem runRx_cuts (tbl : MsgTable) : ∀ (ios : List SysRead) (rx : Rx), rx.Inv →
    ∃ frs, Leads (rx.pending ++ consumedRun tbl rx ios) frs (runRx tbl rx ios).1.pending ∧
      Counted tbl rx.stat frs (runRx tbl rx ios).2 (runRx tbl rx ios).1.stat := by
  intro ios
  induction ios with
  | nil => intro rx _; exact ⟨[], by simpa [runRx, consumedRun] using Leads.refl _, .nil⟩
  | cons io ios ih =>
    intro rx hinv
    obtain ⟨f1, a1, a2⟩ := handleRead_cuts tbl rx io hinv
    obtain ⟨f2, b1, b2⟩ := ih _ (handleRead_inv tbl true (rxBufMax + 1) rx io hinv)
    refine ⟨f1 ++ f2, ?_, a2.append b2⟩
    simp only [consumedRun, ← List.append_assoc]
    exact a1.trans b1

end Verif
