import Verif.Props.ULog

/-
C49: when the remainder of a short write is given up.
-/

namespace Verif

open Spec (ULogFile)

/-- Every write that stores something of a message stores at least 1024 bytes, or all of it. -/
def NotTooShort (env : LogEnv) : Prop := ∀ k j, env.wr k = .n j → j = 0 ∨ 1024 ≤ j

theorem write_kept {env : LogEnv} (hs : NotTooShort env) {b b' : LogBase} {bs : List UInt8} {k : Nat}
    (h : b.write env bs = (b', .wrote k)) : k = 0 ∨ k = bs.length ∨ 1024 ≤ k := by
  unfold LogBase.write at h
  split at h
  · cases h
  · split at h
    · rename_i j hj
      simp only [Prod.mk.injEq, WOut.wrote.injEq] at h
      rcases hs _ _ hj with h0 | h1
      · omega
      · omega
    · cases h
    · cases h

theorem flushBuf_lost {env : LogEnv} (hs : NotTooShort env) : ∀ (fuel : Nat) (u v : ULog) (r : Bool),
    flushBuf env fuel u = some (v, r) → u.pend.length ≤ 2048 → v.lost = u.lost
  | 0, u, v, r, h, _ => by simp only [flushBuf, Option.some.injEq, Prod.mk.injEq] at h; rw [← h.1]
  | fuel + 1, u, v, r, h, hb => by
    simp only [flushBuf] at h
    split at h
    · simp only [Option.some.injEq, Prod.mk.injEq] at h; rw [← h.1]
    · split at h
      · simp only [Option.some.injEq, Prod.mk.injEq] at h; rw [← h.1]
      · rename_i hfull
        cases hw : u.base.write env (u.pend.take (fullSize u.pend)) with
        | mk b w =>
          simp only [hw] at h
          cases w with
          | again => simp only [Option.some.injEq, Prod.mk.injEq] at h; rw [← h.1]
          | err => simp only [Option.some.injEq, Prod.mk.injEq] at h; rw [← h.1]
          | wrote k =>
            have hk := write_kept hs hw
            rw [List.length_take] at hk
            simp only at h
            split at h
            · split at h
              · cases h
              · have := flushBuf_lost hs fuel _ v r h (by simp only [List.length_drop]; omega)
                exact this
            · split at h
              · simp only [Option.some.injEq, Prod.mk.injEq] at h; rw [← h.1]
              · split at h
                · rename_i hl
                  simp only [ulogPart] at hl
                  omega
                · simp only [Option.some.injEq, Prod.mk.injEq] at h; rw [← h.1]

theorem flush_lost {env : LogEnv} (hs : NotTooShort env) {u v : ULog} {r : Bool} (h : u.flush env = some (v, r))
    (hb : u.pend.length ≤ 2048) : v.lost = u.lost := by
  unfold ULog.flush at h
  split at h
  · have := flushBuf_lost hs _ _ _ _ h hb
    exact this
  · simp only [Option.some.injEq, Prod.mk.injEq] at h; rw [← h.1]
  · simp only [Option.some.injEq, Prod.mk.injEq] at h; rw [← h.1]

theorem stopLoop_lost {env : LogEnv} (hs : NotTooShort env) : ∀ (n : Nat) (u v : ULog), stopLoop env n u = some v →
    u.pend.length ≤ 2048 → v.lost = u.lost
  | 0, u, v, h, _ => by
    simp only [stopLoop] at h
    split at h
    · cases h; rfl
    · cases h
  | n + 1, u, v, h, hb => by
    simp only [stopLoop] at h
    split at h
    · cases h; rfl
    · cases hf : u.flush env with
      | none => rw [hf] at h; cases h
      | some q =>
        obtain ⟨w, b⟩ := q
        rw [hf] at h
        have hw := flush_lost hs hf hb
        cases b with
        | false => cases h; exact hw
        | true =>
          obtain ⟨pre, hp⟩ := (flush_spec env u w true hf).suffix
          have hl : u.pend.length = pre.length + w.pend.length := by rw [hp, List.length_append]
          rw [stopLoop_lost hs n w v h (by omega), hw]

theorem stop_lost {env : LogEnv} (hs : NotTooShort env) {u v : ULog} (h : u.stop env = some v) : v.lost = u.lost := by
  unfold ULog.stop at h
  split at h
  · cases h; rfl
  · cases hl : stopLoop env env.fuel { u with base := u.base.send .cmdStop, pend := [] } with
    | none => rw [hl] at h; cases h
    | some w =>
      rw [hl] at h
      have := stopLoop_lost hs _ _ _ hl (by simp)
      cases h
      exact this

theorem append_lost {env : LogEnv} (hs : NotTooShort env) {u v : ULog} {p q : Pkt} {drops : Bool} (hm : MemOk u)
    (h : u.append env p drops = some (v, q)) : v.lost = u.lost := by
  unfold ULog.append at h
  cases ha : u.afterLoss env drops with
  | none => rw [ha] at h; cases h
  | some w =>
    rw [ha] at h
    simp only at h
    have hb := hm.buf
    rw [ulogBuf_eq] at hb
    have e1 : w.lost = u.lost := by
      unfold ULog.afterLoss at ha
      split at ha
      · cases hf : u.flush env with
        | none => rw [hf] at ha; cases ha
        | some q =>
          obtain ⟨x, b⟩ := q
          rw [hf] at ha
          have := flush_lost hs hf (by omega)
          cases ha
          exact this
      · cases ha; rfl
    have hw := hm.afterLoss ha
    obtain ⟨hr, hroom⟩ := hw.makeRoom p.length.toNat (by have := p.length.toNat_lt; omega)
    have e2 : (w.makeRoom p.length.toNat).lost = w.lost := by
      rcases (makeRoom_spec w p.length.toNat).1 with ⟨e, _⟩ | ⟨e, _⟩ <;> rw [e]
    rw [← e1, ← e2]
    have hfit := stored_mem hr hroom
    rw [store_eq] at h
    split at h
    · cases h; rfl
    · split at h
      · cases h; rfl
      · cases hf : (stored (w.makeRoom p.length.toNat) p).flush env with
        | none => rw [hf] at h; cases h
        | some x =>
          obtain ⟨x, b⟩ := x
          rw [hf] at h
          have := flush_lost hs hf (by
            show (_ ++ chunkOf _ p).length ≤ 2048
            rw [List.length_append]
            unfold chunkOf
            rw [List.length_take]
            rw [ulogBuf_eq] at hfit
            omega)
          cases h
          exact this

theorem process_lost {env : LogEnv} (hs : NotTooShort env) {u v : ULog} {p q : Pkt} (hm : MemOk u)
    (h : u.process env p = some (v, q)) : v.lost = u.lost := by
  unfold ULog.process at h
  split at h
  · cases h; rfl
  · simp only at h
    split at h
    · split at h
      · unfold ULog.restart at h
        rename_i exp _ _ _
        cases hst : ULog.stop env { u with expSeq := exp } with
        | none => rw [hst] at h; cases h
        | some w =>
          rw [hst] at h
          have e := stop_lost hs hst
          simp only [Option.map_some, Option.some.injEq, Prod.mk.injEq] at h
          rw [← h.1, (start_flags env w).2.2.2.1, e]
      · rename_i exp _ _ _
        have hk : MemOk (takeHeader { u with expSeq := exp } p).1 :=
          ⟨hm.buf, by simp [takeHeader, ulogHdr, ulogPart]; omega, hm.first⟩
        have := append_lost hs hk h
        exact this
    · rename_i exp _ _
      have hk : MemOk { u with expSeq := exp } := ⟨hm.buf, hm.part, hm.first⟩
      have := append_lost hs hk h
      exact this

/-- **C49** (what is given up): as long as no write stores only part of a message and less than 1024 bytes of it, no remainder is
given up, so the log consists of the header and whole messages (of sizes below 65533). -/
theorem C49_remainder_partial (env : LogEnv) (hs : NotTooShort env) (target : Option UInt8) (mode : LogMode)
    (evs : List ULogEv) (u : ULog) (h : (ULog.init target mode).run env evs = some u) :
    u.lost = false ∧
    (u.wrapped = false →
      (∀ c, u.base.file = some c → c ++ u.part = [] ∨ ULogFile (c ++ u.part)) ∧
      (u.cut = false → ∀ c ∈ u.base.done, c = [] ∨ ULogFile c)) := by
  have hl : MemOk u ∧ u.lost = false :=
    run_preserves env (fun u => MemOk u ∧ u.lost = false) (fun _ => True)
      (fun _ _ _ _ hP => ⟨⟨hP.1.buf, hP.1.part, hP.1.first⟩, hP.2⟩)
      (fun w hP => ⟨hP.1.start, by rw [(start_flags env w).2.2.2.1, hP.2]⟩)
      (fun _ _ hr hP => ⟨(hP.1.stop hr).1, by rw [stop_lost hs hr, hP.2]⟩)
      (fun _ _ _ _ _ _ hr hP => ⟨(hP.1.process hr).1, by rw [process_lost hs hP.1 hr, hP.2]⟩)
      evs (fun _ _ _ => trivial) _ u h
      ⟨⟨by simp [ULog.init], by simp [ULog.init], fun hw => by simp [ULog.init] at hw⟩, rfl⟩
  exact ⟨hl.2, fun hw => C49_format_partial env target mode evs u h hw hl.2⟩

namespace Sample

/-- Writes store at most 1024 bytes. -/
def kilobyteEnv : LogEnv := { logEnv with wr := fun _ => .n 1024 }

/-- A header and a message of 1500 bytes, in packets of up to 240 bytes. -/
def longMsgEvs : List ULogEv :=
  .msg (ulogMsg 0 16 0 ulogHdrBytes) :: .msg (ulogMsg 1 240 0 ([0xD9, 5, 0x41] ++ List.replicate 237 7)) ::
    (List.range 6).map (fun i => .msg (ulogMsg (UInt8.ofNat (i + 2)) 210 255 (List.replicate 210 8)))

end Sample

/-- The remainder of 476 bytes is kept. -/
example : NotTooShort Sample.kilobyteEnv ∧
    ((ULog.init (some 1) .always).run Sample.kilobyteEnv Sample.longMsgEvs).map (fun u => (u.lost, u.part.length)) =
      some (false, 476) := by
  refine ⟨fun k j h => ?_, by decide +kernel⟩
  simp only [Sample.kilobyteEnv, FileRes.n.injEq] at h
  omega

/-- With writes of one byte the remainder of 1499 bytes is given up. -/
example : ((ULog.init (some 1) .always).run Sample.slowEnv Sample.longMsgEvs).map (fun u => (u.lost, u.part.length)) =
    some (true, 0) := by decide +kernel

end Verif
