import Verif.Model.RxMem
import Verif.Lemmas.RxFrames

/- The array-level receive path refines the list-level one and never does anything undefined. -/

namespace Verif.RxMem

open Verif

/-- The first `buf.length` cells of the array hold `buf`. -/
structure Holds (m : Cells) (buf : List UInt8) : Prop where
  size : m.length = rxBufMax
  fits : buf.length ≤ rxBufMax
  pre : m.take buf.length = buf.map some

theorem Holds.ld {m buf} (h : Holds m buf) {i : Nat} (hi : i < buf.length) :
    ld m i = some (buf.getD i 0) := by
  have h1 : (m.take buf.length)[i]? = m[i]? := by
    rw [List.getElem?_take]; simp [hi]
  rw [RxMem.ld, ← h1, h.pre]
  simp [List.getElem?_map, List.getElem?_eq_getElem hi, List.getD_eq_getElem?_getD]

theorem mapM_some (l : List UInt8) : (l.map some).mapM id = some l := by
  induction l with
  | nil => rfl
  | cons x t ih => simp [List.mapM_cons, ih]

theorem Holds.ldRange {m buf} (h : Holds m buf) {i n : Nat} (hi : i + n ≤ buf.length) :
    ldRange m i n = some ((buf.drop i).take n) := by
  unfold RxMem.ldRange
  rw [if_pos (by have := h.size; have := h.fits; omega)]
  have : (m.drop i).take n = ((buf.drop i).take n).map some := by
    rw [← List.map_take.symm, ← List.map_drop.symm, ← h.pre]
    rw [List.drop_take, List.take_take]
    congr 1; omega
  rw [this, mapM_some]

theorem Holds.move {m buf} (h : Holds m buf) {k : Nat} (hk : k ≤ buf.length) :
    ∃ m', move0 m k (buf.length - k) = some m' ∧ Holds m' (buf.drop k) := by
  have hs := h.size
  have hf := h.fits
  refine ⟨_, if_pos (by omega), ⟨?_, by simp; omega, ?_⟩⟩
  · simp; omega
  · rw [List.take_append_of_le_length (by simp; omega)]
    have : (m.drop k).take (buf.length - k) = (buf.drop k).map some := by
      rw [← List.map_drop.symm, ← h.pre, List.drop_take]
    rw [this]
    exact List.take_of_length_le (by simp)

theorem Holds.store {m buf} (h : Holds m buf) {bs : List UInt8} (hk : buf.length + bs.length ≤ rxBufMax) :
    ∃ m', store m buf.length bs = some m' ∧ Holds m' (buf ++ bs) := by
  have hs := h.size
  have hf := h.fits
  refine ⟨_, if_pos (by omega), ⟨?_, by simp; omega, ?_⟩⟩
  · simp; omega
  · rw [List.map_append, h.pre]
    rw [List.take_append_of_le_length (by simp)]
    exact List.take_of_length_le (by simp)

theorem findStx_spec {m buf} (h : Holds m buf) : ∀ n i, i + n = buf.length →
    (findStx m n i = some none ∧ resync (buf.drop i) = []) ∨
    (∃ pos v2, findStx m n i = some (some (pos, v2)) ∧ i ≤ pos ∧ pos < buf.length ∧
      resync (buf.drop i) = buf.drop pos ∧ (buf.getD pos 0 = stxV2 ∧ v2 = true ∨
        buf.getD pos 0 = stxV1 ∧ v2 = false)) := by
  intro n
  induction n with
  | zero =>
    intro i hi
    left
    refine ⟨rfl, ?_⟩
    rw [List.drop_of_length_le (by omega)]; rfl
  | succ n ih =>
    intro i hi
    have hlt : i < buf.length := by omega
    have hcons : buf.drop i = buf.getD i 0 :: buf.drop (i + 1) := by
      rw [List.drop_eq_getElem_cons hlt]
      simp [List.getD_eq_getElem?_getD, List.getElem?_eq_getElem hlt]
    have hr : ∀ x t, resync (x :: t) = if isStx x then x :: t else resync t := by
      intro x t; unfold resync; rw [List.dropWhile_cons]; cases isStx x <;> simp
    unfold findStx
    rw [h.ld hlt]
    simp only [Option.bind_eq_bind, Option.bind_some]
    by_cases h2 : buf.getD i 0 = stxV2
    · right
      refine ⟨i, true, by simp only [h2]; rfl, Nat.le_refl _, hlt, ?_, .inl ⟨h2, rfl⟩⟩
      rw [hcons, hr, if_pos (by rw [h2]; rfl)]
    · by_cases h1 : buf.getD i 0 = stxV1
      · right
        refine ⟨i, false, by rw [if_neg h2, if_pos h1]; rfl, Nat.le_refl _, hlt, ?_, .inr ⟨h1, rfl⟩⟩
        rw [hcons, hr, if_pos (by rw [h1]; rfl)]
      · rw [if_neg h2, if_neg h1]
        have hno : isStx (buf.getD i 0) = false := by
          unfold isStx; rw [beq_false_of_ne h2, beq_false_of_ne h1]; rfl
        rcases ih (i + 1) (by omega) with ⟨a, b⟩ | ⟨pos, v2, a, b, c, d, e⟩
        · left; exact ⟨a, by rw [hcons, hr, hno]; exact b⟩
        · right; exact ⟨pos, v2, a, by omega, c, by rw [hcons, hr, hno]; exact d, e⟩

theorem resyncM_spec {m buf} (h : Holds m buf) {x} (h0 : ld m 0 = some x) :
    ∃ m' v2, resyncM m buf.length = some (m', (resync buf).length, v2) ∧ Holds m' (resync buf) ∧
      ((resync buf = []) ∨ (resync buf).getD 0 0 = stxV2 ∧ v2 = some true ∨
        (resync buf).getD 0 0 = stxV1 ∧ v2 = some false) := by
  have hr : ∀ x t, resync (x :: t) = if isStx x then x :: t else resync t := by
    intro x t; unfold resync; rw [List.dropWhile_cons]; cases isStx x <;> simp
  unfold resyncM
  rw [h0]
  simp only [Option.bind_eq_bind, Option.bind_some]
  cases hb : buf with
  | nil =>
    subst hb
    by_cases h2 : x = stxV2
    · exact ⟨m, some true, by rw [if_pos h2]; rfl, h, .inl rfl⟩
    · by_cases h1 : x = stxV1
      · exact ⟨m, some false, by rw [if_neg h2, if_pos h1]; rfl, h, .inl rfl⟩
      · exact ⟨m, none, by rw [if_neg h2, if_neg h1]; rfl, h, .inl rfl⟩
  | cons y t =>
    have hx : x = y := by
      have := h.ld (i := 0) (by rw [hb]; simp)
      rw [h0, hb] at this
      simpa using this
    rw [← hb]
    by_cases h2 : x = stxV2
    · have : resync buf = buf := by rw [hb, hr, ← hx, h2]; rfl
      rw [this]
      exact ⟨m, some true, by rw [if_pos h2]; rfl, h, .inr (.inl ⟨by rw [hb, ← hx, h2]; rfl, rfl⟩)⟩
    · by_cases h1 : x = stxV1
      · have : resync buf = buf := by rw [hb, hr, ← hx, h1]; rfl
        rw [this]
        exact ⟨m, some false, by rw [if_neg h2, if_pos h1]; rfl, h,
          .inr (.inr ⟨by rw [hb, ← hx, h1]; rfl, rfl⟩)⟩
      · rw [if_neg h2, if_neg h1]
        have hre : resync buf = resync (buf.drop 1) := by
          rw [hb, hr, ← hx, if_neg (by simp [isStx, h1, h2])]; rfl
        rcases findStx_spec h (buf.length - 1) 1 (by rw [hb]; simp; omega) with
          ⟨a, b⟩ | ⟨pos, v2, a, b, c, d, e⟩
        · rw [hre, b, a]
          exact ⟨m, none, rfl, ⟨h.size, by simp, by simp⟩, .inl rfl⟩
        · rw [hre, d, a]
          obtain ⟨m', hm', hh⟩ := h.move (k := pos) (by omega)
          refine ⟨m', some v2, ?_, hh, .inr ?_⟩
          · simp only [Option.bind_some, subLen, if_pos (Nat.le_of_lt c), hm']
            simp
          · have : (buf.drop pos).getD 0 0 = buf.getD pos 0 := by simp [List.getD_eq_getElem?_getD]
            rw [this]
            rcases e with ⟨e1, e2⟩ | ⟨e1, e2⟩
            · exact .inl ⟨e1, by rw [e2]⟩
            · exact .inr ⟨e1, by rw [e2]⟩

theorem decodeM_spec {m b} (h : Holds m b) {v2 : Bool} (hv : v2 = true ↔ b.getD 0 0 = stxV2) :
    decodeM m b.length v2 = some (decodeHdr b) := by
  unfold decodeM decodeHdr
  cases v2 with
  | true =>
    have h0 := hv.mp rfl
    simp only [if_true]
    rw [if_pos h0]
    split
    · rfl
    · rw [h.ld (i := 1) (by omega), h.ld (i := 2) (by omega), h.ld (i := 4) (by omega),
        h.ld (i := 5) (by omega), h.ld (i := 6) (by omega), h.ld (i := 7) (by omega),
        h.ld (i := 8) (by omega), h.ld (i := 9) (by omega)]
      rfl
  | false =>
    have h0 : ¬ b.getD 0 0 = stxV2 := fun hh => by have := hv.mpr hh; cases this
    rw [if_neg h0]
    simp only [Bool.false_eq_true, if_false]
    split
    · rfl
    · rw [h.ld (i := 1) (by omega), h.ld (i := 2) (by omega), h.ld (i := 3) (by omega),
        h.ld (i := 4) (by omega), h.ld (i := 5) (by omega)]
      rfl

theorem decodeHdr_facts {b : List UInt8} {hd : Hdr} (h : decodeHdr b = some hd) :
    hd.hdrLen = (if b.getD 0 0 = stxV2 then 10 else 6) ∧ hd.payloadLen = b.getD 1 0 ∧
    hd.hdrLen + hd.payloadLen.toNat + 2 ≤ hd.size ∧ 2 ≤ b.length := by
  unfold decodeHdr at h
  split at h
  · split at h
    · cases h
    · cases h; rename_i h0 _; exact ⟨by rw [if_pos h0], rfl, by simp only []; omega, by omega⟩
  · split at h
    · cases h
    · cases h; rename_i h0 _; exact ⟨by rw [if_neg h0], rfl, by simp only []; omega, by omega⟩

theorem finishM_spec (tbl : MsgTable) {m b} (h : Holds m b) (st : RxStat) {hd : Hdr}
    (hdec : decodeHdr b = some hd) (hsz : hd.size ≤ b.length) :
    finishM tbl m b.length st hd =
      some ({ cells := m, len := b.length, lastLen := (finishPacket tbl b st hd).1.lastLen,
              stat := (finishPacket tbl b st hd).1.stat }, (finishPacket tbl b st hd).2) ∧
    (finishPacket tbl b st hd).1.buf = b := by
  obtain ⟨g1, g2, g3, g4⟩ := decodeHdr_facts hdec
  have hdata : ldRange m 0 hd.size = some (b.take hd.size) := by
    rw [h.ldRange (by omega)]; rfl
  have hcrc : ∀ e, checkCrcM e m = some (checkCrc e b) := by
    intro e
    unfold checkCrcM
    rw [h.ld (i := 0) (by omega)]
    simp only [Option.bind_eq_bind, Option.bind_some]
    rw [h.ld (i := 1) (by omega)]
    simp only [Option.bind_some]
    rw [← g1, ← g2]
    rw [h.ld (by omega), Option.bind_some, h.ld (by omega), Option.bind_some]
    rw [h.ldRange (by omega), Option.bind_some]
    unfold checkCrc
    simp only [← g1, ← g2]
    rfl
  have htgt : ∀ p o, targetM p o m hd.hdrLen hd.payloadLen = some (targetField p o b hd.hdrLen hd.payloadLen) := by
    intro p o
    unfold targetM targetField
    cases p with
    | false => rfl
    | true =>
      simp only [if_true]
      split
      · rw [h.ld (by omega)]; rfl
      · rfl
  unfold finishM finishPacket
  cases ht : tbl hd.msgid with
  | none =>
    simp only [hdata]
    exact ⟨rfl, rfl⟩
  | some e =>
    simp only [hcrc, htgt, hdata]
    cases hc : checkCrc e b with
    | true => exact ⟨rfl, rfl⟩
    | false => exact ⟨rfl, rfl⟩

/-- The two levels agree: array content and bookkeeping. -/
structure Rel (rm : RxM) (rx : Rx) : Prop where
  holds : Holds rm.cells rx.buf
  len : rm.len = rx.buf.length
  last : rm.lastLen = rx.lastLen
  stat : rm.stat = rx.stat

theorem parseM_spec (tbl : MsgTable) {m buf} (h : Holds m buf) {x} (h0 : ld m 0 = some x) (st : RxStat) :
    ∃ rm, parseM tbl m buf.length st = some (rm, (parseBuf tbl buf st).2) ∧
      Rel rm (parseBuf tbl buf st).1 := by
  obtain ⟨m', v2, h1, h2, h3⟩ := resyncM_spec h h0
  unfold parseM parseBuf
  rw [h1]
  simp only [Option.bind_eq_bind, Option.bind_some]
  cases v2 with
  | none =>
    have : resync buf = [] := by rcases h3 with h3 | ⟨_, h3⟩ | ⟨_, h3⟩ <;> first | exact h3 | cases h3
    rw [this] at h2 ⊢
    exact ⟨_, rfl, h2, rfl, rfl, rfl⟩
  | some v =>
    by_cases he : resync buf = []
    · rw [he] at h2 ⊢
      have : decodeM m' ([] : List UInt8).length v = some none := by cases v <;> rfl
      simp only [this]
      exact ⟨_, rfl, h2, rfl, rfl, rfl⟩
    · have hv : v = true ↔ (resync buf).getD 0 0 = stxV2 := by
        rcases h3 with h3 | ⟨a, b⟩ | ⟨a, b⟩
        · exact absurd h3 he
        · cases b; rw [a]; simp
        · cases b; rw [a]; simp; decide
      simp only [decodeM_spec h2 hv, Option.bind_some]
      cases hdec : decodeHdr (resync buf) with
      | none => exact ⟨_, rfl, h2, rfl, rfl, rfl⟩
      | some hd =>
        simp only []
        by_cases hsz : (resync buf).length < hd.size
        · rw [if_pos hsz, if_pos hsz]
          exact ⟨_, rfl, h2, rfl, rfl, rfl⟩
        · rw [if_neg hsz, if_neg hsz]
          obtain ⟨a, b⟩ := finishM_spec tbl h2 st hdec (by omega)
          exact ⟨_, a, by rw [b]; exact h2, by rw [b], rfl, rfl⟩

theorem readMsgM_spec (tbl : MsgTable) (fd : Bool) {rm : RxM} {rx : Rx} (hr : Rel rm rx) (hi : rx.Inv)
    (io : SysRead) :
    ∃ rm' f, readMsgM tbl fd rm io = some (rm', (readMsg tbl fd rx io).2, f) ∧
      Rel rm' (readMsg tbl fd rx io).1 ∧ ∀ k, f = some k → 841 ≤ k ∧ rm.len + k = rm.cells.length := by
  obtain ⟨hh, hlen, hlast, hstat⟩ := hr
  unfold readMsgM readMsg
  cases fd with
  | false => exact ⟨rm, none, rfl, ⟨hh, hlen, hlast, hstat⟩, by simp⟩
  | true =>
    simp only [Bool.not_true, Bool.false_eq_true, if_false]
    rw [hlast]
    by_cases hll : rx.lastLen = 0
    · rw [if_neg (by simp [hll]), if_neg (by simp [hll])]
      have hb := hi.2.2 hll
      have hsub : subLen rxBufMax rm.len = some (rxBufMax - rx.buf.length) := by
        rw [hlen]; exact if_pos hh.fits
      rw [hsub]
      simp only [Option.bind_eq_bind, Option.bind_some]
      have hk : ∀ k, some (rxBufMax - rx.buf.length) = some k → 841 ≤ k ∧ rm.len + k = rm.cells.length := by
        intro k hk; cases hk
        have := hh.size
        rw [hlen, this]; simp only [rxBufMax]; omega
      cases io with
      | fail r => exact ⟨rm, _, rfl, ⟨hh, hlen, hlast, hstat⟩, hk⟩
      | got bs =>
        simp only []
        cases htake : bs.take (rxBufMax - rx.buf.length) with
        | nil => exact ⟨rm, _, rfl, ⟨hh, hlen, hlast, hstat⟩, hk⟩
        | cons c cs =>
          have hl : (c :: cs).length ≤ rxBufMax - rx.buf.length := by
            rw [← htake]; simp; omega
          obtain ⟨m', hm', hh'⟩ := hh.store (bs := c :: cs) (by have := hh.fits; omega)
          have h0 : ld m' 0 = some ((rx.buf ++ c :: cs).getD 0 0) := hh'.ld (by simp; omega)
          obtain ⟨rm', hp, hrel⟩ := parseM_spec tbl hh' h0 rx.stat
          refine ⟨rm', some (rxBufMax - rx.buf.length), ?_, hrel, hk⟩
          simp only []
          rw [hlen, hm', hstat]
          simp only [Option.bind_some]
          rw [List.length_append] at hp
          rw [hp]
          rfl
    · rw [if_pos (by simp [hll]), if_pos (by simp [hll])]
      have hle := hi.2.1
      have hsub : subLen rm.len rx.lastLen = some (rx.buf.length - rx.lastLen) := by
        rw [hlen]; exact if_pos hle
      rw [hsub]
      simp only [Option.bind_eq_bind, Option.bind_some]
      have hmv : ∃ m', shift rm.cells rx.lastLen (rx.buf.length - rx.lastLen) = some m' ∧
          Holds m' (rx.buf.drop rx.lastLen) ∧ ∃ x, ld m' 0 = some x := by
        unfold shift
        by_cases hz : rx.buf.length - rx.lastLen > 0
        · rw [if_pos hz]
          obtain ⟨m', a, b⟩ := hh.move hle
          exact ⟨m', a, b, _, b.ld (by simp; omega)⟩
        · rw [if_neg hz]
          refine ⟨rm.cells, rfl, ⟨hh.size, by simp; omega, ?_⟩, _, hh.ld (i := 0) (by omega)⟩
          rw [List.drop_of_length_le (by omega)]; rfl
      obtain ⟨m', hm', hh', x, hx⟩ := hmv
      obtain ⟨rm', hp, hrel⟩ := parseM_spec tbl hh' hx rx.stat
      refine ⟨rm', none, ?_, hrel, by simp⟩
      rw [hm', hstat]
      simp only [Option.bind_some]
      rw [List.length_drop] at hp
      rw [hp]
      rfl

theorem drainM_spec (tbl : MsgTable) (io : SysRead) : ∀ n {rm : RxM} {rx : Rx}, Rel rm rx → rx.Inv →
    ∃ rm' fs, drainM tbl n rm io =
        some (rm', (drain tbl true n rx io).2.1, (drain tbl true n rx io).2.2, fs) ∧
      Rel rm' (drain tbl true n rx io).1 ∧ ∀ k ∈ fs, 841 ≤ k := by
  intro n
  induction n with
  | zero => intro rm rx hr hi; exact ⟨rm, [], rfl, hr, by simp⟩
  | succ n ih =>
    intro rm rx hr hi
    obtain ⟨rm', f, h1, h2, h3⟩ := readMsgM_spec tbl true hr hi io
    have hi' := readMsg_inv tbl true rx io hi
    unfold drainM drain
    rw [h1]
    generalize readMsg tbl true rx io = q at h2 hi' ⊢
    obtain ⟨rx', o⟩ := q
    cases o with
    | stop r =>
      refine ⟨rm', f.toList, rfl, h2, ?_⟩
      intro k hk
      rw [Option.mem_toList] at hk
      exact (h3 k hk).1
    | msg m k =>
      obtain ⟨rm'', fs, a, b, c⟩ := ih h2 hi'
      simp only [Option.bind_eq_bind, Option.bind_some, a]
      refine ⟨rm'', f.toList ++ fs, rfl, b, ?_⟩
      intro j hj
      rcases List.mem_append.mp hj with hj | hj
      · rw [Option.mem_toList] at hj; exact (h3 j hj).1
      · exact c j hj

theorem runM_spec (tbl : MsgTable) : ∀ (ios : List SysRead) {rm : RxM} {rx : Rx}, Rel rm rx → rx.Inv →
    ∃ rm' fs, runM tbl rm ios = some (rm', (runRx tbl rx ios).2, fs) ∧
      Rel rm' (runRx tbl rx ios).1 ∧ (runRx tbl rx ios).1.Inv ∧ ∀ k ∈ fs, 841 ≤ k := by
  intro ios
  induction ios with
  | nil => intro rm rx hr hi; exact ⟨rm, [], rfl, hr, hi, by simp⟩
  | cons io ios ih =>
    intro rm rx hr hi
    obtain ⟨rm', fs, a, b, c⟩ := drainM_spec tbl io (rxBufMax + 1) hr hi
    have hi' : (drain tbl true (rxBufMax + 1) rx io).1.Inv := handleRead_inv tbl true _ rx io hi
    obtain ⟨rm'', fs', a', b', i', c'⟩ := ih b hi'
    unfold runM runRx
    simp only [a, Option.bind_eq_bind, Option.bind_some, handleReadRx]
    refine ⟨rm'', fs ++ fs', ?_, b', i', ?_⟩
    · rw [a']; rfl
    · intro k hk
      rcases List.mem_append.mp hk with hk | hk
      · exact c k hk
      · exact c' k hk

theorem rel_fresh : Rel fresh {} := by
  refine ⟨⟨?_, by simp, by simp⟩, rfl, rfl, rfl⟩
  simp [fresh]

end Verif.RxMem
