/- Storage of ULog streams of which packets get lost. -/
import Verif.Lemmas.ULogSeq
import Verif.Spec.ULogLoss

namespace Verif

open Spec (WholeMsg Carries fresh InWindow WritesAll Started Cut chunkAt msgAt FirstMsg Arrived arrivedMsgs)

/-! ## Sequence numbers -/

theorem logSeq_gap {a b : Nat} (h1 : a < b) (h2 : b ≤ a + 32766) :
    logSeq (UInt16.ofNat a) (UInt16.ofNat b) = some (true, UInt16.ofNat (b + 1)) := by
  obtain ⟨d, hd⟩ := logSeq_ahead (Nat.le_of_lt h1) h2
  have hne : UInt16.ofNat a ≠ UInt16.ofNat b := by
    intro h
    have := congrArg UInt16.toNat h
    simp only [UInt16.toNat_ofNat'] at this
    omega
  have : d = true := by
    unfold logSeq at hd
    rw [if_neg hne] at hd
    split at hd <;> split at hd <;> simp at hd <;> first | exact hd.1.symm | (cases hd; rfl) | skip
  rw [hd, this, ofNat_succ16]

theorem logSeq_next (a : Nat) : logSeq (UInt16.ofNat a) (UInt16.ofNat a) = some (false, UInt16.ofNat (a + 1)) := by
  rw [← ofNat_succ16]; simp [logSeq]

/-! ## Positions -/

theorem chunkAt_succ {chunks : List (List UInt8)} {n : Nat} {chunk : List UInt8} (h : chunks[n]? = some chunk) :
    chunkAt chunks (n + 1) = chunkAt chunks n + chunk.length := by
  unfold chunkAt
  rw [take_succ_flatten chunks n chunk h, List.length_append]

theorem flatten_take_le (l : List (List UInt8)) {a b : Nat} (h : a ≤ b) : (l.take a).flatten.length ≤ (l.take b).flatten.length := by
  obtain ⟨d, rfl⟩ := Nat.exists_eq_add_of_le h
  rw [List.take_add, List.flatten_append, List.length_append]
  omega

theorem chunkAt_mono (chunks : List (List UInt8)) {a b : Nat} (h : a ≤ b) : chunkAt chunks a ≤ chunkAt chunks b :=
  flatten_take_le chunks h

theorem msgAt_mono (hdr : List UInt8) (msgs : List (List UInt8)) {a b : Nat} (h : a ≤ b) : msgAt hdr msgs a ≤ msgAt hdr msgs b := by
  have := flatten_take_le msgs h
  unfold msgAt; omega

theorem msgAt_succ {hdr : List UInt8} {msgs : List (List UInt8)} {j : Nat} {m : List UInt8} (h : msgs[j]? = some m) :
    msgAt hdr msgs (j + 1) = msgAt hdr msgs j + m.length := by
  unfold msgAt
  rw [take_succ_flatten msgs j m h, List.length_append]; omega

theorem msgAt_lt {hdr : List UInt8} {msgs : List (List UInt8)} (hm : ∀ m ∈ msgs, m ≠ []) {i j : Nat} (hj : j < msgs.length)
    (h : msgAt hdr msgs i ≤ msgAt hdr msgs j) : i ≤ j := by
  by_cases hij : i ≤ j
  · exact hij
  · exfalso
    have h1 := msgAt_mono hdr msgs (show j + 1 ≤ i by omega)
    have h2 := msgAt_succ (hdr := hdr) (List.getElem?_eq_getElem hj)
    have h3 := hm _ (List.getElem_mem hj)
    have h4 : 0 < msgs[j].length := List.length_pos_iff.mpr h3
    omega

/-- The stream. -/
theorem stream_take {hdr : List UInt8} {msgs chunks : List (List UInt8)} (hcut : Cut hdr msgs chunks) (n : Nat) :
    (hdr ++ msgs.flatten).take (chunkAt chunks n) = (chunks.take n).flatten := by
  obtain ⟨rest0, h0⟩ := hcut.stream
  obtain ⟨rest1, h1⟩ := flatten_take_prefix chunks n
  rw [← h0, ← h1, List.append_assoc]
  unfold chunkAt
  rw [List.take_append_of_le_length (Nat.le_refl _), List.take_length]

theorem stream_drop (hdr : List UInt8) (msgs : List (List UInt8)) (j : Nat) :
    (hdr ++ msgs.flatten).drop (msgAt hdr msgs j) = (msgs.drop j).flatten := by
  have : hdr ++ msgs.flatten = (hdr ++ (msgs.take j).flatten) ++ (msgs.drop j).flatten := by
    rw [List.append_assoc, ← List.flatten_append, List.take_append_drop]
  rw [this]
  have hl : msgAt hdr msgs j = (hdr ++ (msgs.take j).flatten).length := by rw [List.length_append]; rfl
  rw [hl, List.drop_append_of_le_length (Nat.le_refl _), List.drop_length, List.nil_append]

/-- The bytes of the stream from message `j` to the beginning of packet `n`. -/
def piece (hdr : List UInt8) (msgs chunks : List (List UInt8)) (j n : Nat) : List UInt8 :=
  ((hdr ++ msgs.flatten).take (chunkAt chunks n)).drop (msgAt hdr msgs j)

theorem chunkAt_le {hdr : List UInt8} {msgs chunks : List (List UInt8)} (hcut : Cut hdr msgs chunks) (n : Nat) :
    chunkAt chunks n ≤ (hdr ++ msgs.flatten).length := by
  have := congrArg List.length (stream_take hcut n)
  rw [List.length_take] at this
  unfold chunkAt at this ⊢
  omega

theorem piece_length {hdr : List UInt8} {msgs chunks : List (List UInt8)} (hcut : Cut hdr msgs chunks) (j n : Nat) :
    (piece hdr msgs chunks j n).length = chunkAt chunks n - msgAt hdr msgs j := by
  have := chunkAt_le hcut n
  unfold piece
  rw [List.length_drop, List.length_take, Nat.min_eq_left this]

theorem piece_rest {hdr : List UInt8} {msgs chunks : List (List UInt8)} {j n : Nat} (h : msgAt hdr msgs j ≤ chunkAt chunks n)
    (hcut : Cut hdr msgs chunks) :
    piece hdr msgs chunks j n ++ (hdr ++ msgs.flatten).drop (chunkAt chunks n) = (msgs.drop j).flatten := by
  rw [← stream_drop hdr msgs j]
  unfold piece
  have hl : msgAt hdr msgs j ≤ ((hdr ++ msgs.flatten).take (chunkAt chunks n)).length := by
    rw [List.length_take, Nat.min_eq_left (chunkAt_le hcut n)]; exact h
  rw [← List.drop_append_of_le_length hl, List.take_append_drop]

theorem piece_next {hdr : List UInt8} {msgs chunks : List (List UInt8)} {j n : Nat} {chunk : List UInt8}
    (h : msgAt hdr msgs j ≤ chunkAt chunks n) (hk : chunks[n]? = some chunk)
    (hcut : Cut hdr msgs chunks) : piece hdr msgs chunks j (n + 1) = piece hdr msgs chunks j n ++ chunk := by
  unfold piece
  rw [stream_take hcut, stream_take hcut, take_succ_flatten chunks n chunk hk]
  exact List.drop_append_of_le_length h

theorem piece_in {hdr : List UInt8} {msgs chunks : List (List UInt8)} {j n f : Nat} {chunk : List UInt8}
    (h : msgAt hdr msgs j = chunkAt chunks n + f) (hk : chunks[n]? = some chunk)
    (hcut : Cut hdr msgs chunks) : piece hdr msgs chunks j (n + 1) = chunk.drop f := by
  unfold piece
  rw [stream_take hcut, take_succ_flatten chunks n chunk hk, h]
  have : chunkAt chunks n = ((chunks.take n).flatten).length := rfl
  rw [this, ← List.drop_drop, List.drop_append_of_le_length (Nat.le_refl _), List.drop_length, List.nil_append]

theorem piece_skip {hdr : List UInt8} {msgs chunks : List (List UInt8)} {j i n : Nat} {rest : List UInt8}
    (h : piece hdr msgs chunks j n = ((msgs.drop j).take i).flatten ++ rest) : rest = piece hdr msgs chunks (j + i) n := by
  have hl : msgAt hdr msgs (j + i) = msgAt hdr msgs j + ((msgs.drop j).take i).flatten.length := by
    unfold msgAt
    rw [List.take_add, List.flatten_append, List.length_append]; omega
  unfold piece at h ⊢
  rw [hl, ← List.drop_drop, h, List.drop_append_of_le_length (Nat.le_refl _), List.drop_length, List.nil_append]

/-! ## Flush -/

/-- With writes that are carried out, a flush writes the remainder and exactly the complete messages of the stream. -/
theorem flush_stream (env : LogEnv) (hw : WritesAll env) (msgs : List (List UInt8))
    (hm : ∀ m ∈ msgs, WholeMsg m ∧ m.length ≤ 2048) (s : ULog) (c rest : List UInt8)
    (hf : s.base.file = some c) (hpl : s.part.length ≤ 2048) (hst : s.pend ++ rest = msgs.flatten) :
    ∃ (v : ULog) (j : Nat), s.flush env = some (v, true) ∧ v.base.file = some (c ++ s.part ++ (msgs.take j).flatten) ∧ v.part = [] ∧
      s.pend = (msgs.take j).flatten ++ v.pend ∧
      (v.pend = [] ∨ ∃ m, msgs[j]? = some m ∧ v.pend.length < m.length) ∧ FlushRel s v := by
  have hfp : ∃ b, flushPart env s.part.length s.base s.part = (b, [], .empty) ∧ b.file = some (c ++ s.part) := by
    cases hup : s.part with
    | nil => exact ⟨s.base, rfl, by simpa using hf⟩
    | cons y ys =>
      obtain ⟨k, hk1, hk2⟩ := hw s.base.nwrite
      have hwr : s.base.write env (y :: ys) = ({ s.base with file := some (c ++ (y :: ys)), nwrite := s.base.nwrite + 1 }, .wrote (ys.length + 1)) := by
        unfold LogBase.write
        rw [hf]
        simp only [hk1]
        rw [hup] at hpl
        rw [List.take_of_length_le (by simp at hpl ⊢; omega), Nat.min_eq_right (by omega)]
        simp
      refine ⟨{ s.base with file := some (c ++ (y :: ys)), nwrite := s.base.nwrite + 1 }, ?_, rfl⟩
      simp only [List.length_cons, flushPart, hwr]
      rw [show (y :: ys).drop (ys.length + 1) = [] from by simp]
      cases ys <;> rfl
  obtain ⟨b, hb1, hb2⟩ := hfp
  obtain ⟨v, j, h1, h2, h3, h4, _, h6, _, _⟩ := flushBuf_stream env hw msgs hm
    (s.pend.length + 1) { s with base := b, part := [] } rest (c ++ s.part)
    (Nat.lt_succ_self _) rfl hb2 hst
  have hfl : s.flush env = some (v, true) := by
    unfold ULog.flush
    rw [hb1]
    exact h1
  exact ⟨v, j, hfl, h2, h3, h4, h6, flush_spec env s v true hfl⟩

/-! ## Invariant -/

section
variable {hdr : List UInt8} {msgs chunks : List (List UInt8)} {got : List Nat}

theorem arrivedMsgs_run {j : Nat} : ∀ i, (∀ l, j ≤ l → l < j + i → l < msgs.length ∧ Arrived hdr msgs chunks got l) →
    arrivedMsgs hdr msgs chunks got (j + i) = arrivedMsgs hdr msgs chunks got j ++ (msgs.drop j).take i
  | 0, _ => by simp
  | i + 1, h => by
    rw [← Nat.add_assoc]
    obtain ⟨h1, h2⟩ := h (j + i) (by omega) (by omega)
    simp only [arrivedMsgs]
    rw [if_pos h2, arrivedMsgs_run i (fun l h3 h4 => h l h3 (by omega)), List.append_assoc, List.take_add_one, List.getElem?_drop]

theorem arrivedMsgs_skip {j : Nat} : ∀ i, (∀ l, j ≤ l → l < j + i → ¬ Arrived hdr msgs chunks got l) →
    arrivedMsgs hdr msgs chunks got (j + i) = arrivedMsgs hdr msgs chunks got j
  | 0, _ => rfl
  | i + 1, h => by
    rw [← Nat.add_assoc]
    simp only [arrivedMsgs]
    rw [if_neg (h (j + i) (by omega) (by omega)), List.append_nil, arrivedMsgs_skip i (fun l h3 h4 => h l h3 (by omega))]

/-- In the middle of message `j`, whose beginning is in the buffer. -/
structure InSync (hdr : List UInt8) (msgs chunks : List (List UInt8)) (got : List Nat) (k j : Nat) (pend : List UInt8) : Prop where
  at_ : msgAt hdr msgs j ≤ chunkAt chunks k
  pend_ : pend = piece hdr msgs chunks j k
  covered : ∀ x, msgAt hdr msgs j ≤ x → x < chunkAt chunks k → ∃ n ∈ got, chunkAt chunks n ≤ x ∧ x < chunkAt chunks (n + 1)

/-- Message `j` and what follows is not complete. -/
def Unfinished (hdr : List UInt8) (msgs chunks : List (List UInt8)) (k j : Nat) : Prop :=
  ∀ i, j ≤ i → i < msgs.length → chunkAt chunks k < msgAt hdr msgs (i + 1)

/-- Waiting for the beginning of a message. -/
structure Waiting (hdr : List UInt8) (msgs chunks : List (List UInt8)) (got : List Nat) (k j : Nat) (pend : List UInt8) : Prop where
  at_ : msgAt hdr msgs j ≤ chunkAt chunks k
  pend_ : pend = []
  gone : ∀ i, j ≤ i → i < msgs.length → msgAt hdr msgs i < chunkAt chunks k → ¬ Arrived hdr msgs chunks got i

structure LossInv (hdr : List UInt8) (msgs chunks : List (List UInt8)) (got : List Nat) (k : Nat) (u : ULog) : Prop where
  exp : u.expSeq = UInt16.ofNat k
  header : u.waitHdr = false
  part : u.part.length ≤ 16
  data : ∃ c j, u.base.file = some c ∧ c ++ u.part = hdr ++ (arrivedMsgs hdr msgs chunks got j).flatten ∧ j ≤ msgs.length ∧
    ((u.waitFirst = false ∧ InSync hdr msgs chunks got k j u.pend ∧ Unfinished hdr msgs chunks k j) ∨
     (u.waitFirst = true ∧ Waiting hdr msgs chunks got k j u.pend))

theorem whole_ne (hcut : Cut hdr msgs chunks) : ∀ m ∈ msgs, m ≠ [] := by
  intro m hm e
  obtain ⟨lo, hi, ty, pl, h, _⟩ := (hcut.whole m hm).1
  rw [h] at e; cases e

theorem sync_flush {env : LogEnv} (hw : WritesAll env) (hcut : Cut hdr msgs chunks) {k j : Nat} {s : ULog} {c : List UInt8}
    (hf : s.base.file = some c) (hc : c ++ s.part = hdr ++ (arrivedMsgs hdr msgs chunks got j).flatten) (hp : s.part.length ≤ 16)
    (hj : j ≤ msgs.length) (S : InSync hdr msgs chunks got k j s.pend) :
    ∃ (v : ULog) (c' : List UInt8) (j' : Nat), s.flush env = some (v, true) ∧ FlushRel s v ∧ v.part = [] ∧ v.base.file = some c' ∧
      c' = hdr ++ (arrivedMsgs hdr msgs chunks got j').flatten ∧ j' ≤ msgs.length ∧ InSync hdr msgs chunks got k j' v.pend ∧
      Unfinished hdr msgs chunks k j' := by
  have hwhole : ∀ m ∈ msgs.drop j, WholeMsg m ∧ m.length ≤ 2048 := fun m hm =>
    ⟨(hcut.whole m (List.mem_of_mem_drop hm)).1, by have := (hcut.whole m (List.mem_of_mem_drop hm)).2; omega⟩
  obtain ⟨v, i, h1, h2, h3, h4, h5, h6⟩ := flush_stream env hw (msgs.drop j) hwhole s c _ hf (by omega)
    (by rw [S.pend_]; exact piece_rest S.at_ hcut)
  -- the number of messages written
  obtain ⟨i', hi', hie, hinc⟩ : ∃ i', j + i' ≤ msgs.length ∧ (msgs.drop j).take i = (msgs.drop j).take i' ∧
      (v.pend = [] ∨ ∃ m, (msgs.drop j)[i']? = some m ∧ v.pend.length < m.length) := by
    by_cases hle : j + i ≤ msgs.length
    · exact ⟨i, hle, rfl, h5⟩
    · refine ⟨msgs.length - j, by omega, ?_, ?_⟩
      · rw [List.take_of_length_le (by rw [List.length_drop]; omega), List.take_of_length_le (by rw [List.length_drop]; omega)]
      · rcases h5 with h5 | ⟨m, h5, _⟩
        · exact .inl h5
        · have := (List.getElem?_eq_some_iff.mp h5).1
          rw [List.length_drop] at this; omega
  rw [hie] at h2 h4
  have hpe : v.pend = piece hdr msgs chunks (j + i') k := piece_skip (by rw [← S.pend_]; exact h4)
  have hat : msgAt hdr msgs (j + i') ≤ chunkAt chunks k := by
    have e : msgAt hdr msgs (j + i') = msgAt hdr msgs j + ((msgs.drop j).take i').flatten.length := by
      unfold msgAt
      rw [List.take_add, List.flatten_append, List.length_append]; omega
    have e2 := congrArg List.length h4
    rw [S.pend_, piece_length hcut, List.length_append] at e2
    have := S.at_
    omega
  refine ⟨v, _, j + i', h1, h6, h3, h2, ?_, hi', ⟨hat, hpe, fun x hx1 hx2 => S.covered x ?_ hx2⟩, ?_⟩
  · rw [hc, arrivedMsgs_run i', List.flatten_append, List.append_assoc]
    intro l hl1 hl2
    refine ⟨by omega, fun x hx1 hx2 => S.covered x ?_ ?_⟩
    · have := msgAt_mono hdr msgs hl1; omega
    · have := msgAt_mono hdr msgs (show l + 1 ≤ j + i' by omega); omega
  · have := msgAt_mono hdr msgs (show j ≤ j + i' by omega); omega
  · intro l hl1 hl2
    have hlt : j + i' < msgs.length := by omega
    have hs := msgAt_succ (hdr := hdr) (List.getElem?_eq_getElem hlt)
    have hm : 0 < msgs[j + i'].length := List.length_pos_iff.mpr (whole_ne hcut _ (List.getElem_mem hlt))
    have hmono := msgAt_mono hdr msgs (show j + i' + 1 ≤ l + 1 by omega)
    have hlen := piece_length hcut (j + i') k
    rw [← hpe] at hlen
    rcases hinc with h | ⟨m, h, h'⟩
    · rw [h] at hlen
      simp only [List.length_nil] at hlen
      omega
    · rw [List.getElem?_drop, List.getElem?_eq_getElem hlt] at h
      cases h
      omega

/-- What is lost in a gap. -/
theorem gap_gone (hcut : Cut hdr msgs chunks) (hne : ∀ c ∈ chunks, c ≠ []) {k n j : Nat} (hkn : k < n) (hn : n ≤ chunks.length)
    (hgap : ∀ i, k ≤ i → i < n → i ∉ got) (h : ∀ i, j ≤ i → i < msgs.length → msgAt hdr msgs i < chunkAt chunks k →
      chunkAt chunks k < msgAt hdr msgs (i + 1) ∨ ¬ Arrived hdr msgs chunks got i) :
    ∀ i, j ≤ i → i < msgs.length → msgAt hdr msgs i < chunkAt chunks n → ¬ Arrived hdr msgs chunks got i := by
  intro i hi hil hin hA
  have hs := msgAt_succ (hdr := hdr) (List.getElem?_eq_getElem hil)
  have hm : 0 < msgs[i].length := List.length_pos_iff.mpr (whole_ne hcut _ (List.getElem_mem hil))
  have hkl : k < chunks.length := by omega
  have hck := chunkAt_succ (List.getElem?_eq_getElem hkl)
  have hcn : 0 < chunks[k].length := List.length_pos_iff.mpr (hne _ (List.getElem_mem hkl))
  have hmono := chunkAt_mono chunks (show k + 1 ≤ n by omega)
  have key : ∀ x, msgAt hdr msgs i ≤ x → x < msgAt hdr msgs (i + 1) → chunkAt chunks k ≤ x → x < chunkAt chunks n → False := by
    intro x h1 h2 h3 h4
    obtain ⟨g, hg, h5, h6⟩ := hA x h1 h2
    by_cases hgk : g < k
    · have := chunkAt_mono chunks (show g + 1 ≤ k by omega); omega
    · by_cases hgn : g < n
      · exact hgap g (by omega) hgn hg
      · have := chunkAt_mono chunks (show n ≤ g by omega); omega
  by_cases hlt : msgAt hdr msgs i < chunkAt chunks k
  · rcases h i hi hil hlt with h1 | h1
    · exact key (chunkAt chunks k) (by omega) h1 (Nat.le_refl _) (by omega)
    · exact h1 hA
  · exact key (msgAt hdr msgs i) (Nat.le_refl _) (by omega) (by omega) hin

theorem afterLoss_true {env : LogEnv} {u w : ULog} {r : Bool} (h : u.flush env = some (w, r)) :
    u.afterLoss env true = some { w with pend := [], idx := 0, waitFirst := true } := by
  unfold ULog.afterLoss
  rw [if_pos rfl, h]

/-- After the check for lost packets. -/
theorem LossInv.loss {env : LogEnv} (hw : WritesAll env) (hcut : Cut hdr msgs chunks) (hne : ∀ c ∈ chunks, c ≠ []) {k n : Nat} {u : ULog}
    {c : List UInt8} {j : Nat} (hpart : u.part.length ≤ 16)
    (hf : u.base.file = some c) (hc : c ++ u.part = hdr ++ (arrivedMsgs hdr msgs chunks got j).flatten) (hj : j ≤ msgs.length)
    (hmode : (u.waitFirst = false ∧ InSync hdr msgs chunks got k j u.pend ∧ Unfinished hdr msgs chunks k j) ∨
      (u.waitFirst = true ∧ Waiting hdr msgs chunks got k j u.pend))
    (hkn : k < n) (hn : n ≤ chunks.length) (hgap : ∀ i, k ≤ i → i < n → i ∉ got) :
    ∃ v c j, u.afterLoss env true = some v ∧ v.expSeq = u.expSeq ∧ v.waitHdr = u.waitHdr ∧ v.part = [] ∧ v.base.file = some c ∧
      c = hdr ++ (arrivedMsgs hdr msgs chunks got j).flatten ∧ j ≤ msgs.length ∧ v.waitFirst = true ∧
      Waiting hdr msgs chunks got n j v.pend := by
  have hmono := chunkAt_mono chunks (Nat.le_of_lt hkn)
  rcases hmode with ⟨_, S, hu⟩ | ⟨_, W⟩
  · obtain ⟨w, c', j', h1, hr, h3, h4, h5, h6, S', hu'⟩ := sync_flush hw hcut hf hc hpart hj S
    refine ⟨_, c', j', afterLoss_true h1, hr.expSeq, hr.waitHdr, h3, h4, h5, h6, rfl, ⟨by have := S'.at_; omega, rfl, ?_⟩⟩
    exact gap_gone hcut hne hkn hn hgap (fun i hi hil _ => .inl (hu' i hi hil))
  · obtain ⟨w, i, h1, h2, h3, _, _, hr⟩ := flush_stream env hw [] (by simp) u c [] hf (by omega) (by rw [W.pend_]; rfl)
    refine ⟨_, _, j, afterLoss_true h1, hr.expSeq, hr.waitHdr, h3, h2, by simpa using hc, hj, rfl, ⟨by have := W.at_; omega, rfl, ?_⟩⟩
    exact gap_gone hcut hne hkn hn hgap (fun i hi hil hlt => .inr (W.gone i hi hil hlt))

/-- Storing packet `n`, nothing being lost in front of it. -/
theorem LossInv.store {env : LogEnv} (hw : WritesAll env) (hcut : Cut hdr msgs chunks) (hne : ∀ c ∈ chunks, c ≠ []) {n : Nat} {u : ULog}
    {p : Pkt} {chunk c : List UInt8} {j : Nat} (hk : chunks[n]? = some chunk) (hp : Carries n chunk p)
    (hfm : FirstMsg hdr msgs chunks n p.first) (hg : n ∈ got)
    (hexp : u.expSeq = UInt16.ofNat (n + 1)) (hh : u.waitHdr = false) (hpart : u.part.length ≤ 16)
    (hf : u.base.file = some c) (hc : c ++ u.part = hdr ++ (arrivedMsgs hdr msgs chunks got j).flatten) (hj : j ≤ msgs.length)
    (hmode : (u.waitFirst = false ∧ InSync hdr msgs chunks got n j u.pend ∧ Unfinished hdr msgs chunks n j) ∨
      (u.waitFirst = true ∧ Waiting hdr msgs chunks got n j u.pend)) :
    ∃ v q, (u.makeRoom p.length.toNat).store env p = some (v, q) ∧ LossInv hdr msgs chunks got (n + 1) v := by
  obtain ⟨hp1, hp2, hp3, hp4⟩ := hp
  have hshort : chunk.length ≤ 249 := hcut.short chunk (List.mem_of_getElem? hk)
  have hcne : 0 < chunk.length := List.length_pos_iff.mpr (hne _ (List.mem_of_getElem? hk))
  have hsucc := chunkAt_succ hk
  have hl0 : p.length ≠ 0 := by
    intro e
    rw [e] at hp2
    have : (0 : UInt8).toNat = 0 := rfl
    omega
  have hroom : u.pend.length + p.length.toNat ≤ ulogBuf := by
    show _ ≤ 2048
    rw [hp2]
    rcases hmode with ⟨_, S, hu⟩ | ⟨_, W⟩
    · have hlen := piece_length hcut j n
      rw [← S.pend_] at hlen
      by_cases hjl : j < msgs.length
      · have h1 := hu j (Nat.le_refl _) hjl
        have h2 := msgAt_succ (hdr := hdr) (List.getElem?_eq_getElem hjl)
        have h3 := (hcut.whole _ (List.getElem_mem hjl)).2
        omega
      · have h1 := chunkAt_le hcut n
        have h2 : msgAt hdr msgs j = (hdr ++ msgs.flatten).length := by
          unfold msgAt
          rw [List.take_of_length_le (by omega), List.length_append]
        omega
    · rw [W.pend_]; simp; omega
  have hmr := makeRoom_small hroom
  generalize hx : (u.makeRoom p.length.toNat).idx = x at hmr
  rw [hmr, store_eq]
  -- both modes end with a flush
  have finish : ∀ j', j' ≤ msgs.length → c ++ u.part = hdr ++ (arrivedMsgs hdr msgs chunks got j').flatten →
      InSync hdr msgs chunks got (n + 1) j' (stored { u with idx := x } p).pend →
      ∃ v q, (match (stored { u with idx := x } p).flush env with
        | none => none
        | some (u', _) => some (u', { p with length := p.length - beginOf { u with idx := x } p })) = some (v, q) ∧
        LossInv hdr msgs chunks got (n + 1) v := by
    intro j' hj' hc' S
    obtain ⟨v, c', j2, h1, hr, h3, h4, h5, h6, S', hu'⟩ := sync_flush hw hcut (s := stored { u with idx := x } p) (c := c) hf hc' hpart hj' S
    refine ⟨v, _, by rw [h1], ?_, ?_, ?_, c', j2, h4, ?_, h6, .inl ⟨?_, S', hu'⟩⟩
    · rw [hr.expSeq]; exact hexp
    · rw [hr.waitHdr]; exact hh
    · rw [h3]; simp
    · rw [h3, List.append_nil, h5]
    · rw [hr.waitFirst]; rfl
  rcases hmode with ⟨hwf, S, hu⟩ | ⟨hwf, W⟩
  · rw [if_neg (by simp [hwf]), if_neg hl0]
    refine finish j hj hc ⟨by have := S.at_; omega, ?_, ?_⟩
    · have hb : beginOf { u with idx := x } p = 0 := by simp [beginOf, hwf]
      simp only [stored, chunkOf, hb]
      rw [piece_next S.at_ hk hcut, S.pend_]
      simp [hp2, hp3]
    · intro y hy1 hy2
      by_cases hyn : y < chunkAt chunks n
      · exact S.covered y hy1 hyn
      · exact ⟨n, hg, by omega, hy2⟩
  · by_cases h255 : p.first = 255
    · rw [if_pos ⟨hwf, h255⟩]
      refine ⟨_, _, rfl, hexp, hh, hpart, c, j, hf, hc, hj, .inr ⟨hwf, ⟨by have := W.at_; omega, W.pend_, ?_⟩⟩⟩
      have hnone : ∀ i, i < msgs.length → ¬(chunkAt chunks n ≤ msgAt hdr msgs i ∧ msgAt hdr msgs i < chunkAt chunks (n + 1)) := by
        rcases hfm with ⟨_, h⟩ | ⟨i, _, h1, h2, _⟩
        · exact h
        · exfalso
          rw [h255] at h1
          have : (255 : UInt8).toNat = 255 := rfl
          omega
      intro i hi hil hlt
      by_cases hin : msgAt hdr msgs i < chunkAt chunks n
      · exact W.gone i hi hil hin
      · exact absurd ⟨by omega, hlt⟩ (hnone i hil)
    · rw [if_neg (by intro h; exact h255 h.2), if_neg hl0]
      rcases hfm with ⟨h, _⟩ | ⟨i, hil, h1, h2, h3⟩
      · exact absurd h h255
      · have hji : j ≤ i := msgAt_lt (hdr := hdr) (whole_ne hcut) hil (by have := W.at_; omega)
        refine finish i (by omega) ?_ ⟨by omega, ?_, fun y hy1 hy2 => ⟨n, hg, by omega, hy2⟩⟩
        · rw [hc]
          obtain ⟨d, rfl⟩ := Nat.exists_eq_add_of_le hji
          rw [arrivedMsgs_skip d]
          intro l hl1 hl2
          have hll : l < msgs.length := by omega
          have hs := msgAt_succ (hdr := hdr) (List.getElem?_eq_getElem hll)
          have hm : 0 < msgs[l].length := List.length_pos_iff.mpr (whole_ne hcut _ (List.getElem_mem hll))
          have hmono := msgAt_mono hdr msgs (show l + 1 ≤ j + d by omega)
          refine W.gone l hl1 hll ?_
          by_cases hc2 : msgAt hdr msgs l < chunkAt chunks n
          · exact hc2
          · have := h3 l hll (by omega); omega
        · have hb : beginOf { u with idx := x } p = p.first := by simp [beginOf, hwf]
          simp only [stored, chunkOf, hb]
          rw [W.pend_, List.nil_append, piece_in h1 hk hcut]
          have hle : p.first ≤ p.length := UInt8.le_iff_toNat_le.2 (by rw [hp2]; omega)
          rw [UInt8.toNat_sub_of_le _ _ hle, hp2, ← hp3, ← List.drop_take]
          rw [List.length_take, Nat.min_eq_left (by omega)]

theorem LossInv.next {env : LogEnv} (hw : WritesAll env) (hcut : Cut hdr msgs chunks) (hne : ∀ c ∈ chunks, c ≠ []) {k n : Nat} {u : ULog}
    {p : Pkt} {chunk : List UInt8} (h : LossInv hdr msgs chunks got k u) (hk : chunks[n]? = some chunk) (hp : Carries n chunk p)
    (hfm : FirstMsg hdr msgs chunks n p.first) (hg : n ∈ got) (hkn : k ≤ n) (hwin : n ≤ k + 32766) (hgap : ∀ i, k ≤ i → i < n → i ∉ got) :
    ∃ v q, u.process env p = some (v, q) ∧ LossInv hdr msgs chunks got (n + 1) v := by
  obtain ⟨c, j, hf, hc, hj, hmode⟩ := h.data
  unfold ULog.process
  by_cases hlt : k < n
  · rw [h.exp, hp.1, logSeq_gap hlt hwin]
    simp only []
    rw [if_neg (by rw [h.header]; simp)]
    have hnl : n < chunks.length := (List.getElem?_eq_some_iff.mp hk).1
    obtain ⟨v, c, j, h1, h3, h4, h5, h6, h7, h8, h9, W⟩ := LossInv.loss (u := { u with expSeq := UInt16.ofNat (n + 1) }) hw hcut hne
      h.part hf hc hj hmode hlt (by omega) hgap
    unfold ULog.append
    rw [h1]
    exact LossInv.store hw hcut hne hk hp hfm hg h3 (h4.trans h.header) (by rw [h5]; simp) h6 (by rw [h5, List.append_nil, h7]) h8 (.inr ⟨h9, W⟩)
  · have : n = k := by omega
    subst this
    rw [h.exp, hp.1, logSeq_next]
    simp only []
    rw [if_neg (by rw [h.header]; simp)]
    exact LossInv.store hw hcut hne (u := { u with expSeq := UInt16.ofNat (n + 1) }) hk hp hfm hg rfl h.header h.part hf hc hj hmode

/-! ## Any results of the writes -/

theorem whole_eq {m m' : List UInt8} {x x' : List UInt8} (h : WholeMsg m) (h' : WholeMsg m') (e : m ++ x = m' ++ x') : m = m' ∧ x = x' := by
  obtain ⟨lo, hi, ty, pl, rfl, hl⟩ := h
  obtain ⟨lo', hi', ty', pl', rfl, hl'⟩ := h'
  simp only [List.cons_append, List.cons.injEq] at e
  obtain ⟨rfl, rfl, rfl, e⟩ := e
  have := List.append_inj e (by omega)
  exact ⟨by rw [this.1], this.2⟩

theorem whole_prefix : ∀ (ms' ms : List (List UInt8)) (x : List UInt8), (∀ m ∈ ms', WholeMsg m) → (∀ m ∈ ms, WholeMsg m) →
    ms'.flatten ++ x = ms.flatten → ∃ i, i ≤ ms.length ∧ ms' = ms.take i
  | [], _, _, _, _, _ => ⟨0, by omega, by simp⟩
  | m' :: ms', [], x, h', _, e => by
    obtain ⟨lo, hi, ty, pl, rfl, _⟩ := h' m' List.mem_cons_self
    simp at e
  | m' :: ms', m :: ms, x, h', h, e => by
    rw [List.flatten_cons, List.flatten_cons, List.append_assoc] at e
    obtain ⟨rfl, e2⟩ := whole_eq (h' m' List.mem_cons_self) (h m List.mem_cons_self) e
    obtain ⟨i, h1, h2⟩ := whole_prefix ms' ms x (fun y hy => h' y (List.mem_cons_of_mem _ hy)) (fun y hy => h y (List.mem_cons_of_mem _ hy)) e2
    exact ⟨i + 1, by simp; omega, by rw [h2]; rfl⟩

/-- The file consists of messages of the stream; what follows in the stream is in the buffer, or the beginning of a message is
waited for. -/
def SafeData (hdr : List UInt8) (msgs chunks : List (List UInt8)) (k : Nat) (u : ULog) : Prop :=
  ∃ c j sub, u.base.file = some c ∧ c ++ u.part = hdr ++ List.flatten sub ∧ sub.Sublist (msgs.take j) ∧ j ≤ msgs.length ∧
    msgAt hdr msgs j ≤ chunkAt chunks k ∧
    ((u.waitFirst = false ∧ u.pend = piece hdr msgs chunks j k) ∨ (u.waitFirst = true ∧ u.pend = []))

theorem safe_flush (hcut : Cut hdr msgs chunks) {k : Nat} {s v : ULog} (hr : FlushRel s v) (hcl : ULogClean v)
    (hwf : s.waitFirst = false) (h : SafeData hdr msgs chunks k s) : SafeData hdr msgs chunks k v := by
  obtain ⟨c, j, sub, hf, hc, hsub, hj, hat, hmode⟩ := h
  obtain ⟨ms, hms, hpe, hfile⟩ := hr.data hcl.1 hcl.2
  rcases hmode with ⟨_, hp⟩ | ⟨hw, _⟩
  · have hrest := piece_rest hat hcut
    rw [← hp, hpe, List.append_assoc] at hrest
    obtain ⟨i, hi, hmi⟩ := whole_prefix ms (msgs.drop j) _ hms (fun m hm => (hcut.whole m (List.mem_of_mem_drop hm)).1) hrest
    rw [List.length_drop] at hi
    obtain ⟨c', hf', hc'⟩ := hfile c hf
    have e : msgAt hdr msgs (j + i) = msgAt hdr msgs j + ms.flatten.length := by
      unfold msgAt
      rw [List.take_add, List.flatten_append, List.length_append, hmi]; omega
    refine ⟨c', j + i, sub ++ ms, hf', ?_, ?_, by omega, ?_, .inl ⟨by rw [hr.waitFirst]; exact hwf, ?_⟩⟩
    · rw [hc', hc, List.flatten_append, List.append_assoc]
    · rw [List.take_add, ← hmi]
      exact List.Sublist.append hsub (List.Sublist.refl _)
    · have := congrArg List.length hpe
      rw [hp, piece_length hcut, List.length_append] at this
      omega
    · exact piece_skip (by rw [← hp, hpe, hmi])
  · rw [hwf] at hw; cases hw

/-- A flush while waiting writes only the remainder. -/
theorem safe_flush_wait {k : Nat} {s v : ULog} (hr : FlushRel s v) (hcl : ULogClean v)
    (hwf : s.waitFirst = true) (h : SafeData hdr msgs chunks k s) : SafeData hdr msgs chunks k v := by
  obtain ⟨c, j, sub, hf, hc, hsub, hj, hat, hmode⟩ := h
  obtain ⟨ms, hms, hpe, hfile⟩ := hr.data hcl.1 hcl.2
  rcases hmode with ⟨hw, _⟩ | ⟨_, hp⟩
  · rw [hwf] at hw; cases hw
  · rw [hp] at hpe
    have := List.append_eq_nil_iff.mp hpe.symm
    obtain ⟨c', hf', hc'⟩ := hfile c hf
    exact ⟨c', j, sub, hf', by rw [hc', hc, this.1, List.append_nil], hsub, hj, hat, .inr ⟨by rw [hr.waitFirst]; exact hwf, this.2⟩⟩

theorem SafeData.later {k k' : Nat} {u : ULog} (h : SafeData hdr msgs chunks k u) (hw : u.waitFirst = true) (hk : k ≤ k') :
    SafeData hdr msgs chunks k' u := by
  obtain ⟨c, j, sub, hf, hc, hsub, hj, hat, hmode⟩ := h
  have := chunkAt_mono chunks hk
  rcases hmode with ⟨h, _⟩ | h
  · rw [hw] at h; cases h
  · exact ⟨c, j, sub, hf, hc, hsub, hj, by omega, .inr h⟩

/-- Forgetting the buffer. -/
theorem SafeData.forget {k : Nat} {u v : ULog} (h : SafeData hdr msgs chunks k u) (h1 : v.base = u.base) (h2 : v.part = u.part)
    (h3 : v.pend = []) (h4 : v.waitFirst = true) : SafeData hdr msgs chunks k v := by
  obtain ⟨c, j, sub, hf, hc, hsub, hj, hat, _⟩ := h
  exact ⟨c, j, sub, by rw [h1]; exact hf, by rw [h2]; exact hc, hsub, hj, hat, .inr ⟨h4, h3⟩⟩

theorem safe_store {env : LogEnv} (hcut : Cut hdr msgs chunks) {k k' : Nat} {u v : ULog} {p q : Pkt}
    (r : (u.makeRoom p.length.toNat).store env p = some (v, q)) (hcl : ULogClean v) (hkk : k ≤ k') (h : SafeData hdr msgs chunks k u)
    (hsync : u.waitFirst = false → ∀ j, u.pend = piece hdr msgs chunks j k → msgAt hdr msgs j ≤ chunkAt chunks k →
      u.pend ++ p.mem.take p.length.toNat = piece hdr msgs chunks j k')
    (hwait : u.waitFirst = true ∨ ulogBuf < u.pend.length + p.length.toNat → p.first = 255 ∨ (p.length ≠ 0 ∧ ∃ i, i ≤ msgs.length ∧
      (∀ j, j ≤ msgs.length → msgAt hdr msgs j ≤ chunkAt chunks k → j ≤ i) ∧ msgAt hdr msgs i ≤ chunkAt chunks k' ∧
      (p.mem.drop p.first.toNat).take (p.length - p.first).toNat = piece hdr msgs chunks i k')) :
    SafeData hdr msgs chunks k' v := by
  have waiting : ∀ u1 : ULog, u1.waitFirst = true → SafeData hdr msgs chunks k u1 → (p.first = 255 ∨ (p.length ≠ 0 ∧ ∃ i, i ≤ msgs.length ∧
      (∀ j, j ≤ msgs.length → msgAt hdr msgs j ≤ chunkAt chunks k → j ≤ i) ∧ msgAt hdr msgs i ≤ chunkAt chunks k' ∧
      (p.mem.drop p.first.toNat).take (p.length - p.first).toNat = piece hdr msgs chunks i k')) → u1.store env p = some (v, q) →
      SafeData hdr msgs chunks k' v := by
    intro u1 hw1 h1 hp r1
    rcases store_spec env u1 v p q r1 with ⟨_, _, e⟩ | ⟨h0, e⟩ | ⟨hn, _, hr⟩
    · rw [e]; exact h1.later hw1 hkk
    · rcases hp with hp | ⟨hp, _⟩
      · rw [store_eq, if_pos ⟨hw1, hp⟩] at r1
        cases r1
        exact h1.later hw1 hkk
      · exact absurd h0 hp
    · rcases hp with hp | ⟨_, i, hi, hle, hat', hch⟩
      · exact absurd ⟨hw1, hp⟩ hn
      · refine safe_flush hcut hr hcl rfl ?_
        obtain ⟨c, j, sub, hf, hc, hsub, hj, hat, hmode⟩ := h1
        have hpe : u1.pend = [] := by
          rcases hmode with ⟨h, _⟩ | ⟨_, h⟩
          · rw [hw1] at h; cases h
          · exact h
        have hji := hle j hj hat
        obtain ⟨d, rfl⟩ := Nat.exists_eq_add_of_le hji
        refine ⟨c, j + d, sub, hf, hc, ?_, hi, hat', .inl ⟨rfl, ?_⟩⟩
        · rw [List.take_add]
          exact hsub.trans (List.sublist_append_left _ _)
        · have hb : beginOf u1 p = p.first := by simp [beginOf, hw1]
          simp only [stored, chunkOf, hb, hpe, List.nil_append]
          exact hch
  rcases (makeRoom_spec u p.length.toNat).1 with ⟨e, _⟩ | ⟨e, hfull, _⟩
  · generalize (u.makeRoom p.length.toNat).idx = x at e
    rw [e] at r
    cases hwf : u.waitFirst with
    | true => exact waiting { u with idx := x } hwf h (hwait (.inl hwf)) r
    | false =>
      obtain ⟨c, j, sub, hf, hc, hsub, hj, hat, hmode⟩ := h
      have hpe : u.pend = piece hdr msgs chunks j k := by
        rcases hmode with ⟨_, h⟩ | ⟨h, _⟩
        · exact h
        · rw [hwf] at h; cases h
      have hat' : msgAt hdr msgs j ≤ chunkAt chunks k' := Nat.le_trans hat (chunkAt_mono chunks hkk)
      have hb : beginOf { u with idx := x } p = 0 := by simp [beginOf, hwf]
      rcases store_spec env _ v p q r with ⟨h, _⟩ | ⟨h0, e⟩ | ⟨_, _, hr⟩
      · rw [hwf] at h; cases h
      · rw [e]
        refine ⟨c, j, sub, hf, hc, hsub, hj, hat', .inl ⟨rfl, ?_⟩⟩
        rw [← hsync hwf j hpe hat, h0]
        simp
      · refine safe_flush hcut hr hcl rfl ⟨c, j, sub, hf, hc, hsub, hj, hat', .inl ⟨rfl, ?_⟩⟩
        rw [← hsync hwf j hpe hat]
        simp [stored, chunkOf, hb]
  · generalize (u.makeRoom p.length.toNat).idx = x at e
    rw [e] at r
    exact waiting { u with idx := x, pend := [], waitFirst := true, dropped := true } rfl (h.forget rfl rfl rfl rfl) (hwait (.inr hfull)) r

/-- One packet after the header. -/
theorem safe_next {env : LogEnv} (hcut : Cut hdr msgs chunks) {k n : Nat} {u v : ULog} {p q : Pkt} {chunk : List UInt8}
    (h : SafeData hdr msgs chunks k u) (hexp : u.expSeq = UInt16.ofNat k) (hh : u.waitHdr = false)
    (hk : chunks[n]? = some chunk) (hp : Carries n chunk p) (hfm : FirstMsg hdr msgs chunks n p.first)
    (hkn : k ≤ n) (hwin : n ≤ k + 32766) (r : u.process env p = some (v, q)) (hcl : ULogClean v) :
    SafeData hdr msgs chunks (n + 1) v ∧ v.expSeq = UInt16.ofNat (n + 1) ∧ v.waitHdr = false := by
  obtain ⟨hp1, hp2, hp3, hp4⟩ := hp
  have hsucc := chunkAt_succ hk
  have hshort : chunk.length ≤ 249 := hcut.short chunk (List.mem_of_getElem? hk)
  -- the packet, with or without loss in front of it
  have main : ∀ (w : ULog), SafeData hdr msgs chunks n w → (w.makeRoom p.length.toNat).store env p = some (v, q) →
      SafeData hdr msgs chunks (n + 1) v := by
    intro w hw hr
    refine safe_store hcut hr hcl (Nat.le_succ n) hw ?_ ?_
    · intro _ j hpe hat
      rw [piece_next hat hk hcut, hpe, hp2, hp3]
    · intro _
      by_cases h255 : p.first = 255
      · exact .inl h255
      · right
        rcases hfm with ⟨h, _⟩ | ⟨i, hil, h1, h2, h3⟩
        · exact absurd h h255
        · refine ⟨?_, i, by omega, ?_, by omega, ?_⟩
          · intro e
            rw [e] at hp2
            have : (0 : UInt8).toNat = 0 := rfl
            omega
          · intro j _ hat
            exact msgAt_lt (hdr := hdr) (whole_ne hcut) hil (by omega)
          · rw [piece_in h1 hk hcut]
            have hle : p.first ≤ p.length := UInt8.le_iff_toNat_le.2 (by rw [hp2]; omega)
            rw [UInt8.toNat_sub_of_le _ _ hle, hp2, ← hp3, ← List.drop_take]
            rw [List.length_take, Nat.min_eq_left (by omega)]
  unfold ULog.process at r
  by_cases hlt : k < n
  · rw [hexp, hp1, logSeq_gap hlt hwin] at r
    simp only [] at r
    rw [if_neg (by rw [hh]; simp)] at r
    have hkeep := append_keeps r
    refine ⟨?_, hkeep.1, hkeep.2.trans hh⟩
    unfold ULog.append at r
    cases ha : ({ u with expSeq := UInt16.ofNat (n + 1) } : ULog).afterLoss env true with
    | none => rw [ha] at r; cases r
    | some w =>
      rw [ha] at r
      refine main w ?_ r
      have hwcl : ULogClean w := by
        obtain ⟨m1, _, _⟩ := makeRoom_clean w p.length.toNat
        refine m1.mp ?_
        rcases store_spec env _ v p q r with ⟨_, _, e⟩ | ⟨_, e⟩ | ⟨_, _, hr⟩
        · rw [e] at hcl; exact hcl
        · rw [e] at hcl; exact hcl
        · exact hr.clean hcl
      rcases afterLoss_spec env _ w true ha with ⟨h, _⟩ | ⟨_, x, hr, rfl⟩
      · cases h
      · have hx : SafeData hdr msgs chunks k x := by
          cases hwf : u.waitFirst with
          | false => exact safe_flush hcut hr hwcl hwf h
          | true => exact safe_flush_wait hr hwcl hwf h
        exact (hx.forget (v := { x with pend := [], idx := 0, waitFirst := true }) rfl rfl rfl rfl).later rfl hkn
  · have : n = k := by omega
    subst this
    rw [hexp, hp1, logSeq_next] at r
    simp only [] at r
    rw [if_neg (by rw [hh]; simp)] at r
    have hkeep := append_keeps r
    exact ⟨main { u with expSeq := UInt16.ofNat (n + 1) } h r, hkeep.1, hkeep.2.trans hh⟩

/-- The packet with the header. -/
theorem safe_first {env : LogEnv} (hcut : Cut hdr msgs chunks) {u v : ULog} {p q : Pkt} {chunk : List UInt8} (hu : Started u)
    (hk : chunks[0]? = some chunk) (hp : Carries 0 chunk p) (r : u.process env p = some (v, q)) (hcl : ULogClean v) :
    SafeData hdr msgs chunks 1 v ∧ v.expSeq = UInt16.ofNat 1 ∧ v.waitHdr = false := by
  obtain ⟨hp1, hp2, hp3, hp4⟩ := hp
  obtain ⟨s1, s2, s3, s4, s5, s6, s7⟩ := hu
  obtain ⟨hh1, hh2⟩ := hcut.head chunk hk
  have htake := take_succ_flatten chunks 0 chunk hk
  obtain ⟨rest0, hrest0⟩ := hcut.stream
  obtain ⟨rest1, hrest1⟩ := flatten_take_prefix chunks (0 + 1)
  have hstream : chunk ++ (rest1 ++ rest0) = hdr ++ msgs.flatten := by
    rw [← hrest0, ← hrest1, htake]
    simp [List.append_assoc]
  have hc16 : chunk.take 16 = hdr := by
    have := congrArg (List.take 16) hstream
    rw [List.take_append_of_le_length hh1, List.take_append_of_le_length (by rw [hcut.hdrLen]; omega)] at this
    rw [this, List.take_of_length_le (by rw [hcut.hdrLen]; omega)]
  have hm16 : p.mem.take 16 = hdr := by
    rw [← hc16, ← hp3, List.take_take, Nat.min_eq_left hh1]
  have hm7 : p.mem.take 7 = ulogMagic := by
    refine Eq.trans ?_ hcut.magic
    rw [← hm16, List.take_take]
    rfl
  have hl16 : (p.length - 16).toNat = chunk.length - 16 := by
    rw [UInt8.toNat_sub_of_le _ _ (UInt8.le_iff_toNat_le.2 (by rw [hp2]; simpa using hh1)), hp2]
    rfl
  have hmsg0 : msgAt hdr msgs 0 = chunkAt chunks 0 + 16 := by simp [msgAt, chunkAt, hcut.hdrLen]
  have hat : msgAt hdr msgs 0 ≤ chunkAt chunks 1 := by
    have : chunkAt chunks 1 = chunkAt chunks 0 + chunk.length := chunkAt_succ hk
    omega
  have hpiece : piece hdr msgs chunks 0 1 = chunk.drop 16 := piece_in hmsg0 hk hcut
  unfold ULog.process at r
  have hseq : logSeq u.expSeq p.seq = some (false, UInt16.ofNat (0 + 1)) := by
    rw [s4, hp1]; exact logSeq_next 0
  rw [hseq] at r
  simp only [] at r
  rw [if_pos s2, if_neg (by
    intro hc
    rcases hc with hc | hc
    · rw [hp2] at hc
      simp only [ulogHdr] at hc
      omega
    · exact hc hm7)] at r
  have hdata : (takeHeader { u with expSeq := UInt16.ofNat (0 + 1) } p).2.mem.take (chunk.length - 16) = chunk.drop 16 := by
    simp only [takeHeader, ulogHdr, hp2]
    rw [List.take_append_of_le_length (by rw [List.length_take, List.length_drop]; omega),
      List.take_take, Nat.min_eq_left (by omega)]
    conv => rhs; rw [← hp3]
    rw [List.drop_take]
  have hkeep := append_keeps r
  refine ⟨?_, hkeep.1, hkeep.2⟩
  have r' : ((takeHeader { u with expSeq := UInt16.ofNat (0 + 1) } p).1.makeRoom
      (takeHeader { u with expSeq := UInt16.ofNat (0 + 1) } p).2.length.toNat).store env
      (takeHeader { u with expSeq := UInt16.ofNat (0 + 1) } p).2 = some (v, q) := r
  have hplen : (takeHeader { u with expSeq := UInt16.ofNat (0 + 1) } p).2.length.toNat = chunk.length - 16 := hl16
  generalize hth : (takeHeader { u with expSeq := UInt16.ofNat (0 + 1) } p).1 = u1 at r'
  generalize (takeHeader { u with expSeq := UInt16.ofNat (0 + 1) } p).2 = p1 at r' hdata hplen
  have f1 : u1.base.file = some [] := by rw [← hth]; exact s1
  have f2 : u1.part = hdr := by rw [← hth]; exact hm16
  have f3 : u1.pend = [] := by rw [← hth]; exact s5
  have f4 : u1.waitFirst = false := by rw [← hth]; exact s3
  have hmr := makeRoom_small (u := u1) (n := p1.length.toNat) (by rw [f3, hplen]; show 0 + _ ≤ 2048; omega)
  generalize (u1.makeRoom p1.length.toNat).idx = x at hmr
  rw [hmr] at r'
  have hb : beginOf { u1 with idx := x } p1 = 0 := by simp [beginOf, f4]
  rcases store_spec env _ v p1 q r' with ⟨h, _⟩ | ⟨h0, e⟩ | ⟨_, _, hr⟩
  · rw [f4] at h; cases h
  · rw [e]
    refine ⟨[], 0, [], f1, by simp [f2], by simp, by omega, hat, .inl ⟨rfl, ?_⟩⟩
    rw [hpiece, List.drop_of_length_le]
    · exact f3
    · rw [h0] at hplen
      have : (0 : UInt8).toNat = 0 := rfl
      omega
  · refine safe_flush hcut hr hcl rfl ⟨[], 0, [], f1, by simp [stored, f2], by simp, by omega, hat, .inl ⟨rfl, ?_⟩⟩
    have hch : chunkOf { u1 with idx := x } p1 = p1.mem.take p1.length.toNat := by simp [chunkOf, hb]
    rw [hpiece, ← hdata, ← hplen]
    show u1.pend ++ chunkOf { u1 with idx := x } p1 = _
    rw [hch, f3, List.nil_append]

end

end Verif
