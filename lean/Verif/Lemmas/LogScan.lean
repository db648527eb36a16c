/- The scanning code of the model accepts exactly the names the specification describes. -/
import Verif.Lemmas.LogName
import Verif.Spec.LogDir

namespace Verif

open Spec (value Digit Space Numbered NumText LogPattern Finished finishedLogs)

theorem decVal_value_aux (l : List Char) (a : Nat) :
    l.foldl (fun n c => 10 * n + (c.toNat - 48)) a = a * 10 ^ l.length + value l := by
  induction l generalizing a with
  | nil => simp [value]
  | cons c l ih =>
    simp only [List.foldl_cons, ih, value, List.length_cons, Nat.pow_succ, Nat.add_mul]
    rw [show 10 * a * 10 ^ l.length = a * (10 ^ l.length * 10) by
      rw [Nat.mul_comm (10 ^ l.length) 10, Nat.mul_comm 10 a, Nat.mul_assoc]]
    omega

theorem decVal_eq_value (l : List Char) : decVal l = value l := by
  have := decVal_value_aux l 0
  simpa [decVal] using this

theorem isDig_iff (c : Char) : isDig c = true ↔ Digit c := by
  simp only [isDig, Digit, Bool.and_eq_true, decide_eq_true_eq]
  exact Iff.rfl

theorem not_isDig_iff (c : Char) : isDig c = false ↔ ¬Digit c := by
  rw [← isDig_iff]
  cases isDig c <;> simp

theorem stops_iff (l : List Char) :
    StopsDigits l ↔ ∀ c, l.head? = some c → ¬Digit c := by
  unfold StopsDigits
  constructor <;> intro h c hc
  · exact (not_isDig_iff c).1 (h c hc)
  · exact (not_isDig_iff c).2 (h c hc)

theorem isSpace_iff (c : Char) : isSpaceC c = true ↔ Space c := by
  simp only [isSpaceC, Space, Bool.or_eq_true, beq_iff_eq, List.mem_cons, List.not_mem_nil,
    or_false]
  constructor
  · rintro (((((h | h) | h) | h) | h) | h) <;> simp [h]
  · rintro (h | h | h | h | h | h) <;> simp [h]

theorem convU_val (neg : Bool) (n : Nat) :
    (convU neg n).toNat = (if n < 2 ^ 64 then
      if neg then (2 ^ 64 - n) % 2 ^ 32 else n % 2 ^ 32 else 2 ^ 32 - 1) := by
  unfold convU
  split
  · split <;> simp
  · decide

theorem dropWhile_spaces (s : List Char) :
    ∃ ws, s = ws ++ s.dropWhile isSpaceC ∧ ∀ c ∈ ws, Space c := by
  refine ⟨s.takeWhile isSpaceC, by simp, fun c hc => (isSpace_iff c).1 ?_⟩
  induction s with
  | nil => simp at hc
  | cons d s ih =>
    rw [List.takeWhile_cons] at hc
    split at hc
    · simp only [List.mem_cons] at hc
      rcases hc with rfl | hc
      · assumption
      · exact ih hc
    · simp at hc

theorem takeWhile_all {p : Char → Bool} (l : List Char) : ∀ c ∈ l.takeWhile p, p c = true := by
  induction l with
  | nil => simp
  | cons d l ih =>
    rw [List.takeWhile_cons]
    split
    · intro c hc
      simp only [List.mem_cons] at hc
      rcases hc with rfl | hc
      · assumption
      · exact ih c hc
    · simp

theorem dropWhile_stops (l : List Char) : StopsDigits (l.dropWhile isDig) := by
  induction l with
  | nil => intro c hc; simp at hc
  | cons d l ih =>
    rw [List.dropWhile_cons]
    split
    · exact ih
    · rename_i h
      intro c hc
      simp at hc
      subst hc
      simpa using h

theorem takeSign_spec (l : List Char) :
    ∃ sg, l = sg ++ (takeSign l).2 ∧ (sg = [] ∨ sg = ['-'] ∨ sg = ['+']) ∧
      ((takeSign l).1 = true ↔ sg = ['-']) := by
  unfold takeSign
  split
  · exact ⟨['-'], by simp⟩
  · exact ⟨['+'], by simp⟩
  · exact ⟨[], by simp⟩

theorem numText_of_scan {s r : List Char} {u : UInt32} (h : scanU s = some (u, r)) :
    ∃ w, s = w ++ r ∧ NumText w u.toNat ∧ StopsDigits r := by
  unfold scanU at h
  simp only at h
  split at h
  · cases h
  · rename_i hne
    simp only [Option.some.injEq, Prod.mk.injEq] at h
    obtain ⟨ws, hws, hsp⟩ := dropWhile_spaces s
    obtain ⟨sg, hsg, hsign, hneg⟩ := takeSign_spec (s.dropWhile isSpaceC)
    generalize hs1 : takeSign (s.dropWhile isSpaceC) = sg2 at h hne hsg hneg
    refine ⟨ws ++ sg ++ sg2.2.takeWhile isDig, ?_, ?_, ?_⟩
    · rw [← h.2]
      have : sg2.2 = sg2.2.takeWhile isDig ++ sg2.2.dropWhile isDig := by simp
      rw [List.append_assoc, ← this, List.append_assoc, ← hsg, ← hws]
    · refine ⟨ws, sg, _, rfl, hsp, hsign, ?_, ?_, ?_⟩
      · intro hc
        rw [hc] at hne
        simp at hne
      · intro c hc
        exact (isDig_iff c).1 (takeWhile_all _ c hc)
      · rw [← h.1, convU_val, decVal_eq_value]
        cases hb : sg2.1 with
        | true =>
          rw [hneg.1 hb]
          simp
        | false =>
          have : ¬sg = ['-'] := fun hc => by rw [hneg.2 hc] at hb; cases hb
          simp [this]
    · rw [← h.2]
      exact dropWhile_stops _

theorem space_ne {c : Char} (h : Space c) : isDig c = false ∧ c ≠ '-' ∧ c ≠ '+' := by
  simp only [Space, List.mem_cons, List.not_mem_nil, or_false] at h
  rcases h with h | h | h | h | h | h <;> subst h <;> decide

theorem dropWhile_ws {ws rest : List Char} (hw : ∀ c ∈ ws, Space c)
    (hr : ∀ c, rest.head? = some c → isSpaceC c = false) :
    (ws ++ rest).dropWhile isSpaceC = rest := by
  induction ws with
  | nil =>
    cases rest with
    | nil => rfl
    | cons c l => simp [hr c rfl]
  | cons c ws ih =>
    have := (isSpace_iff c).2 (hw c (by simp))
    simp only [List.cons_append, List.dropWhile_cons, this, if_true]
    exact ih fun c hc => hw c (by simp [hc])

theorem scan_of_numText {w r : List Char} {v : Nat} (h : NumText w v) (hr : StopsDigits r) :
    scanU (w ++ r) = some (UInt32.ofNat v, r) ∧ v < 2 ^ 32 := by
  obtain ⟨ws, sg, ds, hw, hsp, hsg, hne, hd, hv⟩ := h
  have hd' : ∀ c ∈ ds, isDig c = true := fun c hc => (isDig_iff c).2 (hd c hc)
  obtain ⟨c, l, hcl⟩ := List.exists_cons_of_ne_nil hne
  have hc : isDig c = true := hd' c (by rw [hcl]; simp)
  have hlt : v < 2 ^ 32 := by
    rw [hv]
    split
    · split <;> omega
    · omega
  have hval : ∀ b : Bool, (b = true ↔ sg = ['-']) → convU b (decVal ds) = UInt32.ofNat v := by
    intro b hb
    apply UInt32.toNat_inj.1
    rw [convU_val, decVal_eq_value, hv]
    cases b with
    | true => rw [hb.1 rfl]; simp; split <;> simp <;> omega
    | false =>
      have : ¬sg = ['-'] := fun h => by cases hb.2 h
      simp [this]
      split <;> simp <;> omega
  refine ⟨?_, hlt⟩
  have hdrop : (w ++ r).dropWhile isSpaceC = sg ++ (ds ++ r) := by
    rw [hw, List.append_assoc, List.append_assoc]
    apply dropWhile_ws hsp
    intro x hx
    rcases hsg with h | h | h
    · rw [h, hcl] at hx
      simp at hx
      subst hx
      exact dig_not_space hc
    · rw [h] at hx; simp at hx; subst hx; decide
    · rw [h] at hx; simp at hx; subst hx; decide
  have ht := takeWhile_digits hd' hr
  have hsign : takeSign (sg ++ (ds ++ r)) = (decide (sg = ['-']), ds ++ r) := by
    rcases hsg with h | h | h
    · rw [h]
      simp only [List.nil_append]
      rw [takeSign_dig]
      · simp
      · intro x hx
        rw [hcl] at hx
        simp at hx
        subst hx
        exact hc
    · rw [h]; rfl
    · rw [h]; rfl
  unfold scanU
  simp only [hdrop, hsign, ht.1, ht.2]
  rw [hval _ (by simp)]
  cases ds with
  | nil => exact absurd rfl hne
  | cons _ _ => simp

theorem scanLit_some {c : Char} {s r : List Char} (h : scanLit c s = some r) : s = c :: r := by
  cases s with
  | nil => cases h
  | cons d l =>
    simp only [scanLit] at h
    split at h
    · rename_i hd
      cases h
      rw [hd]
    · cases h

theorem scanSeps_some {c : Char} {cs s r : List Char} (h : scanSeps (c :: cs) s = some r) :
    ∃ w v s2, s = c :: (w ++ s2) ∧ NumText w v ∧ StopsDigits s2 ∧ scanSeps cs s2 = some r := by
  simp only [scanSeps] at h
  split at h
  · cases h
  · rename_i s1 h1
    split at h
    · cases h
    · rename_i u s2 h2
      obtain ⟨w, hw, hn, hs⟩ := numText_of_scan h2
      refine ⟨w, _, s2, ?_, hn, hs, h⟩
      rw [scanLit_some h1, hw]

theorem pattern_of_scan {name : List Char} {i : UInt32} (h : scanLog name = some i) :
    LogPattern name i.toNat := by
  unfold scanLog at h
  split at h
  · cases h
  · rename_i j s hs
    obtain ⟨w1, e1, n1, -⟩ := numText_of_scan hs
    cases hq : scanSeps ['-', '-', '-', '_', '-', '-'] s with
    | none => rw [hq] at h; cases h
    | some x =>
      rw [hq] at h
      simp only [Option.map_some, Option.some.injEq] at h
      subst h
      obtain ⟨w2, v2, s2, e2, n2, -, h2⟩ := scanSeps_some hq
      obtain ⟨w3, v3, s3, e3, n3, -, h3⟩ := scanSeps_some h2
      obtain ⟨w4, v4, s4, e4, n4, -, h4⟩ := scanSeps_some h3
      obtain ⟨w5, v5, s5, e5, n5, -, h5⟩ := scanSeps_some h4
      obtain ⟨w6, v6, s6, e6, n6, -, h6⟩ := scanSeps_some h5
      obtain ⟨w7, v7, s7, e7, n7, z7, h7⟩ := scanSeps_some h6
      refine ⟨w1, w2, w3, w4, w5, w6, w7, s7, v2, v3, v4, v5, v6, v7, n1, n2, n3, n4, n5, n6, n7,
        (stops_iff _).1 z7, ?_⟩
      rw [e1, e2, e3, e4, e5, e6, e7]

theorem scan_of_pattern {name : List Char} {i : Nat} (h : LogPattern name i) :
    scanLog name = some (UInt32.ofNat i) ∧ i < 2 ^ 32 := by
  obtain ⟨w1, w2, w3, w4, w5, w6, w7, rest, v2, v3, v4, v5, v6, v7, n1, n2, n3, n4, n5, n6, n7,
    hr, rfl⟩ := h
  have hd : isDig '-' = false := by decide
  have hu : isDig '_' = false := by decide
  have h1 := scan_of_numText n1 (r := '-' :: (w2 ++ '-' :: (w3 ++ '-' :: (w4 ++ '_' :: (w5 ++
    '-' :: (w6 ++ '-' :: (w7 ++ rest))))))) (stops_cons _ hd)
  refine ⟨?_, h1.2⟩
  unfold scanLog
  rw [h1.1]
  simp only
  rw [scanSeps_cons (scan_of_numText n2 (stops_cons _ hd)).1,
    scanSeps_cons (scan_of_numText n3 (stops_cons _ hd)).1,
    scanSeps_cons (scan_of_numText n4 (stops_cons _ hu)).1,
    scanSeps_cons (scan_of_numText n5 (stops_cons _ hd)).1,
    scanSeps_cons (scan_of_numText n6 (stops_cons _ hd)).1,
    scanSeps_cons (scan_of_numText n7 ((stops_iff _).2 hr)).1]
  rfl

theorem candidate_iff (e : Entry) (i : Nat) : candidate e = some i ↔ Finished e i := by
  unfold candidate Finished
  constructor
  · intro h
    split at h
    · rename_i j hj
      split at h
      · rename_i hc
        simp only [Option.some.injEq] at h
        subst h
        simp only [Bool.and_eq_true, bne_iff_ne, ne_eq, Bool.not_eq_true'] at hc
        exact ⟨pattern_of_scan hj, hc.1.1, hc.1.2, hc.2⟩
      · cases h
    · cases h
  · rintro ⟨hp, hs, hk, hw⟩
    obtain ⟨h1, h2⟩ := scan_of_pattern hp
    rw [h1]
    simp only [hs, hw, Bool.true_and, Bool.not_false, Bool.and_true]
    rw [if_pos (by simp [hk])]
    have h2' : i < 4294967296 := h2
    simp [UInt32.toNat_ofNat', Nat.mod_eq_of_lt h2']

theorem finishedLogs_eq (d : List Entry) :
    finishedLogs d = d.filter fun e => (candidate e).isSome := by
  unfold finishedLogs
  congr 1
  funext e
  cases h : candidate e with
  | some i =>
    simp only [Option.isSome_some, decide_eq_true_eq]
    exact ⟨i, (candidate_iff e i).1 h⟩
  | none =>
    simp only [Option.isSome_none, decide_eq_false_iff_not]
    rintro ⟨i, hi⟩
    rw [(candidate_iff e i).2 hi] at h
    cases h

theorem finished_unique {e : Entry} {i j : Nat} (hi : Finished e i) (hj : Finished e j) :
    i = j := by
  have h1 := (candidate_iff e i).2 hi
  have h2 := (candidate_iff e j).2 hj
  rw [h1] at h2
  exact Option.some.inj h2

/-- The number at the start of a name, if it fits, is what the scanner reads. -/
theorem scanPrefix_numbered {name : List Char} {n : Nat} (h : Numbered name n) (hn : n < 2 ^ 32) :
    scanPrefix name = some (UInt32.ofNat n) := by
  obtain ⟨ds, rest, rfl, hne, hd, hr, rfl⟩ := h
  have := scanU_digits (fun c hc => (isDig_iff c).2 (hd c hc)) hne ((stops_iff _).2 hr)
  unfold scanPrefix
  rw [this, decVal_eq_value]
  have h64 : value ds < 2 ^ 64 := by omega
  simp only [Option.map_some, Option.some.injEq]
  unfold convU
  rw [if_pos h64]
  simp

theorem numbered_logName (i : UInt32) (t : Date) (ext : List Char) :
    Numbered (logName i t ext) i.toNat := by
  refine ⟨padded 5 i.toNat, logTail t ext, logName_eq i t ext, padded_ne_nil _ _, ?_, ?_, ?_⟩
  · intro c hc
    exact (isDig_iff c).1 (padded_digits _ _ c hc)
  · exact (stops_iff _).1 (stops_cons _ (by decide))
  · rw [← decVal_eq_value, decVal_padded]

end Verif
