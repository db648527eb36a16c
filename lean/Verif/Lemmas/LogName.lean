/- Printing and scanning of log file names. -/
import Verif.Model.LogDir

namespace Verif

theorem digC_toNat {n : Nat} (h : n < 10) : (digC n).toNat = 48 + n := by
  have : n = 0 ∨ n = 1 ∨ n = 2 ∨ n = 3 ∨ n = 4 ∨ n = 5 ∨ n = 6 ∨ n = 7 ∨ n = 8 ∨ n = 9 := by
    omega
  rcases this with h | h | h | h | h | h | h | h | h | h <;> subst h <;> decide

theorem digC_isDig {n : Nat} (h : n < 10) : isDig (digC n) = true := by
  unfold isDig
  rw [digC_toNat h]
  simp
  omega

theorem decVal_append (a : List Char) (c : Char) :
    decVal (a ++ [c]) = 10 * decVal a + (c.toNat - 48) := by
  simp [decVal, List.foldl_append]

theorem decVal_decimal (n : Nat) : decVal (decimal n) = n := by
  induction n using Nat.strongRecOn with
  | ind n ih =>
    rw [decimal]
    split
    · rename_i h
      simp [decVal, digC_toNat h]
    · rename_i h
      rw [decVal_append, ih (n / 10) (by omega), digC_toNat (by omega)]
      omega

theorem decimal_digits (n : Nat) : ∀ c ∈ decimal n, isDig c = true := by
  induction n using Nat.strongRecOn with
  | ind n ih =>
    intro c hc
    rw [decimal] at hc
    split at hc
    · rename_i h
      simp only [List.mem_singleton] at hc
      subst hc
      exact digC_isDig h
    · rename_i h
      simp only [List.mem_append, List.mem_singleton] at hc
      rcases hc with hc | hc
      · exact ih _ (by omega) c hc
      · subst hc
        exact digC_isDig (by omega)

theorem decimal_ne_nil (n : Nat) : decimal n ≠ [] := by
  rw [decimal]
  split <;> simp

theorem decVal_zeros (k : Nat) (l : List Char) : decVal (List.replicate k '0' ++ l) = decVal l := by
  induction k with
  | zero => simp
  | succ k ih =>
    rw [List.replicate_succ, List.cons_append]
    have : decVal ('0' :: (List.replicate k '0' ++ l)) = decVal (List.replicate k '0' ++ l) := by
      simp [decVal]
    rw [this, ih]

theorem decVal_padded (w n : Nat) : decVal (padded w n) = n := by
  rw [padded, decVal_zeros, decVal_decimal]

theorem padded_digits (w n : Nat) : ∀ c ∈ padded w n, isDig c = true := by
  intro c hc
  simp only [padded, List.mem_append] at hc
  rcases hc with hc | hc
  · rw [List.mem_replicate] at hc
    rw [hc.2]
    decide
  · exact decimal_digits n c hc

theorem padded_ne_nil (w n : Nat) : padded w n ≠ [] := by
  simp [padded, decimal_ne_nil]

theorem dig_not_space {c : Char} (h : isDig c = true) : isSpaceC c = false := by
  cases hs : isSpaceC c with
  | false => rfl
  | true =>
    simp only [isSpaceC, Bool.or_eq_true, beq_iff_eq] at hs
    rcases hs with ((((hs | hs) | hs) | hs) | hs) | hs <;> subst hs <;> revert h <;> decide

theorem dig_ne_sign {c : Char} (h : isDig c = true) : c ≠ '-' ∧ c ≠ '+' := by
  constructor <;> intro hs <;> subst hs <;> revert h <;> decide

theorem takeSign_dig {l : List Char} (h : ∀ c, l.head? = some c → isDig c = true) :
    takeSign l = (false, l) := by
  unfold takeSign
  split
  · exact absurd rfl (dig_ne_sign (h _ rfl)).1
  · exact absurd rfl (dig_ne_sign (h _ rfl)).2
  · rfl

/-- No digit at the front. -/
def StopsDigits (l : List Char) : Prop := ∀ c, l.head? = some c → isDig c = false

theorem takeWhile_digits {ds rest : List Char} (hd : ∀ c ∈ ds, isDig c = true)
    (hr : StopsDigits rest) :
    (ds ++ rest).takeWhile isDig = ds ∧ (ds ++ rest).dropWhile isDig = rest := by
  induction ds with
  | nil =>
    cases rest with
    | nil => simp
    | cons c l =>
      have := hr c rfl
      simp [this]
  | cons c ds ih =>
    have h1 := hd c (by simp)
    have h2 := ih (fun c hc => hd c (by simp [hc]))
    simp [h1, h2]

theorem scanU_digits {ds rest : List Char} (hd : ∀ c ∈ ds, isDig c = true) (hne : ds ≠ [])
    (hr : StopsDigits rest) : scanU (ds ++ rest) = some (convU false (decVal ds), rest) := by
  obtain ⟨c, l, rfl⟩ := List.exists_cons_of_ne_nil hne
  have hc := hd c (by simp)
  have h1 : ((c :: l) ++ rest).dropWhile isSpaceC = (c :: l) ++ rest := by
    simp [dig_not_space hc]
  have h2 := takeSign_dig (l := (c :: l) ++ rest) (by
    intro x hx
    simp at hx
    subst hx
    exact hc)
  have h3 := takeWhile_digits hd hr
  unfold scanU
  simp only [h1, h2, h3.1, h3.2]
  simp

theorem scanU_neg {ds rest : List Char} (hd : ∀ c ∈ ds, isDig c = true) (hne : ds ≠ [])
    (hr : StopsDigits rest) :
    scanU ('-' :: (ds ++ rest)) = some (convU true (decVal ds), rest) := by
  have h1 : ('-' :: (ds ++ rest)).dropWhile isSpaceC = '-' :: (ds ++ rest) := by
    have : isSpaceC '-' = false := by decide
    simp [this]
  have h3 := takeWhile_digits hd hr
  unfold scanU
  simp only [h1, takeSign, h3.1, h3.2]
  cases ds with
  | nil => exact absurd rfl hne
  | cons c l => simp

theorem scanU_padded (w n : Nat) {rest : List Char} (hr : StopsDigits rest) :
    scanU (padded w n ++ rest) = some (convU false n, rest) := by
  rw [scanU_digits (padded_digits w n) (padded_ne_nil w n) hr, decVal_padded]

theorem scanU_decimalI (i : Int) {rest : List Char} (hr : StopsDigits rest) :
    ∃ u, scanU (decimalI i ++ rest) = some (u, rest) := by
  unfold decimalI
  split
  · exact ⟨_, scanU_neg (decimal_digits _) (decimal_ne_nil _) hr⟩
  · exact ⟨_, scanU_digits (decimal_digits _) (decimal_ne_nil _) hr⟩

theorem stops_cons {c : Char} (l : List Char) (h : isDig c = false) : StopsDigits (c :: l) := by
  intro d hd
  simp at hd
  subst hd
  exact h

theorem scanSeps_cons {c : Char} {cs s1 s2 : List Char} {u : UInt32}
    (h : scanU s1 = some (u, s2)) : scanSeps (c :: cs) (c :: s1) = scanSeps cs s2 := by
  simp [scanSeps, scanLit, h]

theorem convU_toNat (i : UInt32) : convU false i.toNat = i := by
  have h := i.toNat_lt
  unfold convU
  rw [if_pos (by omega)]
  simp

/-- The part of a log name after its number. -/
def logTail (t : Date) (ext : List Char) : List Char :=
  '-' :: (decimalI t.year ++ '-' :: (padded 2 t.mon ++ '-' :: (padded 2 t.day
    ++ '_' :: (padded 2 t.hour ++ '-' :: (padded 2 t.min ++ '-' :: (padded 2 t.sec
    ++ '.' :: ext))))))

theorem logName_eq (i : UInt32) (t : Date) (ext : List Char) :
    logName i t ext = padded 5 i.toNat ++ logTail t ext := by
  simp [logName, logTail, List.append_assoc]

theorem scanU_logName (i : UInt32) (t : Date) (ext : List Char) :
    scanU (logName i t ext) = some (i, logTail t ext) := by
  have hs : StopsDigits (logTail t ext) := stops_cons _ (by decide)
  rw [logName_eq, scanU_padded 5 i.toNat hs, convU_toNat]

theorem scanPrefix_logName (i : UInt32) (t : Date) (ext : List Char) :
    scanPrefix (logName i t ext) = some i := by
  simp [scanPrefix, scanU_logName]

theorem scanLog_logName (i : UInt32) (t : Date) (ext : List Char) :
    scanLog (logName i t ext) = some i := by
  unfold scanLog
  rw [scanU_logName]
  have hy := scanU_decimalI t.year (rest := '-' :: (padded 2 t.mon ++ '-' :: (padded 2 t.day
    ++ '_' :: (padded 2 t.hour ++ '-' :: (padded 2 t.min ++ '-' :: (padded 2 t.sec
    ++ '.' :: ext)))))) (stops_cons _ (by decide))
  obtain ⟨u, hu⟩ := hy
  simp only [logTail]
  rw [scanSeps_cons hu, scanSeps_cons (scanU_padded 2 t.mon (stops_cons _ (by decide))),
    scanSeps_cons (scanU_padded 2 t.day (stops_cons _ (by decide))),
    scanSeps_cons (scanU_padded 2 t.hour (stops_cons _ (by decide))),
    scanSeps_cons (scanU_padded 2 t.min (stops_cons _ (by decide))),
    scanSeps_cons (scanU_padded 2 t.sec (stops_cons _ (by decide)))]
  rfl

theorem scanLog_prefix {name : List Char} {i : UInt32} (h : scanLog name = some i) :
    scanPrefix name = some i := by
  unfold scanLog at h
  unfold scanPrefix
  split at h
  · cases h
  · rename_i i' s hs
    rw [hs]
    cases hq : scanSeps ['-', '-', '-', '_', '-', '-'] s with
    | none => rw [hq] at h; cases h
    | some x =>
      rw [hq] at h
      simp only [Option.map_some, Option.some.injEq] at h ⊢
      exact h

end Verif
