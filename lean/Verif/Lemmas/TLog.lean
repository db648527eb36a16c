import Verif.Spec.TLog
import Verif.Lemmas.RxRun

namespace Verif

open Verif.Spec

theorem be64_length (t : UInt64) : (be64 t).length = 8 := rfl

theorem shift_byte (t : UInt64) (k : Nat) (h : k < 64) :
    ((t >>> UInt64.ofNat k).toUInt8).toNat = t.toNat / 2 ^ k % 256 := by
  rw [UInt64.toNat_toUInt8, UInt64.toNat_shiftRight, Nat.shiftRight_eq_div_pow, UInt64.toNat_ofNat']
  have : k % 2 ^ 64 % 64 = k := by omega
  rw [this]

theorem beVal_be64 (t : UInt64) : beVal (be64 t) = t.toNat := by
  have h56 := shift_byte t 56 (by decide)
  have h48 := shift_byte t 48 (by decide)
  have h40 := shift_byte t 40 (by decide)
  have h32 := shift_byte t 32 (by decide)
  have h24 := shift_byte t 24 (by decide)
  have h16 := shift_byte t 16 (by decide)
  have h8 := shift_byte t 8 (by decide)
  have h0 : (t.toUInt8).toNat = t.toNat % 256 := UInt64.toNat_toUInt8 t
  have hlt := t.toNat_lt
  have e56 : UInt64.ofNat 56 = 56 := rfl
  have e48 : UInt64.ofNat 48 = 48 := rfl
  have e40 : UInt64.ofNat 40 = 40 := rfl
  have e32 : UInt64.ofNat 32 = 32 := rfl
  have e24 : UInt64.ofNat 24 = 24 := rfl
  have e16 : UInt64.ofNat 16 = 16 := rfl
  have e8 : UInt64.ofNat 8 = 8 := rfl
  rw [e56] at h56; rw [e48] at h48; rw [e40] at h40; rw [e32] at h32; rw [e24] at h24; rw [e16] at h16; rw [e8] at h8
  simp only [beVal, be64, List.foldl_cons, List.foldl_nil, h56, h48, h40, h32, h24, h16, h8, h0]
  omega

theorem Spec.TlogFile.snoc {rs : List TRec} {c : List UInt8} (h : TlogFile rs c) (ev : TLogEv) :
    TlogFile (rs ++ [recOf ev]) (c ++ be64 ev.now ++ ev.msg.data) := by
  induction h with
  | nil =>
    have := TlogFile.cons (r := recOf ev) (be64_length ev.now) (beVal_be64 ev.now) TlogFile.nil
    rw [List.append_nil] at this
    exact this
  | @cons r rs ts rest h1 h2 _ ih =>
    have := TlogFile.cons (r := r) h1 h2 ih
    simpa [List.append_assoc] using this

/-- A reader recovers exactly the records. -/
theorem readRecords_file {rs : List TRec} {c : List UInt8} (h : TlogFile rs c)
    (hf : ∀ r ∈ rs, OneFrame r.frame) (fuel : Nat) (hfuel : rs.length ≤ fuel) :
    readRecords fuel c = some rs := by
  induction h generalizing fuel with
  | nil => cases fuel <;> rfl
  | @cons r rs ts rest h1 h2 _ ih =>
    cases fuel with
    | zero => cases hfuel
    | succ fuel =>
      have hr : OneFrame r.frame := hf r (List.mem_cons_self ..)
      have ih := ih (fun r h => hf r (List.mem_cons_of_mem _ h)) fuel (by simp at hfuel; exact hfuel)
      have hne : ts ++ r.frame ++ rest ≠ [] := by
        intro h0
        have := congrArg List.length h0
        rw [List.length_append, List.length_append, h1, List.length_nil] at this
        omega
      have hd : (ts ++ r.frame ++ rest).drop 8 = r.frame ++ rest := by
        rw [List.append_assoc, ← h1, List.drop_left]
      have ht : (ts ++ r.frame ++ rest).take 8 = ts := by
        rw [List.append_assoc, ← h1, List.take_left]
      have hrec : readRecord (ts ++ r.frame ++ rest) = some (r, rest) := by
        unfold readRecord
        rw [if_neg (by simp; omega), hd, frameLen_append hr rest, ht]
        simp only
        rw [if_pos (by simp), List.take_left, List.drop_left, h2]
      rw [readRecords.eq_def]
      cases hl : ts ++ r.frame ++ rest with
      | nil => exact absurd hl hne
      | cons b bs =>
        rw [hl] at hrec
        simp only [hrec, ih]
        rfl

theorem Spec.TlogFile.length_le {rs : List TRec} {c : List UInt8} (h : TlogFile rs c) : rs.length ≤ c.length := by
  induction h with
  | nil => exact Nat.le_refl _
  | cons h1 _ _ ih =>
    simp only [List.length_cons, List.length_append]
    omega

/-- Two writes that are carried out append both. -/
theorem tlog_writes {env : LogEnv} {n : Nat} (hw : WritesUpTo n env) (b : LogBase) (c x y : List UInt8)
    (hf : b.file = some c) (hx : x.length ≤ n) (hy : y.length ≤ n) :
    (((b.write env x).1.write env y).1).file = some (c ++ x ++ y) ∧
      (((b.write env x).1.write env y).1).done = b.done ∧ (((b.write env x).1.write env y).1).mode = b.mode ∧
      (((b.write env x).1.write env y).1).target = b.target ∧ (((b.write env x).1.write env y).1).out = b.out ∧
      (((b.write env x).1.write env y).1).nstart = b.nstart := by
  obtain ⟨k, hk, hk'⟩ := hw b.nwrite
  obtain ⟨k2, hk2, hk2'⟩ := hw (b.nwrite + 1)
  have h1 : b.write env x = ({ b with file := some (c ++ x), nwrite := b.nwrite + 1 }, .wrote (min k x.length)) := by
    unfold LogBase.write
    rw [hf]
    simp only [hk]
    rw [List.take_of_length_le (by omega)]
  rw [h1]
  unfold LogBase.write
  simp only [hk2]
  rw [List.take_of_length_le (l := y) (by omega)]
  simp

theorem tlog_nowrites {env : LogEnv} (b : LogBase) (x y : List UInt8) (hf : b.file = none) :
    ((b.write env x).1.write env y).1 = b := by
  have h1 : ∀ x, b.write env x = (b, .err) := by
    intro x
    unfold LogBase.write
    rw [hf]
  rw [h1, h1]

/-- The files are those of the records `dn` and `op`. -/
structure TlogHist (b : LogBase) (evs : List TLogEv) (dn : List (List TRec)) (op : List TRec) : Prop where
  len : b.done.length = dn.length
  done : ∀ (i : Nat) c rs, b.done[i]? = some c → dn[i]? = some rs → TlogFile rs c
  file : b.file = none ∧ op = [] ∨ ∃ c, b.file = some c ∧ TlogFile op c
  from_ : (dn.flatten ++ op).Sublist (evs.map recOf)

theorem TlogHist.same {b b' : LogBase} {evs dn op} (h : TlogHist b evs dn op) (h1 : b'.done = b.done)
    (h2 : b'.file = b.file) : TlogHist b' evs dn op :=
  ⟨by rw [h1]; exact h.len, by rw [h1]; exact h.done, by rw [h2]; exact h.file, h.from_⟩

theorem TlogHist.stop {b : LogBase} {evs dn op} (h : TlogHist b evs dn op) :
    ∃ dn' op', TlogHist (tlogStop b) evs dn' op' := by
  unfold tlogStop
  rcases h.file with ⟨hf, ho⟩ | ⟨c, hf, hc⟩
  · rw [if_pos hf]
    exact ⟨dn, op, h⟩
  · rw [if_neg (by rw [hf]; simp)]
    have hd : b.stop.done = b.done ++ [c] := by
      show (match b.file with | some c => b.done ++ [c] | none => b.done) = _
      rw [hf]
    refine ⟨dn ++ [op], [], ?_, ?_, .inl ⟨rfl, rfl⟩, ?_⟩
    · rw [hd, List.length_append, List.length_append, h.len]
      rfl
    · intro i x rs hx hr
      rw [hd] at hx
      rcases Nat.lt_trichotomy i b.done.length with hi | hi | hi
      · rw [List.getElem?_append_left hi] at hx
        rw [List.getElem?_append_left (by rw [← h.len]; exact hi)] at hr
        exact h.done i x rs hx hr
      · rw [List.getElem?_append_right (by omega), hi, Nat.sub_self] at hx
        rw [List.getElem?_append_right (by rw [← h.len]; omega), hi, h.len, Nat.sub_self] at hr
        cases hx
        cases hr
        exact hc
      · rw [List.getElem?_append_right (by omega), List.getElem?_eq_none (by simp; omega)] at hx
        cases hx
    · simpa using h.from_

theorem TlogHist.auto {env : LogEnv} {b : LogBase} {evs dn op} (m : Msg) (h : TlogHist b evs dn op) :
    ∃ dn' op', TlogHist (tlogAuto env b m) evs dn' op' := by
  unfold tlogAuto
  cases b.autoAct env m with
  | nothing => exact ⟨dn, op, h⟩
  | start =>
    refine ⟨dn, op, ?_⟩
    unfold LogBase.start
    rcases h.file with ⟨hf, ho⟩ | ⟨c, hf, hc⟩
    · rw [hf]
      simp only [Option.isSome_none, Bool.false_eq_true, if_false]
      cases env.startOk b.nstart with
      | true => exact ⟨h.len, h.done, .inr ⟨[], rfl, ho ▸ .nil⟩, h.from_⟩
      | false => exact ⟨h.len, h.done, .inl ⟨rfl, ho⟩, h.from_⟩
    · rw [hf]
      exact h.same rfl rfl
  | stop => exact h.stop

theorem TlogHist.learn {b : LogBase} {evs dn op} (m : Msg) (h : TlogHist b evs dn op) :
    TlogHist (b.learnTarget m) evs dn op := by
  unfold LogBase.learnTarget
  split
  · exact h.same rfl rfl
  · exact h

theorem TlogHist.step {env : LogEnv} {n : Nat} {b : LogBase} {evs dn op} (hw : WritesUpTo n env) (hn : 8 ≤ n)
    (ev : TLogEv) (hev : ev.msg.data.length ≤ n) (h : TlogHist b evs dn op) :
    ∃ dn' op', TlogHist (tlogWriteMsg env b ev.now ev.msg) (evs ++ [ev]) dn' op' := by
  obtain ⟨dn', op', h1⟩ := (h.learn ev.msg).auto (env := env) ev.msg
  unfold tlogWriteMsg
  have hmap : (evs ++ [ev]).map recOf = evs.map recOf ++ [recOf ev] := by simp
  rcases h1.file with ⟨hf, ho⟩ | ⟨c, hf, hc⟩
  · simp only []
    rw [tlog_nowrites _ _ _ hf]
    exact ⟨dn', op', h1.len, h1.done, h1.file, hmap ▸ h1.from_.trans (List.sublist_append_left ..)⟩
  · obtain ⟨w1, w2, _⟩ := tlog_writes hw _ c (be64 ev.now) ev.msg.data hf (by rw [be64_length]; exact hn) hev
    refine ⟨dn', op' ++ [recOf ev], ?_⟩
    simp only []
    refine ⟨by rw [w2]; exact h1.len, by rw [w2]; exact h1.done, .inr ⟨_, w1, hc.snoc ev⟩, ?_⟩
    rw [hmap, ← List.append_assoc]
    exact h1.from_.append (List.Sublist.refl _)

theorem TlogHist.run {env : LogEnv} {n : Nat} {b : LogBase} {evs dn op} (hw : WritesUpTo n env) (hn : 8 ≤ n)
    (es : List TLogEv) (hes : ∀ ev ∈ es, ev.msg.data.length ≤ n) (h : TlogHist b evs dn op) :
    ∃ dn' op', TlogHist (tlogRun env b es) (evs ++ es) dn' op' := by
  induction es generalizing b evs dn op with
  | nil => exact ⟨dn, op, by rw [List.append_nil]; exact h⟩
  | cons ev es ih =>
    obtain ⟨dn', op', h1⟩ := h.step hw hn ev (hes ev (List.mem_cons_self ..))
    have := ih (fun e he => hes e (List.mem_cons_of_mem _ he)) h1
    rw [List.append_assoc] at this
    exact this

end Verif
