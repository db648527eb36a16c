import Verif.Props.BinLog

/-
C130: what an autopilot was told is stored is stored, in the file of that log, for good.
-/

namespace Verif

open Spec

/-- All log files of the endpoint in the order of their creation; the last one is open if one is open. -/
def Spec.binFiles (l : BinLog) : List (List UInt8) := l.base.done ++ l.base.file.toList

/-- The file contains the data `d` as block `n`. -/
def Spec.HasBlock (c : List UInt8) (n : Nat) (d : List UInt8) : Prop := (c.drop (200 * n)).take 200 = d

/-- The blocks that arrive while file `i` is in use are blocks of one log: `D i n` is the data of block `n`, whichever of its copies
arrives, in whatever order. -/
def Spec.OneStream (env : LogEnv) (l : BinLog) (evs : List ULogEv) (D : Nat → Nat → List UInt8) : Prop :=
  ∀ pre m post, evs = pre ++ .msg m :: post → m.msgId = 184 →
    BlockMsg m ∧ (blockIn m).seqno.toNat < blockLimit ∧
      (blockIn m).data = D (l.run env pre).base.done.length (blockIn m).seqno.toNat

/-- While file `i` was in use, an acknowledgement for block `n` was sent. -/
def Spec.Acked (env : LogEnv) (l : BinLog) (evs : List ULogEv) (i n : Nat) : Prop :=
  ∃ pre ev post new, evs = pre ++ ev :: post ∧ (l.run env pre).base.done.length = i ∧
    acks ((l.run env pre).step env ev).base.out = acks (l.run env pre).base.out ++ new ∧ ∃ k ∈ new, k.toNat = n

/-- File `i` contains block `n` of its log. -/
def HasStored (D : Nat → Nat → List UInt8) (l : BinLog) (i n : Nat) : Prop :=
  ∃ c, (binFiles l)[i]? = some c ∧ HasBlock c n (D i n)

/-- Nothing stored is lost. -/
def Keeps (D : Nat → Nat → List UInt8) (l l' : BinLog) : Prop :=
  ∀ i n, (D i n).length = 200 → HasStored D l i n → HasStored D l' i n

theorem Keeps.trans {D : Nat → Nat → List UInt8} {a b c : BinLog} (h1 : Keeps D a b) (h2 : Keeps D b c) : Keeps D a c :=
  fun i n hd h => h2 i n hd (h1 i n hd h)

/-- Files that are only added do not lose anything. -/
theorem keeps_append {D : Nat → Nat → List UInt8} {l l' : BinLog} (x : List (List UInt8))
    (h : binFiles l' = binFiles l ++ x) : Keeps D l l' := by
  intro i n _ ⟨c, hc, hb⟩
  refine ⟨c, ?_, hb⟩
  rw [h, List.getElem?_append_left]
  · exact hc
  · rcases Nat.lt_or_ge i (binFiles l).length with h | h
    · exact h
    · rw [List.getElem?_eq_none h] at hc; cases hc

theorem binStop_files (l : BinLog) : binFiles l.stop = binFiles l ∧ acks l.stop.base.out = acks l.base.out := by
  unfold BinLog.stop
  cases hf : l.base.file with
  | none => simp
  | some c =>
    rw [if_neg (by simp)]
    refine ⟨?_, ?_⟩
    · simp [binFiles, LogBase.stop, LogBase.send, hf]
    · show acks (l.base.out ++ [LogOut.blockStop]) = _
      rw [acks_append]; simp [acks]

theorem binStart_files (env : LogEnv) (l : BinLog) :
    ∃ x, binFiles (l.start env).1 = binFiles l ++ x ∧ acks (l.start env).1.base.out = acks l.base.out ∧
      (l.start env).1.base.done = l.base.done := by
  unfold BinLog.start LogBase.start
  cases hf : l.base.file with
  | some c => exact ⟨[], by simp [binFiles], rfl, rfl⟩
  | none =>
    simp only [Option.isSome_none, Bool.false_eq_true, if_false]
    cases env.startOk l.base.nstart with
    | true => exact ⟨[[]], by simp [binFiles, hf], rfl, rfl⟩
    | false => exact ⟨[], by simp [binFiles, hf], rfl, rfl⟩

theorem binRestart_files (env : LogEnv) (l : BinLog) :
    ∃ x, binFiles (l.restart env) = binFiles l ++ x ∧ acks (l.restart env).base.out = acks l.base.out := by
  obtain ⟨x, h1, h2, -⟩ := binStart_files env l.stop
  obtain ⟨h3, h4⟩ := binStop_files l
  exact ⟨x, by rw [BinLog.restart, h1, h3], by rw [BinLog.restart, h2, h4]⟩

/-- Writing part of a block leaves the other blocks, and this one if the data are the same. -/
theorem writeAt_keeps (c : List UInt8) (n m k : Nat) (d e : List UInt8) (hd : d.length = 200) (he : e.length = 200)
    (hsame : m = n → e = d) (h : HasBlock c n d) : HasBlock (writeAt c (200 * m) (e.take k)) n d := by
  unfold HasBlock at h ⊢
  by_cases h0 : e.take k = []
  · unfold writeAt; rw [if_pos h0]; exact h
  have hlen : (e.take k).length ≤ 200 := by rw [List.length_take]; omega
  have hget : ∀ j, j < 200 → c[200 * n + j]? = d[j]? := by
    intro j hj
    rw [← h, List.getElem?_take, if_pos hj, List.getElem?_drop]
  apply List.ext_getElem?
  intro j
  rw [List.getElem?_take]
  by_cases hj : j < 200
  · rw [if_pos hj, List.getElem?_drop, writeAt_get _ _ _ _ h0]
    have hjc := hget j hj
    have hlt : 200 * n + j < c.length := by
      rcases Nat.lt_or_ge (200 * n + j) c.length with h | h
      · exact h
      · rw [List.getElem?_eq_none h, List.getElem?_eq_getElem (by omega)] at hjc; cases hjc
    by_cases h1 : 200 * n + j < 200 * m
    · rw [if_pos h1, if_pos hlt]; exact hjc
    · rw [if_neg h1]
      by_cases h2 : 200 * n + j < 200 * m + (e.take k).length
      · rw [if_pos h2]
        have hmn : m = n := by omega
        have hed := hsame hmn
        subst hmn
        rw [show 200 * m + j - 200 * m = j by omega, List.getElem?_take, if_pos (by rw [List.length_take] at h2; omega), hed]
      · rw [if_neg h2]; exact hjc
  · rw [if_neg hj, List.getElem?_eq_none (by omega)]

/-- A complete write stores the block. -/
theorem writeAt_stores (c : List UInt8) (n k : Nat) (d : List UInt8) (hd : d.length = 200) (hk : 200 ≤ k) :
    HasBlock (writeAt c (200 * n) (d.take k)) n d := by
  unfold HasBlock
  rw [show d.take k = d from List.take_of_length_le (by omega)]
  have hne : d ≠ [] := by intro h0; rw [h0] at hd; cases hd
  apply List.ext_getElem?
  intro j
  rw [List.getElem?_take]
  by_cases hj : j < 200
  · rw [if_pos hj, List.getElem?_drop, writeAt_get _ _ _ _ hne, if_neg (by omega), if_pos (by omega)]
    congr 1; omega
  · rw [if_neg hj, List.getElem?_eq_none (by omega)]

/-- What a step does: nothing stored is lost, and what it acknowledges is stored. -/
structure GoodStep (D : Nat → Nat → List UInt8) (l l' : BinLog) : Prop where
  keeps : Keeps D l l'
  acked : ∃ new, acks l'.base.out = acks l.base.out ++ new ∧ ∀ k ∈ new, HasStored D l' l.base.done.length k.toNat

theorem GoodStep.quiet {D : Nat → Nat → List UInt8} {l l' : BinLog} (x : List (List UInt8))
    (h : binFiles l' = binFiles l ++ x) (ha : acks l'.base.out = acks l.base.out) : GoodStep D l l' :=
  ⟨keeps_append x h, [], by rw [ha, List.append_nil], by intro k hk; cases hk⟩

/-- A step that follows one without acknowledgements and without a file being closed. -/
theorem GoodStep.after {D : Nat → Nat → List UInt8} {a b c : BinLog} (x : List (List UInt8))
    (h : binFiles b = binFiles a ++ x) (ha : acks b.base.out = acks a.base.out) (hd : b.base.done = a.base.done)
    (h2 : GoodStep D b c) : GoodStep D a c := by
  refine ⟨(keeps_append x h).trans h2.keeps, ?_⟩
  obtain ⟨new, h3, h4⟩ := h2.acked
  exact ⟨new, by rw [h3, ha], by rw [← hd]; exact h4⟩

/-- Counters and timers do not matter. -/
theorem GoodStep.before {D : Nat → Nat → List UInt8} {a b c : BinLog} (h : GoodStep D a b)
    (h1 : binFiles c = binFiles b) (h2 : c.base.out = b.base.out) : GoodStep D a c := by
  obtain ⟨new, h3, h4⟩ := h.acked
  refine ⟨h.keeps.trans (keeps_append [] (by rw [h1, List.append_nil])), new, by rw [h2, h3], fun k hk => ?_⟩
  obtain ⟨f, h5, h6⟩ := h4 k hk
  exact ⟨f, by rw [h1]; exact h5, h6⟩

theorem process_good {env : LogEnv} {l : BinLog} {p : Block} {D : Nat → Nat → List UInt8} (hlen : p.data.length = 200)
    (hlim : p.seqno.toNat < blockLimit) (hd : p.data = D l.base.done.length p.seqno.toNat) :
    GoodStep D l (l.process env p) := by
  unfold BinLog.process
  cases hf : l.base.file with
  | none =>
    obtain ⟨x, h1, h2⟩ := binRestart_files env l
    exact .quiet x h1 h2
  | some c =>
    simp only
    cases hw : env.wr l.base.nwrite with
    | again => exact .quiet [] (by simp [binFiles, hf]) rfl
    | err =>
      simp only
      obtain ⟨x, h1, h2⟩ := binRestart_files env { l with base := { l.base with nwrite := l.base.nwrite + 1 } }
      exact .quiet x (h1.trans (by simp [binFiles, hf])) h2
    | n k =>
      simp only
      generalize hl' : ({ l with base := { l.base with
        file := some (writeAt c (blockOffset p.seqno) (p.data.take k)), nwrite := l.base.nwrite + 1 } } : BinLog) = l'
      have hfiles : binFiles l' = l.base.done ++ [writeAt c (200 * p.seqno.toNat) (p.data.take k)] := by
        rw [← hl', blockOffset_eq hlim]; simp [binFiles]
      have hold : binFiles l = l.base.done ++ [c] := by simp [binFiles, hf]
      have hout : l'.base.out = l.base.out := by rw [← hl']
      have hkeeps : Keeps D l l' := by
        intro i n hD ⟨f, hf1, hb⟩
        rw [hold] at hf1
        rcases Nat.lt_or_ge i l.base.done.length with hi | hi
        · refine ⟨f, ?_, hb⟩
          rw [hfiles, List.getElem?_append_left hi]
          rw [List.getElem?_append_left hi] at hf1; exact hf1
        · rw [List.getElem?_append_right hi] at hf1
          have hi0 : i = l.base.done.length := by
            rcases Nat.lt_or_ge l.base.done.length i with h | h
            · rw [List.getElem?_eq_none (by simp; omega)] at hf1; cases hf1
            · omega
          subst hi0
          simp only [Nat.sub_self, List.getElem?_cons_zero, Option.some.injEq] at hf1
          subst hf1
          refine ⟨writeAt c (200 * p.seqno.toNat) (p.data.take k), by rw [hfiles, List.getElem?_append_right (by omega)]; simp, ?_⟩
          exact writeAt_keeps c n p.seqno.toNat k _ p.data hD hlen (fun h => by rw [hd, h]) hb
      by_cases hk : min k p.data.length = blockLen
      · rw [if_pos hk]
        have hk200 : 200 ≤ k := by rw [hlen] at hk; unfold blockLen at hk; omega
        obtain ⟨s1, s2, s3⟩ := sendAck_base l' p.seqno
        have hfiles' : binFiles (l'.sendAck p.seqno) = binFiles l' := by simp [binFiles, s1, s2]
        refine ⟨hkeeps.trans (keeps_append [] (by rw [hfiles', List.append_nil])), [p.seqno], by rw [s3, hout], ?_⟩
        intro q hq
        rw [List.mem_singleton.1 hq]
        refine ⟨writeAt c (200 * p.seqno.toNat) (p.data.take k), ?_, ?_⟩
        · rw [hfiles', hfiles, List.getElem?_append_right (by omega)]; simp
        · rw [← hd]; exact writeAt_stores c _ k _ hlen hk200
      · rw [if_neg hk]
        exact ⟨hkeeps, [], by rw [hout, List.append_nil], by intro q hq; cases hq⟩

theorem takeBlock_good {env : LogEnv} {l : BinLog} {p : Block} {D : Nat → Nat → List UInt8} (hlen : p.data.length = 200)
    (hlim : p.seqno.toNat < blockLimit) (hd : p.data = D l.base.done.length p.seqno.toNat) :
    GoodStep D l (l.takeBlock env p) := by
  unfold BinLog.takeBlock
  split
  · split
    · have h := process_good (env := env)
        (l := { l with base := { l.base with startTimer := false, aliveTimer := env.aliveOk } }) hlen hlim hd
      have h' : GoodStep D l (BinLog.process env
          { l with base := { l.base with startTimer := false, aliveTimer := env.aliveOk } } p) :=
        GoodStep.after (b := { l with base := { l.base with startTimer := false, aliveTimer := env.aliveOk } }) []
          (by simp [binFiles]) rfl rfl h
      exact h'.before rfl rfl
    · refine .quiet [] (by simp [binFiles, LogBase.send]) ?_
      show acks (l.base.out ++ [LogOut.blockStop]) = _
      rw [acks_append]; simp [acks]
  · exact (process_good hlen hlim hd).before rfl rfl

theorem auto_good (env : LogEnv) (l : BinLog) (m : Msg) :
    ∃ x, binFiles (l.auto env m) = binFiles l ++ x ∧ acks (l.auto env m).base.out = acks l.base.out ∧
      (m.msgId ≠ 0 → (l.auto env m).base.done = l.base.done) := by
  unfold BinLog.auto
  cases ha : l.base.autoAct env m with
  | nothing => exact ⟨[], by simp, rfl, fun _ => rfl⟩
  | start =>
    simp only
    obtain ⟨x, h1, h2, h3⟩ := binStart_files env l
    rcases hs : l.start env with ⟨l', b⟩
    rw [hs] at h1 h2 h3
    cases b with
    | true => exact ⟨x, h1, h2, fun _ => h3⟩
    | false => exact ⟨x, h1, h2, fun _ => h3⟩
  | stop =>
    obtain ⟨h1, h2⟩ := binStop_files l
    refine ⟨[], by simpa using h1, h2, fun h0 => ?_⟩
    exfalso
    unfold LogBase.autoAct at ha
    split at ha
    · cases ha
    · split at ha
      · split at ha <;> cases ha
      · rw [if_neg (by intro h; exact h0 h.1)] at ha; cases ha
      · cases ha

theorem step_good {env : LogEnv} {l : BinLog} {ev : ULogEv} {D : Nat → Nat → List UInt8}
    (h : ∀ m, ev = .msg m → m.msgId = 184 → BlockMsg m ∧ (blockIn m).seqno.toNat < blockLimit ∧
      (blockIn m).data = D l.base.done.length (blockIn m).seqno.toNat) : GoodStep D l (l.step env ev) := by
  cases ev with
  | msg m =>
    have hlearn : binFiles { l with base := l.base.learnTarget m } = binFiles l ∧
        (l.base.learnTarget m).out = l.base.out ∧ (l.base.learnTarget m).done = l.base.done := by
      unfold LogBase.learnTarget
      split <;> exact ⟨rfl, rfl, rfl⟩
    obtain ⟨x, h1, h2, h3⟩ := auto_good env { l with base := l.base.learnTarget m } m
    rw [hlearn.1] at h1
    simp only [hlearn.2.1] at h2
    simp only [BinLog.step, BinLog.writeMsg]
    by_cases h184 : m.msgId = 184
    · obtain ⟨hb, hlim, hd⟩ := h m rfl h184
      have h3' := h3 (by rw [h184]; decide)
      simp only [hlearn.2.2] at h3'
      rw [if_neg (by simp [h184])]
      split
      · exact .quiet x h1 h2
      · rw [block_eq hb]
        exact .after x h1 h2 h3' (takeBlock_good (blockIn_length m) hlim (by rw [h3']; exact hd))
    · rw [if_pos h184]
      exact .quiet x h1 h2
  | startTimeout =>
    simp only [BinLog.step, BinLog.startTimeout]
    split
    · refine .quiet [] (by simp [binFiles, LogBase.send]) ?_
      show acks (l.base.out ++ [LogOut.blockStart]) = _
      rw [acks_append]; simp [acks]
    · exact .quiet [] (by simp) rfl
  | aliveTimeout =>
    simp only [BinLog.step, BinLog.aliveTimeout]
    split
    · split
      · obtain ⟨x, h1, h2⟩ := binRestart_files env l
        exact .quiet x h1 h2
      · exact .quiet [] (by simp [binFiles]) rfl
    · exact .quiet [] (by simp) rfl
  | stop =>
    obtain ⟨h1, h2⟩ := binStop_files l
    exact .quiet [] (by simpa [BinLog.step] using h1) h2

theorem binRun_append (env : LogEnv) (l : BinLog) (a b : List ULogEv) : l.run env (a ++ b) = (l.run env a).run env b := by
  simp [BinLog.run]

theorem run_keeps {env : LogEnv} {D : Nat → Nat → List UInt8} (evs : List ULogEv) : ∀ (l : BinLog),
    OneStream env l evs D → Keeps D l (l.run env evs) := by
  induction evs with
  | nil => intro l _ i n _ h; exact h
  | cons ev evs ih =>
    intro l h
    have hs : GoodStep D l (l.step env ev) := step_good fun m hm h184 => by
      subst hm; exact h [] m evs rfl h184
    refine hs.keeps.trans (ih (l.step env ev) ?_)
    intro pre m post he h184
    have := h (ev :: pre) m post (by rw [he]; rfl) h184
    exact this

/-- **C130**: whatever sequence of blocks arrives - lost ones, repeated ones, in any order -, however many bytes the file system takes of
each, and however often the log is stopped and started again: every block that was acknowledged is in the file that was open then, with
all its 200 bytes, at the end of the history and at every moment in between. -/
theorem C130_stored (env : LogEnv) (l : BinLog) (evs : List ULogEv) (D : Nat → Nat → List UInt8)
    (hD : ∀ i n, (D i n).length = 200) (h : OneStream env l evs D) (i n : Nat) (ha : Acked env l evs i n) :
    ∃ c, (binFiles (l.run env evs))[i]? = some c ∧ HasBlock c n (D i n) := by
  obtain ⟨pre, ev, post, new, he, hi, hnew, k, hk, hkn⟩ := ha
  have hstep : GoodStep D (l.run env pre) ((l.run env pre).step env ev) := step_good fun m hm h184 => by
    subst hm; exact h pre m post he h184
  have hrun : l.run env evs = ((l.run env pre).step env ev).run env post := by
    rw [he, binRun_append]; rfl
  have hpost : Keeps D ((l.run env pre).step env ev) (((l.run env pre).step env ev).run env post) := by
    apply run_keeps
    intro pre' m post' he' h184
    have := h (pre ++ ev :: pre') m post' (by rw [he, he']; simp) h184
    rw [binRun_append] at this
    exact this
  obtain ⟨new', h1, h2⟩ := hstep.acked
  have hst := h2 k (by
    have := hnew.symm.trans h1
    rw [← List.append_cancel_left this]; exact hk)
  rw [hi, hkn] at hst
  rw [hrun]
  exact hpost i n (hD i n) hst

/-- **C130**: once blocks 0 to N-1 have been acknowledged while file `i` was open, the file begins with exactly these blocks, in order
and without gap. -/
theorem C130_complete (env : LogEnv) (l : BinLog) (evs : List ULogEv) (D : Nat → Nat → List UInt8)
    (hD : ∀ i n, (D i n).length = 200) (h : OneStream env l evs D) (i N : Nat) (h0 : 0 < N)
    (ha : ∀ n, n < N → Acked env l evs i n) :
    ∃ c, (binFiles (l.run env evs))[i]? = some c ∧ c.take (200 * N) = (List.range N).flatMap (D i) := by
  obtain ⟨c, hc, -⟩ := C130_stored env l evs D hD h i 0 (ha 0 h0)
  refine ⟨c, hc, ?_⟩
  have hb : ∀ n, n < N → HasBlock c n (D i n) := by
    intro n hn
    obtain ⟨c', hc', hb⟩ := C130_stored env l evs D hD h i n (ha n hn)
    rw [hc] at hc'
    cases hc'
    exact hb
  clear ha h0 hc
  induction N with
  | zero => simp
  | succ N ih =>
    rw [List.range_succ, List.flatMap_append, ← ih fun n hn => hb n (by omega)]
    have := hb N (by omega)
    unfold HasBlock at this
    rw [Nat.mul_add, List.take_add, Nat.mul_one, this]
    simp

/-- `OneStream` one event at a time. -/
theorem oneStream_cons {env : LogEnv} {l : BinLog} {ev : ULogEv} {evs : List ULogEv} {D : Nat → Nat → List UInt8}
    (h1 : ∀ m, ev = .msg m → m.msgId = 184 → BlockMsg m ∧ (blockIn m).seqno.toNat < blockLimit ∧
      (blockIn m).data = D l.base.done.length (blockIn m).seqno.toNat)
    (h2 : OneStream env (l.step env ev) evs D) : OneStream env l (ev :: evs) D := by
  intro pre m post he h184
  match pre, he with
  | [], he =>
    simp only [List.nil_append, List.cons.injEq] at he
    exact h1 m he.1 h184
  | e :: pre, he =>
    simp only [List.cons_append, List.cons.injEq] at he
    rw [he.1] at h2
    exact h2 pre m post he.2 h184

/-- A file system that takes only 50 bytes of the second write. -/
def Sample.storedEnv : LogEnv := { Sample.binEnv with wr := fun i => if i = 1 then .n 50 else .n 4096 }

/-- Two logs: in the first, block 1 is cut and repeated, block 0 arrives twice and block 2 before block 1. -/
def Sample.storedHist : List ULogEv :=
  [.msg (logHb 1 1 3 128), .msg (binMsg 0 [1]), .msg (binMsg 1 [5, 5]), .msg (binMsg 2 [7]), .msg (binMsg 0 [1]),
   .msg (binMsg 1 [5, 5]), .stop, .msg (logHb 1 1 3 128), .msg (binMsg 0 [9])]

/-- The data of the two logs. -/
def Sample.storedData (i n : Nat) : List UInt8 :=
  let d : List UInt8 := if i = 0 then (if n = 0 then [1] else if n = 1 then [5, 5] else [7]) else [9]
  d ++ List.replicate (200 - d.length) 0

theorem Sample.storedData_length (i n : Nat) : (Sample.storedData i n).length = 200 := by
  unfold Sample.storedData
  simp only
  split
  · split
    · rfl
    · split <;> rfl
  · rfl

theorem Sample.stored_oneStream :
    OneStream Sample.storedEnv (BinLog.init none .always) Sample.storedHist Sample.storedData := by
  have nil : ∀ l, OneStream Sample.storedEnv l [] Sample.storedData := by
    intro l pre m post he; cases pre <;> cases he
  have hb : ∀ m, (ULogEv.msg (Sample.logHb 1 1 3 128) = .msg m) → m.msgId ≠ 184 := by
    intro m hm; cases hm; decide
  have blk : ∀ (n : UInt8) (d : List UInt8) (D : List UInt8), (headerLen (Sample.binMsg n d) +
      (Sample.binMsg n d).payloadLen.toNat ≤ (Sample.binMsg n d).data.length) →
      (blockIn (Sample.binMsg n d)).seqno.toNat < blockLimit → (blockIn (Sample.binMsg n d)).data = D →
      ∀ m, (ULogEv.msg (Sample.binMsg n d) = .msg m) → m.msgId = 184 → BlockMsg m ∧
        (blockIn m).seqno.toNat < blockLimit ∧ (blockIn m).data = D := by
    intro n d D h1 h2 h3 m hm _
    cases hm
    exact ⟨⟨rfl, h1, .inl rfl⟩, h2, h3⟩
  unfold Sample.storedHist
  refine oneStream_cons (fun m hm h => absurd h (hb m hm)) ?_
  refine oneStream_cons (fun m hm h => ?_) ?_
  · cases hm; exact blk 0 [1] _ (by decide) (by decide +kernel) (by decide +kernel) _ rfl rfl
  refine oneStream_cons (fun m hm h => ?_) ?_
  · cases hm; exact blk 1 [5, 5] _ (by decide) (by decide +kernel) (by decide +kernel) _ rfl rfl
  refine oneStream_cons (fun m hm h => ?_) ?_
  · cases hm; exact blk 2 [7] _ (by decide) (by decide +kernel) (by decide +kernel) _ rfl rfl
  refine oneStream_cons (fun m hm h => ?_) ?_
  · cases hm; exact blk 0 [1] _ (by decide) (by decide +kernel) (by decide +kernel) _ rfl rfl
  refine oneStream_cons (fun m hm h => ?_) ?_
  · cases hm; exact blk 1 [5, 5] _ (by decide) (by decide +kernel) (by decide +kernel) _ rfl rfl
  refine oneStream_cons (fun m hm h => by cases hm) ?_
  refine oneStream_cons (fun m hm h => absurd h (hb m hm)) ?_
  refine oneStream_cons (fun m hm h => ?_) (nil _)
  · cases hm; exact blk 0 [9] _ (by decide) (by decide +kernel) (by decide +kernel) _ rfl rfl

/-- Block 1 of the first log is acknowledged when it arrives for the second time. -/
example : Acked Sample.storedEnv (BinLog.init none .always) Sample.storedHist 0 1 :=
  ⟨Sample.storedHist.take 5, .msg (Sample.binMsg 1 [5, 5]), Sample.storedHist.drop 6, [1], rfl, by decide +kernel,
    by decide +kernel, 1, by simp, rfl⟩

/-- The two files of the sample. -/
example : binFiles ((BinLog.init none .always).run Sample.storedEnv Sample.storedHist) =
    [Sample.storedData 0 0 ++ Sample.storedData 0 1 ++ Sample.storedData 0 2, Sample.storedData 1 0] := by decide +kernel

/-- A block of another log that arrives late is stored and acknowledged as if it belonged to this one: the hypothesis on the data is
needed. -/
example : ((BinLog.init none .always).run Sample.binEnv
    [.msg (Sample.logHb 1 1 3 128), .msg (Sample.binMsg 0 [1]), .stop, .msg (Sample.logHb 1 1 3 128), .msg (Sample.binMsg 0 [9]),
     .msg (Sample.binMsg 1 [5, 5])]).base.out.contains (.blockAck 1) = true := by decide +kernel

end Verif
