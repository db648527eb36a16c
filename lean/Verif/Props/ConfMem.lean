import Verif.Lemmas.ConfMem

/-
C129: reading configuration files uses only memory of the program's own data.
-/

namespace Verif

open ConfMem Spec

/-- Objects stay where they are when another file is mapped. -/
theorem insideTxt_append {mem : Mem} {t : Txt} (x : List UInt8) (h : InsideTxt mem t) :
    InsideTxt (mem ++ [x]) t ∧ textOf (mem ++ [x]) t = textOf mem t := by
  obtain ⟨f, hf, hl⟩ := h
  have hlt : t.p.blk < mem.length := by
    rcases Nat.lt_or_ge t.p.blk mem.length with h | h
    · exact h
    · rw [List.getElem?_eq_none h] at hf; simp at hf
  have hg : (mem ++ [x])[t.p.blk]? = some f := by rw [List.getElem?_append_left hlt]; exact hf
  exact ⟨⟨f, hg, hl⟩, by simp [textOf, List.getD, hg, hf]⟩

/-- The same for tables. -/
theorem safe_append {mem : Mem} {ss : List Sec} (x : List UInt8) (h : Safe mem ss) :
    Safe (mem ++ [x]) ss ∧ ss.map (plainSec (mem ++ [x])) = ss.map (plainSec mem) := by
  constructor
  · intro s hs
    refine ⟨(insideTxt_append x (h s hs).1).1, fun c hc => ?_⟩
    have := (h s hs).2 c hc
    exact ⟨(insideTxt_append x this.1).1, (insideTxt_append x this.2.1).1, this.2.2⟩
  · refine List.map_congr_left fun s hs => ?_
    simp only [plainSec, (insideTxt_append x (h s hs).1).2]
    congr 1
    refine List.map_congr_left fun c hc => ?_
    have := (h s hs).2 c hc
    simp only [plainOpt, (insideTxt_append x this.1).2, (insideTxt_append x this.2.1).2]

/-- **C129**, one file.  Whatever bytes a configuration file contains, reading it never reads outside of the mapped files and
ends; the table made of it points into the mapped files only, no key or value in it is empty, and its texts are those the reader
is specified to give (`parseConf`), also if the file has an error. -/
theorem C129_file (mem : Mem) (ss : List Sec) (content : List UInt8) (h : Safe mem ss) :
    ∃ ss', (parseM mem ss content).2 = .ok (ss', (parseConf (ss.map (plainSec mem)) content).2) ∧
      Safe (parseM mem ss content).1 ss' ∧
      ss'.map (plainSec (parseM mem ss content).1) = (parseConf (ss.map (plainSec mem)) content).1 := by
  simp only [parseM, parseConf]
  by_cases h0 : content = []
  · simp only [if_pos h0]
    exact ⟨ss, rfl, h, rfl⟩
  · simp only [if_neg h0]
    obtain ⟨h1, h2⟩ := safe_append content h
    have hat : At (mem ++ [content]) ⟨mem.length, 0⟩ content := ⟨content, by simp, by simp, by simp⟩
    obtain ⟨ss', e1, e2, e3⟩ := parseLoop_at (content.length + 1) content { sections := ss, cur := none } _
      ⟨h1, by simp⟩ hat (by omega)
    simp only [plainState, h2] at e1 e2
    exact ⟨ss', e1, e3, e2⟩

/-- **C129**, all files given on the command line and in the directory: never a read outside of them, whatever they contain. -/
theorem C129_files (files : List (List UInt8)) : ∀ (mem : Mem) (ss : List Sec), Safe mem ss →
    (parseAllM mem ss files).2 ≠ .ub ∧
    ∀ ss', (parseAllM mem ss files).2 = .ok ss' → Safe (parseAllM mem ss files).1 ss' ∧
      ss'.map (plainSec (parseAllM mem ss files).1) = parseConfs (ss.map (plainSec mem)) files := by
  induction files with
  | nil =>
    intro mem ss h
    refine ⟨by simp [parseAllM], ?_⟩
    intro ss' h'
    simp only [parseAllM, Res.ok.injEq] at h'
    subst h'
    exact ⟨h, rfl⟩
  | cons f fs ih =>
    intro mem ss h
    obtain ⟨ss1, e1, e2, e3⟩ := C129_file mem ss f h
    cases hp : parseM mem ss f with
    | mk mem1 r =>
      rw [hp] at e1 e2 e3
      simp only at e1 e2 e3
      simp only [parseAllM, hp, e1]
      cases hb : (parseConf (ss.map (plainSec mem)) f).2 with
      | false => simp
      | true =>
        simp only [parseConfs, List.foldl_cons]
        have := ih mem1 ss1 e2
        rw [e3] at this
        exact this

/-- **C129**, taking the options out, partial: with keys that are texts of the program, for every table of options and whatever
the parsers accept, no memory outside of an object is used and no `assert` fails if every value fits on the stack.  Missing from
C129: longer values (`C129_violated`). -/
theorem C129_extract_partial (mem : Mem) (stack : Nat) (accept : Entry → List UInt8 → Bool) (ss : List Sec) (h : Safe mem ss)
    (s : Sec) (hs : s ∈ ss) (table : List Entry) (hk : ∀ e ∈ table, InsideTxt mem e.key)
    (hst : ∀ c ∈ s.configs, c.value.len < stack) : extractM mem stack accept s table ≠ .ub := by
  induction table with
  | nil => simp [extractM]
  | cons e es ih =>
    have ih := ih fun x hx => hk x (by simp [hx])
    have hf := findConfigM_inside (hk e (by simp)) s.configs fun c hc => ((h s hs).2 c hc).1
    simp only [extractM, hf]
    cases hi : (s.configs.map (plainOpt mem)).findIdx? fun c => memCaseEq (textOf mem e.key) c.key with
    | none =>
      simp only
      split
      · simp
      · exact ih
    | some i =>
      obtain ⟨hlt, -, -⟩ := List.findIdx?_eq_some_iff_getElem.1 hi
      rw [List.length_map] at hlt
      simp only [List.getElem?_eq_getElem hlt]
      have hm := List.getElem_mem hlt
      generalize s.configs[i] = c at hm
      obtain ⟨-, ⟨f, hb, hl⟩, -, hpos⟩ := (h s hs).2 c hm
      have hfit := hst c hm
      have hcut : (cstrB ((f.drop c.value.p.off).take c.value.len)).length ≤ c.value.len := by
        have h1 := (List.takeWhile_sublist (fun b : UInt8 => b != 0)
          (l := (f.drop c.value.p.off).take c.value.len)).length_le
        rw [List.length_take] at h1
        exact Nat.le_trans h1 (Nat.min_le_left _ _)
      have hp : ∀ acc, parserM mem stack acc e c.value = .ok () ∨ parserM mem stack acc e c.value = .err := by
        intro acc
        simp only [parserM, if_neg (show c.value.len ≠ 0 by omega), hb,
          if_neg (show ¬ c.value.p.off + c.value.len > f.length by omega)]
        rw [if_neg (by omega)]
        split <;> simp
      rcases hp (accept e) with h1 | h1
      · simp only [h1]; exact ih
      · simp [h1]

/-- **C129**, partial: what a parser is given is exactly the value; for values shorter than the stack the outcome is what the parser says
of it. -/
theorem C129_value_partial (mem : Mem) (stack : Nat) (accept : List UInt8 → Bool) (e : Entry) (v : Txt) (h : InsideTxt mem v)
    (h0 : 0 < v.len) (hst : v.len < stack) :
    parserM mem stack accept e v = if accept (textOf mem v) then .ok () else .err := by
  obtain ⟨f, hb, hl⟩ := h
  have hcut : (cstrB ((f.drop v.p.off).take v.len)).length ≤ v.len := by
    have h1 := (List.takeWhile_sublist (fun b : UInt8 => b != 0) (l := (f.drop v.p.off).take v.len)).length_le
    rw [List.length_take] at h1
    exact Nat.le_trans h1 (Nat.min_le_left _ _)
  simp only [parserM, if_neg (show v.len ≠ 0 by omega), hb,
    if_neg (show ¬ v.p.off + v.len > f.length by omega)]
  rw [if_neg (by omega)]
  simp [textOf, List.getD, hb]

theorem fnPrefix_length : ∀ (pre name : List UInt8), fnPrefix pre name = true → pre.length ≤ name.length
  | [], _, _ => by simp
  | _ :: _, [], h => by simp [fnPrefix] at h
  | a :: as, b :: bs, h => by
    simp only [fnPrefix, Bool.and_eq_true] at h
    have := fnPrefix_length as bs h.2
    simp; omega

/-- **C129**, what counts as unsafe: reading a byte is undefined exactly if it lies in none of the objects; otherwise it is that byte. -/
theorem C129_read (mem : Mem) (p : Ptr) : (rd mem p = .ub ↔ ¬ ∃ b, (mem[p.blk]?).bind (fun f => f[p.off]?) = some b) ∧
    ∀ b, rd mem p = .ok b ↔ (mem[p.blk]?).bind (fun f => f[p.off]?) = some b := by
  unfold rd
  cases mem[p.blk]? with
  | none => simp
  | some f => cases h : f[p.off]? <;> simp [h]

example : rd [ascii "ab"] ⟨0, 1⟩ = .ok 98 ∧ rd [ascii "ab"] ⟨0, 2⟩ = .ub ∧ rd [ascii "ab"] ⟨1, 0⟩ = .ub := by decide +kernel

/-- **C129**, the names of endpoints: a section found for a pattern has a name at least as long as the pattern without its star, so
that the name of the endpoint (main.cpp:462, 483, 505), the rest of it, begins inside it. -/
theorem C129_name (pre : List UInt8) (ss : List CfgSection) (s : CfgSection) (rest : List CfgSection)
    (h : getSections pre ss = .found s rest) : pre.length ≤ s.name.length := by
  induction ss with
  | nil => simp [getSections] at h
  | cons x xs ih =>
    simp only [getSections] at h
    split at h
    · simp at h
    · split at h
      · rename_i hp
        simp only [IterRes.found.injEq] at h
        obtain ⟨rfl, rfl⟩ := h
        exact Nat.le_trans (fnPrefix_length _ _ hp) (List.takeWhile_sublist _).length_le
      · exact ih h

example : getSections (ascii "udpendpoint ") [{ name := ascii "UdpEndpoint a" }] = .found { name := ascii "UdpEndpoint a" } [] := by
  decide

/-- A text without white space is not changed by trimming. -/
theorem trimB_solid (l : List UInt8) (h : ∀ b ∈ l, isSpaceB b = false) : trimB l = l := by
  have drop : ∀ m : List UInt8, (∀ b ∈ m, isSpaceB b = false) → m.dropWhile isSpaceB = m := by
    intro m hm
    cases m with
    | nil => rfl
    | cons b m => simp [hm b (by simp)]
  unfold trimB
  rw [drop l h, drop _ (fun b hb => h b (by simpa using hb))]
  simp

/-- The file of `C129_violated`: an option whose value has `n` digits. -/
def Sample.longValue (n : Nat) : List UInt8 := [91, 71, 93] ++ 10 :: ([80, 61] ++ List.replicate n 49 ++ 10 :: [])

theorem longValue_parsed (n : Nat) (h0 : 0 < n) (hn : n + 2 ≤ intMax) :
    parseConf [] (Sample.longValue n) = ([{ name := [71], configs := [{ key := [80], value := List.replicate n 49 }] }], true) := by
  have s1 : ∀ b ∈ ([80, 61] ++ List.replicate n 49 : List UInt8), b = 80 ∨ b = 61 ∨ b = 49 := by
    intro b hb
    simp only [List.mem_append, List.mem_cons, List.mem_replicate, List.not_mem_nil, or_false] at hb
    rcases hb with (h | h) | h <;> simp [h]
  have s2 : ∀ b ∈ ([80, 61] ++ List.replicate n 49 : List UInt8), b ≠ 10 := by
    intro b hb; rcases s1 b hb with h | h | h <;> subst h <;> decide
  have s3 : ∀ b ∈ ([80, 61] ++ List.replicate n 49 : List UInt8), isSpaceB b = false := by
    intro b hb; rcases s1 b hb with h | h | h <;> subst h <;> decide
  have l1 : confLine ⟨[], none⟩ [91, 71, 93] = some ⟨[{ name := [71] }], some 0⟩ := by decide
  have l2 : confLine ⟨[{ name := [71] }], some 0⟩ ([80, 61] ++ List.replicate n 49) =
      some ⟨[{ name := [71], configs := [{ key := [80], value := List.replicate n 49 }] }], some 0⟩ := by
    have hv : trimB (List.replicate n 49) = List.replicate n 49 :=
      trimB_solid _ fun b hb => s3 b (List.mem_append_right _ hb)
    have hk : trimB [80] = [80] := by decide
    simp only [confLine, trimB_solid _ s3]
    rw [if_neg (by simp; omega)]
    simp only [List.cons_append, List.nil_append]
    rw [if_neg (by decide), if_neg (by decide)]
    have ha : addConfig [] (80 :: 61 :: List.replicate n 49) = some [{ key := [80], value := List.replicate n 49 }] := by
      simp only [addConfig, List.findIdx?_cons]
      rw [show ((80 : UInt8) == 61) = false by decide, show ((61 : UInt8) == 61) = true by decide]
      simp only [Bool.false_eq_true, if_false, if_true, Option.map_some]
      rw [if_neg (by decide), if_neg (by simp; omega)]
      simp [findConfig, hk, hv]
    simp [sectionAt, updateSection, ha]
  unfold parseConf
  rw [if_neg (by simp [Sample.longValue])]
  unfold Sample.longValue
  rw [confLines_split _ _ (by decide), confLines_split _ _ s2]
  simp only [parseLines, l1, l2, confLines, confLinesGo]

/-- **C129** fails for values longer than the stack: however large the stack is (up to the 2 GiB a line may have), a file with the
lines `[G]` and `P=1…1` makes the copy of the value overrun it. -/
theorem C129_violated (stack : Nat) (h0 : 0 < stack) (hs : stack + 2 ≤ intMax) (accept : Entry → List UInt8 → Bool) :
    ∃ (ss' : List Sec) (s : Sec), (parseM [ascii "p"] [] (Sample.longValue stack)).2 = .ok (ss', true) ∧ s ∈ ss' ∧
      extractM (parseM [ascii "p"] [] (Sample.longValue stack)).1 stack accept s [⟨⟨⟨0, 0⟩, 1⟩, false, true⟩] = .ub := by
  obtain ⟨ss', e1, e2, e3⟩ := C129_file [ascii "p"] [] (Sample.longValue stack) (by intro s hs; simp at hs)
  have hkey : InsideTxt (parseM [ascii "p"] [] (Sample.longValue stack)).1 ⟨⟨0, 0⟩, 1⟩ ∧
      textOf (parseM [ascii "p"] [] (Sample.longValue stack)).1 ⟨⟨0, 0⟩, 1⟩ = [112] := by
    simp only [parseM, if_neg (show Sample.longValue stack ≠ [] by simp [Sample.longValue])]
    exact ⟨⟨ascii "p", rfl, by decide⟩, by simp [textOf]; decide⟩
  generalize hm : (parseM [ascii "p"] [] (Sample.longValue stack)).1 = mem at e2 e3 hkey
  simp only [List.map_nil, longValue_parsed stack h0 hs] at e1 e3
  match ss', e3 with
  | [], e3 => simp at e3
  | _ :: _ :: _, e3 => simp at e3
  | [s], e3 =>
    simp only [List.map_cons, List.map_nil, List.cons.injEq, and_true, plainSec, CfgSection.mk.injEq] at e3
    obtain ⟨-, e3⟩ := e3
    refine ⟨[s], s, e1, by simp, ?_⟩
    obtain ⟨-, hsafe⟩ := e2 s (by simp)
    obtain ⟨sn, cs⟩ := s
    match cs, e3, hsafe with
    | [], e3, _ => simp at e3
    | _ :: _ :: _, e3, _ => simp at e3
    | [c], e3, hsafe =>
      simp only [List.map_cons, List.map_nil, List.cons.injEq, and_true, plainOpt, CfgOpt.mk.injEq] at e3
      obtain ⟨ck, cv⟩ := e3
      obtain ⟨hk, hv, -, hpos⟩ := hsafe c (by simp)
      have hf := findConfigM_inside hkey.1 [c] (by simpa using hk)
      rw [hkey.2] at hf
      simp only [List.map_cons, List.map_nil, plainOpt, ck, List.findIdx?_cons, List.findIdx?_nil] at hf
      rw [show memCaseEq [112] [80] = true by decide] at hf
      simp only [if_true] at hf
      simp only [extractM, hf, List.getElem?_cons_zero]
      obtain ⟨f, hb, hl⟩ := hv
      have ht : (f.drop c.value.p.off).take c.value.len = List.replicate stack 49 := by
        simpa [textOf, List.getD, hb] using cv
      have hc : cstrB (List.replicate stack (49 : UInt8)) = List.replicate stack 49 := by
        unfold cstrB
        generalize stack = n
        induction n with
        | zero => rfl
        | succ n ih => rw [List.replicate_succ, List.takeWhile_cons]; simp
      have hp : parserM mem stack (accept ⟨⟨⟨0, 0⟩, 1⟩, false, true⟩) ⟨⟨⟨0, 0⟩, 1⟩, false, true⟩ c.value = .ub := by
        simp only [parserM, if_neg (show c.value.len ≠ 0 by omega), hb,
          if_neg (show ¬ c.value.p.off + c.value.len > f.length by omega), ht, hc]
        rw [if_pos (by simp)]
      simp only [hp]

/-- A file with comments, two sections, a repeated key, white space, a last line without newline. -/
def Sample.memConf : List UInt8 := ascii "# x\n[General]\n Port = 1 \nport=22\n\n[UdpEndpoint a]\nMode = Normal\nrest"

/-- The hypotheses of `C129_file`, `C129_files` hold at the start: there is no table yet. -/
example : Safe [ascii "Port"] [] := by intro s hs; simp at hs

/-- What the reader makes of the sample: two sections whose texts lie in the file (object 1); the key was found again. -/
example : parseM [ascii "Port"] [] Sample.memConf = ([ascii "Port", Sample.memConf],
    .ok ([⟨⟨⟨1, 35⟩, 13⟩, [⟨⟨⟨1, 50⟩, 4⟩, ⟨⟨1, 57⟩, 6⟩⟩]⟩, ⟨⟨⟨1, 5⟩, 7⟩, [⟨⟨⟨1, 15⟩, 4⟩, ⟨⟨1, 30⟩, 2⟩⟩]⟩], true)) := by
  decide +kernel

/-- A table for the sample and its result: the hypotheses of `C129_extract_partial` hold with a stack of 100 bytes. -/
example : extractM [ascii "Port", Sample.memConf] 100 (fun _ v => v == ascii "22")
    ⟨⟨⟨1, 5⟩, 7⟩, [⟨⟨⟨1, 15⟩, 4⟩, ⟨⟨1, 30⟩, 2⟩⟩]⟩ [⟨⟨⟨0, 0⟩, 4⟩, true, true⟩] = .ok () := by decide +kernel

/-- With the objects swapped the same pointers lead outside: the outcome `ub` is not ruled out by the model. -/
example : extractM [Sample.memConf, ascii "Port"] 100 (fun _ v => v == ascii "22")
    ⟨⟨⟨1, 5⟩, 7⟩, [⟨⟨⟨1, 15⟩, 4⟩, ⟨⟨1, 30⟩, 2⟩⟩]⟩ [⟨⟨⟨0, 0⟩, 4⟩, true, true⟩] = .ub := by decide +kernel

/-- A line that is not followed by anything would be read behind its end. -/
example : trimM [ascii "ab  "] ⟨⟨0, 2⟩, 2⟩ = .ub ∧ trimM [ascii "ab  c"] ⟨⟨0, 2⟩, 2⟩ = .ok ⟨⟨0, 4⟩, 0⟩ := by decide

end Verif
