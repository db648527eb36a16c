import Verif.Spec.Diag

/-
C106 diagnostics.
-/

namespace Verif

open Spec

theorem visible_plain (a b : List UInt8) (h : 27 ∉ a) : visible 0 (a ++ b) = a ++ visible 0 b := by
  induction a with
  | nil => rfl
  | cons x xs ih =>
    have hx : x ≠ 27 := fun e => h (by simp [e])
    simp only [List.cons_append, visible, if_neg hx]
    rw [ih fun hm => h (by simp [hm])]

/-- Colours are not seen. -/
theorem visible_color (s : DiagSt) (l : LogLevel) (c : List UInt8) (hc : s.color l = some c) (b : List UInt8) :
    visible 0 (c ++ b) = visible 0 b := by
  simp only [DiagSt.color] at hc
  split at hc
  · cases l <;> simp at hc <;> subst hc <;> simp [escSeq, visible]
  · simp at hc

theorem toFd_visible (s : DiagSt) (l : LogLevel) (text : List UInt8) (h : 27 ∉ text) (hl : text.length < 2048)
    (ht : s.target = some 2) : arrives true (s.toFd l text) = text ++ [10] := by
  have htake : text.take (lineMax - 1) = text := List.take_of_length_le (by simp [lineMax]; omega)
  simp only [DiagSt.toFd, arrives, ht, htake, and_self, if_true]
  split
  · next c hc =>
    rw [List.append_assoc, List.append_assoc, visible_color s l c hc, visible_plain _ _ h]
    simp [escSeq, visible]
  · rw [visible_plain _ _ h]
    simp [visible]

theorem importance_num (a b : LogLevel) :
    importance.idxOf a ≤ importance.idxOf b ↔ ¬ b.num < a.num := by
  cases a <;> cases b <;> decide

/-- Texts that fit the line buffer and contain no escape character. -/
def PlainDiags (ds : List Diag) : Prop := ∀ d ∈ ds, 27 ∉ d.2 ∧ d.2.length < 2048

theorem logAll_stderr (s : DiagSt) (hb : s.backend = .stderr) (ht : s.target = some 2) (ds : List Diag)
    (h : PlainDiags ds) : (s.logAll ds).map (arrives true) = linesOf (upTo s.max ds) := by
  induction ds with
  | nil => rfl
  | cons d ds ih =>
    have ih := ih fun d hd => h d (by simp [hd])
    obtain ⟨h1, h2⟩ := h d (by simp)
    simp only [DiagSt.logAll, List.flatMap_cons, List.map_append] at ih ⊢
    rw [ih]
    simp only [upTo, linesOf, List.filter_cons, DiagSt.logv, hb, importance_num]
    by_cases hm : s.max.num < d.1.num
    · simp [hm]
    · simp [hm, toFd_visible s d.1 d.2 h1 h2 ht]

theorem logAll_syslog (s : DiagSt) (hb : s.backend = .syslog) (ds : List Diag) :
    (s.logAll ds).map (arrives false) = linesOf (upTo s.max ds) := by
  induction ds with
  | nil => rfl
  | cons d ds ih =>
    simp only [DiagSt.logAll, List.flatMap_cons, List.map_append] at ih ⊢
    rw [ih]
    simp only [upTo, linesOf, List.filter_cons, DiagSt.logv, hb, importance_num]
    by_cases hm : s.max.num < d.1.num
    · simp [hm]
    · simp [hm, arrives]

/-- C106 (part): diagnostics of the running router appear on the chosen output, each as one line written at once, exactly if
their level is at most the configured one; those issued while the configuration is read appear up to level info.
Missing: texts of 2048 bytes and more on the standard error output, and the configured level while the configuration is
read, where it is false (`C106_violated`). -/
theorem C106_lines_partial (backend : LogBackend) (tty : Bool) (level : LogLevel) (conf run : List Diag)
    (hc : backend = .stderr → PlainDiags conf) (hr : backend = .stderr → PlainDiags run) :
    (mainDiag backend tty level conf (some run)).map (arrives (backend = .stderr)) =
      linesOf (upTo .info conf) ++ linesOf (upTo level run) := by
  simp only [mainDiag, List.map_append]
  cases backend with
  | stderr =>
    congr 1
    · exact logAll_stderr _ rfl rfl conf (hc rfl)
    · exact logAll_stderr _ rfl rfl run (hr rfl)
  | syslog =>
    congr 1
    · exact logAll_syslog _ rfl conf
    · exact logAll_syslog _ rfl run

/-- C106 (part): in the system log, more important diagnostics have more important priorities (smaller numbers), from
"error" (3) to "debug" (7), and only debug and trace share one. -/
theorem C106_priorities (s : DiagSt) (hb : s.backend = .syslog) (l l' : LogLevel) (t t' : List UInt8) (p p' : Nat)
    (h : .syslog p t ∈ s.logv l t) (h' : .syslog p' t' ∈ s.logv l' t') :
    3 ≤ p ∧ p ≤ 7 ∧ (importance.idxOf l < importance.idxOf l' → p < p' ∨ (l = .debug ∧ l' = .trace)) := by
  have hp : p = l.prio := by
    simp only [DiagSt.logv, hb] at h
    split at h <;> simp at h
    exact h
  have hp' : p' = l'.prio := by
    simp only [DiagSt.logv, hb] at h'
    split at h' <;> simp at h'
    exact h'
  subst hp hp'
  cases l <;> cases l' <;> decide

/-- C106 (colours): what is written to the standard error output is the text and a newline, with no escape sequence unless it is a
terminal; on a terminal lines up to level debug are coloured, in a colour that is the level's own and that is taken back at the
end of the line. -/
theorem C106_colours (tty : Bool) (l : LogLevel) (text : List UInt8) (hl : text.length < 2048) :
    ∃ pre post, (({} : DiagSt).open .stderr tty).toFd l text = .write (some 2) (pre ++ text ++ post ++ [10]) ∧
      (tty = false → pre = [] ∧ post = []) ∧
      (tty = true → l ≠ .trace → (∃ ps : List UInt8, pre = [27, 91] ++ ps ++ [109] ∧ ∀ p ∈ ps, (48 ≤ p ∧ p ≤ 57) ∨ p = 59) ∧
        post = [27, 91, 48, 109]) ∧
      ∀ (l' : LogLevel) (text' rest : List UInt8), tty = true → l ≠ .trace → l' ≠ .trace → l ≠ l' →
        (({} : DiagSt).open .stderr tty).toFd l' text' ≠ .write (some 2) (pre ++ rest) := by
  have htake : text.take (lineMax - 1) = text := List.take_of_length_le (by simp [lineMax]; omega)
  cases tty with
  | false =>
    refine ⟨[], [], ?_, fun _ => ⟨rfl, rfl⟩, fun h => by simp at h, fun _ _ _ h => by simp at h⟩
    simp [DiagSt.toFd, DiagSt.open, DiagSt.color, htake]
  | true =>
    refine ⟨((({} : DiagSt).open .stderr true).color l).getD [], if l = .trace then [] else [27, 91, 48, 109], ?_,
      fun h => by simp at h, ?_, ?_⟩
    · cases l <;> simp [DiagSt.toFd, DiagSt.open, DiagSt.color, htake, escSeq]
    · intro _ hl'
      cases l with
      | error => exact ⟨⟨[51, 49], rfl, by decide⟩, rfl⟩
      | warning => exact ⟨⟨[48, 59, 51, 51], rfl, by decide⟩, rfl⟩
      | notice => exact ⟨⟨[51, 51, 59, 49], rfl, by decide⟩, rfl⟩
      | info => exact ⟨⟨[51, 55, 59, 49], rfl, by decide⟩, rfl⟩
      | debug => exact ⟨⟨[51, 52, 59, 49], rfl, by decide⟩, rfl⟩
      | trace => exact absurd rfl hl'
    · intro l' text' rest _ ht ht' hne
      cases l <;> cases l' <;>
        first
          | exact absurd rfl hne
          | exact absurd rfl ht
          | exact absurd rfl ht'
          | (simp [DiagSt.toFd, DiagSt.open, DiagSt.color, escSeq])

example : (({} : DiagSt).open .stderr true).toFd .error [65] = .write (some 2) [27, 91, 51, 49, 109, 65, 27, 91, 48, 109, 10] ∧
    (({} : DiagSt).open .stderr false).toFd .error [65] = .write (some 2) [65, 10] := by decide

/-- The numbers of an escape sequence that selects how text looks (ECMA-48, SGR): decimal, separated by semicolons. -/
def Spec.sgrNumbers (ps : List UInt8) : List Nat :=
  (ps.foldl (fun (acc : List Nat × Nat) b => if b = 59 then (acc.1 ++ [acc.2], 0) else (acc.1, acc.2 * 10 + (b.toNat - 48))) ([], 0)).1 ++
    [(ps.foldl (fun n b => if b = 59 then 0 else n * 10 + (b.toNat - 48)) 0)]

/-- How text looks after such a sequence on a terminal that was reset before: whether it is bold, and its colour. 0 resets, 1 is bold, 30 to 37
are the colours. -/
def Spec.sgrLook (ps : List UInt8) : Bool × Option Nat :=
  (Spec.sgrNumbers ps).foldl (fun k n => if n = 0 then (false, none) else if n = 1 then (true, k.2)
    else if 30 ≤ n ∧ n ≤ 37 then (k.1, some n) else k) (false, none)

/-- C106 (colours, as seen): on a terminal the lines of two levels up to debug look different, not only the bytes that select the colours are. Every
such line ends with a reset, so the next starts from the look of a terminal that was reset. -/
theorem C106_looks (l l' : LogLevel) (hl : l ≠ .trace) (hl' : l' ≠ .trace) (hne : l ≠ l') (text text' : List UInt8)
    (ht : text.length < 2048) (ht' : text'.length < 2048) :
    ∃ ps ps', (({} : DiagSt).open .stderr true).toFd l text = .write (some 2) ([27, 91] ++ ps ++ [109] ++ text ++ [27, 91, 48, 109] ++ [10]) ∧
      (({} : DiagSt).open .stderr true).toFd l' text' = .write (some 2) ([27, 91] ++ ps' ++ [109] ++ text' ++ [27, 91, 48, 109] ++ [10]) ∧
      109 ∉ ps ∧ 109 ∉ ps' ∧ Spec.sgrLook ps ≠ Spec.sgrLook ps' := by
  have htake : text.take (lineMax - 1) = text := List.take_of_length_le (by simp [lineMax]; omega)
  have htake' : text'.take (lineMax - 1) = text' := List.take_of_length_le (by simp [lineMax]; omega)
  let ps : LogLevel → List UInt8 := fun l => match l with
    | .error => [51, 49] | .warning => [48, 59, 51, 51] | .notice => [51, 51, 59, 49] | .info => [51, 55, 59, 49]
    | .debug => [51, 52, 59, 49] | .trace => []
  refine ⟨ps l, ps l', ?_, ?_, ?_, ?_, ?_⟩
  · cases l <;> first | exact absurd rfl hl | simp [ps, DiagSt.toFd, DiagSt.open, DiagSt.color, htake, escSeq]
  · cases l' <;> first | exact absurd rfl hl' | simp [ps, DiagSt.toFd, DiagSt.open, DiagSt.color, htake', escSeq]
  · cases l <;> decide
  · cases l' <;> decide
  · cases l <;> cases l' <;> first | exact absurd rfl hne | exact absurd rfl hl | exact absurd rfl hl' | decide

/-- Warnings and notices differ only in being bold. -/
example : Spec.sgrLook [48, 59, 51, 51] = (false, some 33) ∧ Spec.sgrLook [51, 51, 59, 49] = (true, some 33) ∧
    Spec.sgrLook [49, 59, 51, 51] = Spec.sgrLook [51, 51, 59, 49] := by decide

/-- Diagnostics of several levels. -/
def Sample.diags : List Diag := [(.error, [70, 97, 105, 108]), (.debug, [120]), (.info, [79, 107]), (.trace, [])]

example : PlainDiags Sample.diags ∧
    linesOf (upTo .info Sample.diags) ++ linesOf (upTo .debug Sample.diags) =
      [[70, 97, 105, 108, 10], [79, 107, 10], [70, 97, 105, 108, 10], [120, 10], [79, 107, 10]] ∧
    (mainDiag .stderr true .error Sample.diags (some Sample.diags)).length = 3 := by
  refine ⟨by simp [PlainDiags, Sample.diags], by decide, by decide⟩

example : DiagOut.syslog 4 [1] ∈ ({ backend := .syslog } : DiagSt).logv .warning [1] := by decide

/-- C106 is false: with the level set to error, an information is shown while the configuration is read, with the level
set to debug a debug message is not; and a text of 2048 bytes is cut. -/
theorem C106_violated :
    (mainDiag .stderr false .error [(.info, [65])] none).map (arrives true) ≠ linesOf (upTo .error [(.info, [65])]) ∧
    (mainDiag .stderr false .debug [(.debug, [65])] none).map (arrives true) ≠ linesOf (upTo .debug [(.debug, [65])]) ∧
    ∀ text : List UInt8, 27 ∉ text → text.length ≥ 2048 →
      (mainDiag .stderr false .info [] (some [(.info, text)])).map (arrives true) ≠ linesOf [(.info, text)] := by
  refine ⟨by decide, by decide, fun text h hl e => ?_⟩
  have h27 : 27 ∉ text.take 2047 := fun hm => h (List.mem_of_mem_take hm)
  have : (mainDiag .stderr false .info [] (some [(.info, text)])).map (arrives true) =
      [visible 0 (text.take 2047 ++ [10])] := rfl
  rw [this, visible_plain _ _ h27] at e
  have := congrArg (fun l => l.map List.length) e
  simp [linesOf, visible] at this
  omega

end Verif
