import Verif.Model.Conf

/-
The configuration reader at the level of pointers: /repo/src/common/conf_file.cpp and the macros of
/repo/src/common/util.h.  `Model/Conf.lean` describes what the reader computes, on byte lists; here
every access to memory is a read through a pointer into one of the objects the program has (the mapped
files and the string literals it passes in), and a read outside of them is the outcome `ub`.

Left out: file names and line numbers (used for messages only), `assert` on pointers that are not null.
`isspace` is applied to a `char`, which may be negative; glibc gives the answer for the byte.
-/

namespace Verif.ConfMem

/-- Outcome of a piece of code: undefined behaviour (or `abort`), an error code, a result. -/
inductive Res (α : Type) where
  | ub
  | err
  | ok (a : α)
deriving DecidableEq, Repr

/-- Execution goes on with the result (a `return` of an error code or undefined behaviour end it). -/
def Res.bind {α β : Type} : Res α → (α → Res β) → Res β
  | .ub, _ => .ub
  | .err, _ => .err
  | .ok a, f => f a

instance : Monad Res where
  pure := .ok
  bind := Res.bind

/-- The objects that can be read: the mapped files (conf_file.cpp:81) and string literals. -/
abbrev Mem := List (List UInt8)

/-- A `const char *`: the object and the offset in it. -/
structure Ptr where
  blk : Nat
  off : Nat
deriving DecidableEq, Repr

/-- `p + n`. -/
def Ptr.add (p : Ptr) (n : Nat) : Ptr := { p with off := p.off + n }

/-- `*p`. -/
def rd (mem : Mem) (p : Ptr) : Res UInt8 :=
  match mem[p.blk]? with
  | none => .ub
  | some f =>
    match f[p.off]? with
    | none => .ub
    | some b => .ok b

/-- `memchr(p, c, n)`: the distance of the first `c`.  It reads up to the match and not further
(conf_file.cpp:112, 167, 230). -/
def memchrM (mem : Mem) (c : UInt8) (p : Ptr) : Nat → Res (Option Nat)
  | 0 => .ok none
  | n + 1 => do
    let b ← rd mem p
    if b = c then .ok (some 0)
    else
      let r ← memchrM mem c (p.add 1) n
      .ok (r.map (· + 1))

/-- A piece of text: pointer and length (conf_file.cpp:37-51). -/
structure Txt where
  p : Ptr
  len : Nat
deriving DecidableEq, Repr

/-- The first loop of `_trim` (conf_file.cpp:271-273): `*s` is read before `s < end` is tested. -/
def trimStart (mem : Mem) (p : Ptr) : Nat → Res Txt
  | 0 => do
    let _ ← rd mem p
    .ok ⟨p, 0⟩
  | n + 1 => do
    let b ← rd mem p
    if isSpaceB b then trimStart mem (p.add 1) n else .ok ⟨p, n + 1⟩

/-- The second loop of `_trim` (conf_file.cpp:275-277). -/
def trimEnd (mem : Mem) (p : Ptr) : Nat → Res Txt
  | 0 => .ok ⟨p, 0⟩
  | n + 1 => do
    let b ← rd mem (p.add n)
    if isSpaceB b then trimEnd mem p n else .ok ⟨p, n + 1⟩

/-- `ConfFile::_trim` (conf_file.cpp:266-281). -/
def trimM (mem : Mem) (t : Txt) : Res Txt := do
  let t ← trimStart mem t.p t.len
  trimEnd mem t.p t.len

/-- `strncasecmp(a, b, n) == 0`: ends at the first difference or NUL (conf_file.cpp:414, util.h:43). -/
def ncaseM (mem : Mem) (a b : Ptr) : Nat → Res Bool
  | 0 => .ok true
  | n + 1 => do
    let x ← rd mem a
    let y ← rd mem b
    if lowerB x ≠ lowerB y then .ok false
    else if x = 0 then .ok true
    else ncaseM mem (a.add 1) (b.add 1) n

/-- `memcaseeq` (util.h:44); conf_file.cpp:414. -/
def caseEqM (mem : Mem) (a b : Txt) : Res Bool :=
  if a.len = b.len then ncaseM mem a.p b.p a.len else .ok false

/-- `struct config` (conf_file.cpp:37-44). -/
structure Opt where
  key : Txt
  value : Txt
deriving DecidableEq, Repr

/-- `struct section` (conf_file.cpp:46-51). -/
structure Sec where
  name : Txt
  configs : List Opt := []
deriving DecidableEq, Repr

/-- `_find_section` (conf_file.cpp:422-433); the section found as number of older ones. -/
def findSectionM (mem : Mem) (name : Txt) : List Sec → Res (Option Nat)
  | [] => .ok none
  | s :: ss => do
    if ← caseEqM mem name s.name then .ok (some ss.length) else findSectionM mem name ss

/-- `_find_config` (conf_file.cpp:409-420); the option found as its position. -/
def findConfigM (mem : Mem) (key : Txt) : List Opt → Res (Option Nat)
  | [] => .ok none
  | c :: cs => do
    if ← caseEqM mem key c.key then .ok (some 0)
    else
      let r ← findConfigM mem key cs
      .ok (r.map (· + 1))

/-- The loop over the characters of a section name (conf_file.cpp:186-206); `n` is `end - p`. -/
def spacesM (mem : Mem) (seen : Bool) (p : Ptr) : Nat → Res Bool
  | 0 => .ok true
  | n + 1 => do
    let b ← rd mem p
    if isSpaceB b then (if b ≠ 32 then .ok false else if seen then .ok false else spacesM mem true (p.add 1) n)
    else spacesM mem seen (p.add 1) n

/-- `_add_section` (conf_file.cpp:161-220).  `end - 1` is before the line if it begins with ']', which
the caller excludes. -/
def addSectionM (mem : Mem) (ss : List Sec) (l : Txt) : Res (List Sec × Nat) := do
  match ← memchrM mem 93 l.p l.len with
  | none => .err
  | some e =>
    if e < l.len - 1 then .err
    else if e = 0 then .ub
    else
      let x ← rd mem (l.p.add (e - 1))
      let y ← if isSpaceB x then .ok x else rd mem (l.p.add 1)
      if isSpaceB x || isSpaceB y then .err
      else if !(← spacesM mem false l.p e) then .err
      else
        let name : Txt := ⟨l.p.add 1, l.len - 2⟩
        match ← findSectionM mem name ss with
        | some k => .ok (ss, k)
        | none => if name.len > maxSectionName then .err else .ok ({ name } :: ss, ss.length)

/-- `_add_config` (conf_file.cpp:222-264). -/
def addConfigM (mem : Mem) (cs : List Opt) (l : Txt) : Res (List Opt) := do
  match ← memchrM mem 61 l.p l.len with
  | none => .err
  | some e =>
    if e = 0 then .err
    else if e = l.len - 1 then .err
    else
      let key ← trimM mem ⟨l.p, e⟩
      let value ← trimM mem ⟨l.p.add (e + 1), l.len - e - 1⟩
      match ← findConfigM mem key cs with
      | some i => .ok (cs.modify i fun c => { c with value })
      | none => .ok ({ key, value } :: cs)

/-- The options of the section a pointer designates. -/
def optsAt (k : Nat) : List Sec → Option (List Opt)
  | [] => none
  | s :: ss => if ss.length = k then some s.configs else optsAt k ss

/-- Give the section a pointer designates new options. -/
def setOpts (k : Nat) (cs : List Opt) : List Sec → List Sec
  | [] => []
  | s :: ss => if ss.length = k then { s with configs := cs } :: ss else s :: setOpts k cs ss

/-- `_sections` and the pointer `s` (conf_file.cpp:111). -/
structure State where
  sections : List Sec
  cur : Option Nat
deriving DecidableEq, Repr

/-- One line (conf_file.cpp:113-152).  A pointer `s` to no section cannot be followed. -/
def lineM (mem : Mem) (st : State) (line : Txt) : Res State := do
  if line.len > intMax then .err
  else
    let t ← trimM mem line
    if t.len = 0 then .ok st
    else
      let b ← rd mem t.p
      if b = 59 ∨ b = 35 then .ok st
      else if b = 91 then
        let (ss, k) ← addSectionM mem st.sections t
        .ok { sections := ss, cur := some k }
      else
        match st.cur with
        | none => .err
        | some k =>
          match optsAt k st.sections with
          | none => .ub
          | some cs =>
            let cs ← addConfigM mem cs t
            .ok { st with sections := setOpts k cs st.sections }

/-- The loop of `_parse_file` (conf_file.cpp:112-156): sections afterwards and whether it succeeded.
`fuel` bounds the number of lines; running out of it counts as undefined behaviour. -/
def parseLoop (mem : Mem) (st : State) (addr : Ptr) (len : Nat) : Nat → Res (List Sec × Bool)
  | 0 => .ub
  | fuel + 1 =>
    match memchrM mem 10 addr len with
    | .ub => .ub
    | .err => .err
    | .ok none => .ok (st.sections, true)
    | .ok (some e) =>
      match lineM mem st ⟨addr, e⟩ with
      | .ub => .ub
      | .err => .ok (st.sections, false)
      | .ok st => parseLoop mem st (addr.add (e + 1)) (len - e - 1) fuel

/-- `ConfFile::parse` (conf_file.cpp:65-103) of a readable file, which becomes a new object; `mmap` of an
empty file fails. -/
def parseM (mem : Mem) (ss : List Sec) (content : List UInt8) : Mem × Res (List Sec × Bool) :=
  if content = [] then (mem, .ok (ss, false))
  else
    let mem' := mem ++ [content]
    (mem', parseLoop mem' { sections := ss, cur := none } ⟨mem.length, 0⟩ content.length (content.length + 1))

/-- Several files (main.cpp:536-587); the caller stops at the first one with an error. -/
def parseAllM (mem : Mem) (ss : List Sec) : List (List UInt8) → Mem × Res (List Sec)
  | [] => (mem, .ok ss)
  | f :: fs =>
    match parseM mem ss f with
    | (mem, .ub) => (mem, .ub)
    | (mem, .err) => (mem, .err)
    | (mem, .ok (_, false)) => (mem, .err)
    | (mem, .ok (ss, true)) => parseAllM mem ss fs

/-- An entry of an option table (conf_file.h:49-58): the key, a literal; whether it is required; whether
its parser copies the value to the stack (`strndupa` in `parse_uint8_vector`, `parse_uint32_vector`,
`parse_i`, `parse_ul`, `parse_ull` and, if the value is not a word, `parse_bool`: conf_file.cpp:530, 554,
587, 610). -/
structure Entry where
  key : Txt
  required : Bool
  copies : Bool
deriving DecidableEq, Repr

/-- A parser (conf_file.cpp:466-618): `assert(val_len)`; the value, all of which may be read, is copied to
the stack if the parser uses `strndupa`, which takes its length up to a NUL and one byte more, of the
`stack` bytes left; then it is taken or refused (`accept`). -/
def parserM (mem : Mem) (stack : Nat) (accept : List UInt8 → Bool) (e : Entry) (v : Txt) : Res Unit :=
  if v.len = 0 then .ub
  else
    match mem[v.p.blk]? with
    | none => .ub
    | some f =>
      if v.p.off + v.len > f.length then .ub
      else
        let val := (f.drop v.p.off).take v.len
        if e.copies ∧ (cstrB val).length + 1 > stack then .ub
        else if accept val then .ok () else .err

/-- `_extract_options_from_section` (conf_file.cpp:340-372).  `accept` is the parser of each key. -/
def extractM (mem : Mem) (stack : Nat) (accept : Entry → List UInt8 → Bool) (s : Sec) : List Entry → Res Unit
  | [] => .ok ()
  | e :: es =>
    match findConfigM mem e.key s.configs with
    | .ub => .ub
    | .err => .err
    | .ok none => if e.required then .err else extractM mem stack accept s es
    | .ok (some i) =>
      match s.configs[i]? with
      | none => .ub
      | some c =>
        match parserM mem stack (accept e) e c.value with
        | .ub => .ub
        | .err => .err
        | .ok () => extractM mem stack accept s es

end Verif.ConfMem
