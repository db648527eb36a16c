/-
Configuration files: /repo/src/common/conf_file.cpp, /repo/src/common/conf_file.h, the string helpers
of /repo/src/common/util.h.

Strings are byte lists.  `isspace` and `tolower` are those of the C locale (the program never calls
`setlocale`).  File names and line numbers are kept by the code for diagnostics only and are left
out.  Reads just behind a trimmed piece of text (`_trim` looks at `*s` before testing `s < end`) hit
the line's '\n' or '=' at the latest, inside the mapped file.
-/

namespace Verif

/-- Bytes of a string literal of the source. -/
def ascii (s : String) : List UInt8 := s.toList.map fun c => UInt8.ofNat c.toNat

/-- `isspace` (used in conf_file.cpp:177-203, 266-281). -/
def isSpaceB (b : UInt8) : Bool := b == 32 || (9 ≤ b && b ≤ 13)

/-- `tolower`, applied by `strncasecmp` (conf_file.cpp:414, util.h:38-44). -/
def lowerB (b : UInt8) : UInt8 := if 65 ≤ b && b ≤ 90 then b + 32 else b

/-- `strncasecmp(a, b, n) == 0` for `n` the length of both: stops at a NUL
(conf_file.cpp:414, util.h:38-44). -/
def ncaseEq : List UInt8 → List UInt8 → Bool
  | [], [] => true
  | a :: as, b :: bs => lowerB a == lowerB b && (a == 0 || ncaseEq as bs)
  | _, _ => false

/-- `memcaseeq` (util.h:44); the comparison of keys in `_find_config` (conf_file.cpp:414). -/
def memCaseEq (a b : List UInt8) : Bool := a.length == b.length && ncaseEq a b

/-- `ConfFile::_trim` (conf_file.cpp:266-281). -/
def trimB (l : List UInt8) : List UInt8 := ((l.dropWhile isSpaceB).reverse.dropWhile isSpaceB).reverse

/-- `struct config` (conf_file.cpp:37-44). -/
structure CfgOpt where
  key : List UInt8
  value : List UInt8
deriving DecidableEq, Repr

/-- `struct section` (conf_file.cpp:46-51); `configs` newest first. -/
structure CfgSection where
  name : List UInt8
  configs : List CfgOpt := []
deriving DecidableEq, Repr

/-- `_find_section` (conf_file.cpp:422-433) in `_sections` (newest first).  The pointer returned is
represented by the number of older sections, which stays the same when sections are added. -/
def findSection (name : List UInt8) : List CfgSection → Option Nat
  | [] => none
  | s :: ss => if memCaseEq name s.name then some ss.length else findSection name ss

/-- The section a pointer designates. -/
def sectionAt (k : Nat) : List CfgSection → Option CfgSection
  | [] => none
  | s :: ss => if ss.length = k then some s else sectionAt k ss

/-- Change the section a pointer designates. -/
def updateSection (k : Nat) (f : CfgSection → CfgSection) : List CfgSection → List CfgSection
  | [] => []
  | s :: ss => if ss.length = k then f s :: ss else s :: updateSection k f ss

/-- `_find_config` (conf_file.cpp:409-420). -/
def findConfig (key : List UInt8) (cs : List CfgOpt) : Option CfgOpt := cs.find? fun c => memCaseEq key c.key

/-- `MAX_SECTION_NAME` (conf_file.cpp:35). -/
def maxSectionName : Nat := 100

/-- The loop over the characters of a section name (conf_file.cpp:186-206): no white space but
' ', and that at most once. -/
def spacesOk : Bool → List UInt8 → Bool
  | _, [] => true
  | seen, b :: bs =>
    if isSpaceB b then (if b != 32 then false else if seen then false else spacesOk true bs)
    else spacesOk seen bs

/-- `_add_section` (conf_file.cpp:161-220) for a trimmed line that starts with '['.  `none` is an
error. -/
def addSection (ss : List CfgSection) (l : List UInt8) : Option (List CfgSection × Nat) :=
  match l.findIdx? (· == 93) with
  | none => none
  | some e =>
    if e < l.length - 1 then none
    else if isSpaceB (l.getD (e - 1) 0) || isSpaceB (l.getD 1 0) then none
    else if !spacesOk false (l.take e) then none
    else
      let name := (l.drop 1).take (l.length - 2)
      match findSection name ss with
      | some k => some (ss, k)
      | none => if name.length > maxSectionName then none else some ({ name } :: ss, ss.length)

/-- Replace the value of the first option with this key (conf_file.cpp:253-258). -/
def setConfig (key value : List UInt8) : List CfgOpt → List CfgOpt
  | [] => []
  | c :: cs => if memCaseEq key c.key then { c with value } :: cs else c :: setConfig key value cs

/-- `_add_config` (conf_file.cpp:222-264) on the list of options of the section; `none` is an
error. -/
def addConfig (cs : List CfgOpt) (l : List UInt8) : Option (List CfgOpt) :=
  match l.findIdx? (· == 61) with
  | none => none
  | some e =>
    if e = 0 then none
    else if e = l.length - 1 then none
    else
      let key := trimB (l.take e)
      let value := trimB (l.drop (e + 1))
      match findConfig key cs with
      | some _ => some (setConfig key value cs)
      | none => some ({ key, value } :: cs)

/-- State while a file is parsed: `_sections` and the pointer `s` (conf_file.cpp:111). -/
structure CfgState where
  sections : List CfgSection
  cur : Option Nat
deriving DecidableEq, Repr

/-- `INT_MAX` (conf_file.cpp:118). -/
def intMax : Nat := 2147483647

/-- One line (conf_file.cpp:113-152), without its '\n'; `none` is an error. -/
def confLine (st : CfgState) (line : List UInt8) : Option CfgState :=
  if line.length > intMax then none
  else
    match trimB line with
    | [] => some st
    | b :: bs =>
      if b = 59 ∨ b = 35 then some st
      else if b = 91 then
        match addSection st.sections (b :: bs) with
        | none => none
        | some (ss, k) => some { sections := ss, cur := some k }
      else
        match st.cur with
        | none => none
        | some k =>
          match (sectionAt k st.sections).bind fun s => addConfig s.configs (b :: bs) with
          | none => none
          | some cs => some { st with sections := updateSection k (fun s => { s with configs := cs }) st.sections }

/-- The lines the loop sees (conf_file.cpp:112, 154-155): `memchr` finds only text that ends with a
'\n'.  `acc` is the text since the last one, reversed. -/
def confLinesGo (acc : List UInt8) : List UInt8 → List (List UInt8)
  | [] => []
  | b :: bs => if b = 10 then acc.reverse :: confLinesGo [] bs else confLinesGo (b :: acc) bs

/-- The lines of a file. -/
def confLines (bs : List UInt8) : List (List UInt8) := confLinesGo [] bs

/-- The loop of `_parse_file` (conf_file.cpp:112-156): sections afterwards, and whether it
succeeded. -/
def parseLines : CfgState → List (List UInt8) → List CfgSection × Bool
  | st, [] => (st.sections, true)
  | st, l :: ls =>
    match confLine st l with
    | none => (st.sections, false)
    | some st => parseLines st ls

/-- `ConfFile::parse` (conf_file.cpp:65-103) of a readable file: `mmap` of an empty file fails. -/
def parseConf (ss : List CfgSection) (content : List UInt8) : List CfgSection × Bool :=
  if content = [] then (ss, false) else parseLines { sections := ss, cur := none } (confLines content)

/-- Several files one after the other (main.cpp:536-587), going on after an error; the caller stops
at the first error. -/
def parseConfs (ss : List CfgSection) (files : List (List UInt8)) : List CfgSection :=
  files.foldl (fun ss f => (parseConf ss f).1) ss

/-- The value `_find_section` and `_find_config` give for a section and key, as used by
`extract_options` (conf_file.cpp:340-407). -/
def confValue (ss : List CfgSection) (sec key : List UInt8) : Option (List UInt8) :=
  match findSection sec ss with
  | none => none
  | some k => ((sectionAt k ss).bind fun s => findConfig key s.configs).map (·.value)

/-- Result of `get_sections`; `ub`: write outside `section_name` (conf_file.cpp:435-464). -/
inductive IterRes where
  | ub
  | done
  | found (s : CfgSection) (rest : List CfgSection)
deriving DecidableEq, Repr

/-- Text up to the first NUL: a C string in a buffer. -/
def cstrB (l : List UInt8) : List UInt8 := l.takeWhile (· != 0)

/-- `fnmatch(pattern, name, FNM_CASEFOLD) == 0` for a pattern of literal characters followed by
`*`; the patterns used are `"uartendpoint *"`, `"udpendpoint *"`, `"tcpendpoint *"`
(endpoint.cpp:58, 79, 101, conf_file.cpp:453).  `pre` is the pattern without the star. -/
def fnPrefix (pre name : List UInt8) : Bool :=
  match pre, name with
  | [], _ => true
  | _ :: _, [] => false
  | a :: as, b :: bs => lowerB a == lowerB b && fnPrefix as bs

/-- `get_sections` (conf_file.cpp:435-464) from a position in the list: `section_name` has 100
bytes, and the terminating NUL is written at index `s->len`. -/
def getSections (pre : List UInt8) : List CfgSection → IterRes
  | [] => .done
  | s :: ss =>
    if s.name.length ≥ maxSectionName then .ub
    else if fnPrefix pre (cstrB s.name) then .found s ss
    else getSections pre ss

/-- A complete iteration, as in the loops of `parse_confs` (main.cpp:459-515): the sections visited,
`none` for undefined behaviour.  The fuel is the number of sections. -/
def visitSections (pre : List UInt8) : Nat → List CfgSection → Option (List CfgSection)
  | 0, _ => some []
  | n + 1, ss =>
    match getSections pre ss with
    | .ub => none
    | .done => some []
    | .found s rest => (visitSections pre n rest).map (s :: ·)

end Verif
