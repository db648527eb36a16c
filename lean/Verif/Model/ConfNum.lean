import Verif.Model.Conf

/-
Numbers in configuration values and arguments: /repo/src/common/util.cpp:49-110 and the `parse_*`
functions of /repo/src/common/conf_file.cpp:519-616.

`unsigned long` and `long` have 64 bits, `int` 32.  `strtoul` and `strtol` are those of C17 (newer C
libraries also read the prefix `0b`).  `errno` is compared only with 0.  `strndupa` copies up to the
first NUL; a value from a configuration file never exceeds `INT_MAX` bytes (conf_file.cpp:118).
-/

namespace Verif

/-- Value of a digit in bases up to 16. -/
def digitVal (b : UInt8) : Option Nat :=
  if 48 ≤ b ∧ b ≤ 57 then some (b.toNat - 48)
  else if 97 ≤ b ∧ b ≤ 102 then some (b.toNat - 87)
  else if 65 ≤ b ∧ b ≤ 70 then some (b.toNat - 55)
  else none

/-- Value of a digit of a base. -/
def digitIn (base : Nat) (b : UInt8) : Option Nat :=
  match digitVal b with
  | some d => if d < base then some d else none
  | none => none

/-- The digits at the start of a text, added to a number. -/
def scanDigits (base : Nat) (acc : Nat) : List UInt8 → Nat × List UInt8
  | [] => (acc, [])
  | b :: bs =>
    match digitIn base b with
    | some d => scanDigits base (acc * base + d) bs
    | none => (acc, b :: bs)

/-- What `strtol` and `strtoul` recognise: sign, magnitude, remaining text. -/
structure NumScan where
  neg : Bool
  mag : Nat
  rest : List UInt8
deriving DecidableEq, Repr

/-- The optional sign. -/
def scanSign : List UInt8 → Bool × List UInt8
  | 45 :: t => (true, t)
  | 43 :: t => (false, t)
  | t => (false, t)

/-- The prefix that selects the base, if the base is given as 0: `0x` before a hexadecimal digit, else
`0`. -/
def scanBase (base : Nat) (s : List UInt8) : Nat × List UInt8 :=
  if base ≠ 0 then (base, s)
  else
    match s with
    | 48 :: x :: d :: t => if (x = 120 ∨ x = 88) ∧ (digitIn 16 d).isSome then (16, d :: t) else (8, s)
    | 48 :: _ => (8, s)
    | _ => (10, s)

/-- `strtol`/`strtoul` without the range check; `none`: no digits, the end pointer is the start. -/
def scanNum (base : Nat) (s : List UInt8) : Option NumScan :=
  let sg := scanSign (s.dropWhile isSpaceB)
  let bs := scanBase base sg.2
  match bs.2 with
  | [] => none
  | b :: _ =>
    if (digitIn bs.1 b).isSome then
      let r := scanDigits bs.1 0 bs.2
      some { neg := sg.1, mag := r.1, rest := r.2 }
    else none

/-- `safe_atoul` (util.cpp:49-67) and `safe_atoull` (util.cpp:69-87); `none`: negative result and the
target is not written. -/
def safeAtoul (s : List UInt8) : Option Nat :=
  match scanNum 0 s with
  | none => none
  | some n =>
    if n.rest ≠ [] then none
    else if n.mag ≥ 2 ^ 64 then none
    else some (if n.neg then (2 ^ 64 - n.mag) % 2 ^ 64 else n.mag)

/-- `safe_atoi` (util.cpp:89-110). -/
def safeAtoi (s : List UInt8) : Option Int :=
  match scanNum 0 s with
  | none => none
  | some n =>
    if n.rest ≠ [] then none
    else
      let v : Int := if n.neg then - (n.mag : Int) else n.mag
      if v < - 2 ^ 63 ∨ v ≥ 2 ^ 63 then none
      else if v < - 2 ^ 31 ∨ v ≥ 2 ^ 31 then none
      else some v

/-- `strtol(s, NULL, 10)`, the value behind `atoi` and `atol`: saturates. -/
def strtol10 (s : List UInt8) : Int :=
  match scanNum 10 s with
  | none => 0
  | some n =>
    let v : Int := if n.neg then - (n.mag : Int) else n.mag
    if v ≥ 2 ^ 63 then 2 ^ 63 - 1 else if v < - 2 ^ 63 then - 2 ^ 63 else v

/-- Tokens of `strtok(s, ",")` (conf_file.cpp:533-537): maximal runs without the separator. -/
def strtokGo (acc : List UInt8) : List UInt8 → List (List UInt8)
  | [] => if acc = [] then [] else [acc.reverse]
  | b :: bs =>
    if b = 44 then (if acc = [] then strtokGo [] bs else acc.reverse :: strtokGo [] bs)
    else strtokGo (b :: acc) bs

/-- The tokens of a text. -/
def strtokB (s : List UInt8) : List (List UInt8) := strtokGo [] s

/-- `parse_uint8_vector` (conf_file.cpp:519-540), appended to the vector: `atoi` of each token,
truncated by `push_back`. -/
def parseU8s (val : List UInt8) (v : List UInt8) : List UInt8 :=
  v ++ (strtokB (cstrB val)).map fun t => UInt8.ofNat (strtol10 t % 256).toNat

/-- `parse_uint32_vector` (conf_file.cpp:542-564). -/
def parseU32s (val : List UInt8) (v : List Nat) : List Nat :=
  v ++ (strtokB (cstrB val)).map fun t => (strtol10 t % 4294967296).toNat

/-- `parse_ul` (conf_file.cpp:596-616). -/
def parseUl (val : List UInt8) : Option Nat := safeAtoul (cstrB val)

/-- `parse_i` (conf_file.cpp:596-616). -/
def parseI (val : List UInt8) : Option Int := safeAtoi (cstrB val)

/-- `parse_bool` (conf_file.cpp:566-594). -/
def parseBool (val : List UInt8) : Option Bool :=
  if memCaseEq (ascii "true") val then some true
  else if memCaseEq (ascii "false") val then some false
  else (parseI val).map fun i => i != 0

end Verif
