/-
`mkdir_p` (src/common/util.cpp:112-177) on its buffer: the copy of the path with its terminator, in
which slashes are replaced by NUL and put back.
-/

namespace Verif

/-- Result of `is_dir` (util.cpp:112-121): 1, 0, negative. -/
inductive StatRes where
  | dir
  | other
  | fail
deriving DecidableEq, Repr

/-- Result of `mkdir`; `err` carries any `errno` but EEXIST. -/
inductive MkRes where
  | ok
  | present
  | err (errno : Nat)
deriving DecidableEq, Repr

/-- Result of `mkdir_p`: 0, -ENOTDIR, `-errno` of `mkdir`.  `ub` is reading a string without
terminator inside the buffer, `loop` that it does not end; neither can happen, as is proved. -/
inductive MkdirRes where
  | ub
  | loop
  | notDir
  | err (errno : Nat)
  | ok
deriving DecidableEq, Repr

/-- The C string at an offset of the buffer; `none` without terminator. -/
def cstrAt (buf : List UInt8) (i : Nat) : Option (List UInt8) :=
  if (0 : UInt8) ∈ buf.drop i then some ((buf.drop i).takeWhile (· != 0)) else none

/-- `while (end > start && *end != '/') end--` (util.cpp:158-160). -/
def toSlash (buf : List UInt8) : Nat → Nat
  | 0 => 0
  | e + 1 => if buf[e + 1]? = some 47 then e + 1 else toSlash buf e

/-- `while (end > start && *(end - 1) == '/') end--` (util.cpp:162-164). -/
def skipSlashes (buf : List UInt8) : Nat → Nat
  | 0 => 0
  | e + 1 => if buf[e]? = some 47 then skipSlashes buf e else e + 1

/-- End of the scan: a result, or buffer and `end` for the creation. -/
inductive ScanRes where
  | result (r : MkdirRes)
  | create (buf : List UInt8) (e : Nat)
deriving DecidableEq, Repr

/-- The scan (util.cpp:134-165).  `len` is the length of the path; the fuel bounds the iterations. -/
def mkScan (stat : List UInt8 → StatRes) (len : Nat) : Nat → List UInt8 → Nat → ScanRes
  | 0, _, _ => .result .loop
  | n + 1, buf, e =>
    match cstrAt buf 0 with
    | none => .result .ub
    | some s =>
      match stat s with
      | .dir =>
        match cstrAt buf e with
        | none => .result .ub
        | some t => if e + t.length = len then .result .ok else .create (buf.set (e + t.length) 47) (e + t.length)
      | .other => .result .notDir
      | .fail =>
        if e = 0 then .create buf e
        else mkScan stat len n (buf.set e 0) (skipSlashes (buf.set e 0) (toSlash (buf.set e 0) e))

/-- The creation (util.cpp:167-176). -/
def mkCreate {σ : Type} (mkdir : σ → List UInt8 → σ × MkRes) (len : Nat) : Nat → σ → List UInt8 → Nat → σ × MkdirRes
  | 0, fs, _, _ => (fs, .loop)
  | n + 1, fs, buf, e =>
    if e < len then
      match cstrAt buf 0 with
      | none => (fs, .ub)
      | some s =>
        match mkdir fs s with
        | (fs, .err x) => (fs, .err x)
        | (fs, _) =>
          match cstrAt buf e with
          | none => (fs, .ub)
          | some t => mkCreate mkdir len n fs (buf.set (e + t.length) 47) (e + t.length)
    else (fs, .ok)

/-- `mkdir_p` (util.cpp:123-177) for a path without NUL and its length, on a file system with state
`σ`; the mode is not modelled. -/
def mkdirP {σ : Type} (stat : σ → List UInt8 → StatRes) (mkdir : σ → List UInt8 → σ × MkRes) (fs : σ)
    (path : List UInt8) : σ × MkdirRes :=
  match mkScan (stat fs) path.length (path.length + 2) (path ++ [0]) path.length with
  | .result r => (fs, r)
  | .create buf e => mkCreate mkdir path.length (path.length + 2) fs buf e

end Verif
