/-
The log directory: names of log files, the choice of a new name, the automatic deletion of
old logs and the marking of unfinished logs.  Model of /repo/src/logendpoint.cpp:105-355 and
of the file related part of `LogEndpoint::start` / `stop` (357-433).

A file name is a list of characters standing for the bytes of `d_name`.
-/
import Verif.Model.Crc

namespace Verif

/-- What `stat`/`fstatat` reports as file type (`S_ISREG`, `S_ISDIR`), logendpoint.cpp:132, 199. -/
inductive FKind where
  | reg
  | dir
  | other
deriving DecidableEq, Repr

/-- A directory entry together with what `stat()` reports for it.  `stat` is false if `stat()`
fails for it (for example a dangling link); `ownerW` is the bit `S_IWUSR`; `st_size` is the
length of `data`.  logendpoint.cpp:115-137, 181-206. -/
structure Entry where
  name : List Char
  stat : Bool := true
  kind : FKind := .reg
  ownerW : Bool := true
  data : List UInt8 := []
deriving DecidableEq, Repr

/-- `isspace` in the C locale: the white space `%u` skips.  Used by the `sscanf` calls at
logendpoint.cpp:119, 184-192, 271. -/
def isSpaceC (c : Char) : Bool :=
  c == ' ' || c == '\t' || c == '\n' || c == '\r' || c == Char.ofNat 11 || c == Char.ofNat 12

/-- A decimal digit, as accepted by `%u` (logendpoint.cpp:119, 184, 271). -/
def isDig (c : Char) : Bool := 48 ≤ c.toNat && c.toNat ≤ 57

/-- Value of a digit string read left to right. -/
def decVal (l : List Char) : Nat := l.foldl (fun n c => 10 * n + (c.toNat - 48)) 0

/-- The conversion of the characters collected by `%u`: `strtoul` (saturating at `ULONG_MAX`,
negating modulo 2^64) truncated to `unsigned int`.  Used by logendpoint.cpp:119, 184, 271. -/
def convU (neg : Bool) (n : Nat) : UInt32 :=
  if n < 2 ^ 64 then
    if neg then UInt32.ofNat (2 ^ 64 - n) else UInt32.ofNat n
  else UInt32.ofNat (2 ^ 64 - 1)

/-- The optional sign `%u` accepts (logendpoint.cpp:119, 184, 271). -/
def takeSign : List Char → Bool × List Char
  | '-' :: l => (true, l)
  | '+' :: l => (false, l)
  | l => (false, l)

/-- One `%u` conversion of `sscanf`: skip white space, optional sign, at least one digit.
Returns the value and the rest of the input (logendpoint.cpp:119, 184, 271). -/
def scanU (s : List Char) : Option (UInt32 × List Char) :=
  let sg := takeSign (s.dropWhile isSpaceC)
  let ds := sg.2.takeWhile isDig
  if ds.isEmpty then none
  else some (convU sg.1 (decVal ds), sg.2.dropWhile isDig)

/-- A literal character of a `sscanf` pattern (logendpoint.cpp:185). -/
def scanLit (c : Char) : List Char → Option (List Char)
  | d :: l => if d = c then some l else none
  | [] => none

/-- `sscanf(name, "%u-", &u) == 1`: only the conversion counts, a missing `-` does not change
the result (logendpoint.cpp:119, 271). -/
def scanPrefix (name : List Char) : Option UInt32 := (scanU name).map (·.1)

/-- The conversions following the first one: for each separator, the literal and a `%u`. -/
def scanSeps : List Char → List Char → Option (List Char)
  | [], s => some s
  | c :: cs, s =>
    match scanLit c s with
    | none => none
    | some s1 =>
      match scanU s1 with
      | none => none
      | some (_, s2) => scanSeps cs s2

/-- `sscanf(name, "%u-%u-%u-%u_%u-%u-%u.", …) == 7`; the final `.` does not change the result
(logendpoint.cpp:184-193).  Returns the first number. -/
def scanLog (name : List Char) : Option UInt32 :=
  match scanU name with
  | none => none
  | some (i, s) => (scanSeps ['-', '-', '-', '_', '-', '-'] s).map fun _ => i

/-- The date fields of `struct tm` as printed (`tm_year + 1900`, `tm_mon + 1`, …),
logendpoint.cpp:300-301, 322-328.  `localtime` failing (null pointer) is not modelled. -/
structure Date where
  year : Int
  mon : Nat
  day : Nat
  hour : Nat
  min : Nat
  sec : Nat
deriving DecidableEq, Repr

/-- A decimal digit character. -/
def digC (n : Nat) : Char := Char.ofNat (48 + n)

/-- `%u`/`%i` output of a natural number (logendpoint.cpp:320). -/
def decimal (n : Nat) : List Char :=
  if n < 10 then [digC n] else decimal (n / 10) ++ [digC (n % 10)]

/-- `%0wu`: padded with zeros to width `w` (logendpoint.cpp:320). -/
def padded (w n : Nat) : List Char :=
  List.replicate (w - (decimal n).length) '0' ++ decimal n

/-- `%i` output of an integer (logendpoint.cpp:320). -/
def decimalI (i : Int) : List Char :=
  if i < 0 then '-' :: decimal i.natAbs else decimal i.natAbs

/-- The file name built by `_get_file`, `"%05u-%i-%02i-%02i_%02i-%02i-%02i.%s"`
(logendpoint.cpp:318-329). -/
def logName (i : UInt32) (t : Date) (ext : List Char) : List Char :=
  padded 5 i.toNat ++ '-' :: decimalI t.year ++ '-' :: padded 2 t.mon ++ '-' :: padded 2 t.day
    ++ '_' :: padded 2 t.hour ++ '-' :: padded 2 t.min ++ '-' :: padded 2 t.sec ++ '.' :: ext

/-- One round of the loop of `_get_prefix` (logendpoint.cpp:270-275). -/
def prefixStep (p : UInt32) (e : Entry) : UInt32 :=
  match scanPrefix e.name with
  | some u => if u ≥ p ∧ u < 4294967295 then u + 1 else p
  | none => p

/-- `LogEndpoint::_get_prefix` (logendpoint.cpp:264-278) on the entries in `readdir` order. -/
def getPrefix (d : List Entry) : UInt32 := d.foldl prefixStep 0

/-- `MAX_RETRIES` (logendpoint.cpp:46). -/
def maxRetries : Nat := 10

/-- `sizeof(_filename)` (logendpoint.h:108). -/
def filenameSize : Nat := 64

/-- What the system does during `_get_file`: entries created by other processes just before the
`j`-th `openat`, and whether that `openat` fails for a reason other than `EEXIST`
(logendpoint.cpp:316-341). -/
structure OpenEnv where
  others : Nat → List Entry
  fails : Nat → Bool

/-- The loop of `_get_file` from attempt `j` on, `n` attempts left (logendpoint.cpp:317-354).
`openat(… O_CREAT | O_EXCL …, 0644)` creates the file only if the name does not exist.  Returns
the directory and the name of the created file, if any. -/
def tryOpen (env : OpenEnv) (i : UInt32) (t : Date) (ext : List Char) :
    Nat → Nat → List Entry → List Entry × Option (List Char)
  | 0, _, d => (d, none)
  | n + 1, j, d =>
    let name := logName (i + UInt32.ofNat j) t ext
    if name.length ≥ filenameSize then (d, none)
    else
      let d := d ++ env.others j
      if env.fails j then (d, none)
      else if d.any (fun e => e.name == name) then tryOpen env i t ext n (j + 1) d
      else (d ++ [{ name := name }], some name)

/-- `LogEndpoint::_get_file` (logendpoint.cpp:298-355) once the directory is open. -/
def getFile (env : OpenEnv) (t : Date) (ext : List Char) (d : List Entry) :
    List Entry × Option (List Char) :=
  tryOpen env (getPrefix d) t ext (maxRetries + 1) 0 d

/-- `chmod(log_file, S_IRUSR | S_IRGRP | S_IROTH)` on the entry of that name
(logendpoint.cpp:134, 384). -/
def chmodRO (name : List Char) (d : List Entry) : List Entry :=
  d.map fun e => if e.name = name then { e with ownerW := false } else e

/-- `LogEndpoint::mark_unfinished_logs` (logendpoint.cpp:105-139) with the directory readable.
`fits name` says that directory and name fit `PATH_MAX` (124-127); `chmod` is assumed to
succeed. -/
def markUnfinished (fits : List Char → Bool) (d : List Entry) : List Entry :=
  d.map fun e =>
    if (scanPrefix e.name).isSome && fits e.name && e.stat && (e.kind == .reg) && e.ownerW then
      { e with ownerW := false }
    else e

/-! ## Deletion of old logs -/

/-- Outcome of `statvfs` (logendpoint.cpp:146-155): free bytes, `ENOENT`, another error. -/
inductive VfsRes where
  | free (b : UInt64)
  | noent
  | fail
deriving DecidableEq, Repr

/-- The two limits of the configuration (logendpoint.h:45-46). -/
structure Limits where
  minFree : UInt64
  maxFiles : UInt64
deriving DecidableEq, Repr

/-- Signed reading of a 64 bit word (`int64_t`, `ssize_t`). -/
def sgn (w : UInt64) : Int := if w.toNat < 2 ^ 63 then w.toNat else w.toNat - 2 ^ 64

/-- `file_map[idx] = …` on the ordered map (logendpoint.cpp:202). -/
def mapSet (k : Nat) (e : Entry) : List (Nat × Entry) → List (Nat × Entry)
  | [] => [(k, e)]
  | (k', e') :: m =>
    if k < k' then (k, e) :: (k', e') :: m
    else if k = k' then (k, e) :: m
    else (k', e') :: mapSet k e m

/-- Is the entry put in the map (logendpoint.cpp:184-203): name matched, `fstatat` succeeds, not
a directory, not writable by its owner. -/
def candidate (e : Entry) : Option Nat :=
  match scanLog e.name with
  | some i => if e.stat && (e.kind != .dir) && !e.ownerW then some i.toNat else none
  | none => none

/-- One round of the gathering loop (logendpoint.cpp:181-206). -/
def gatherStep (m : List (Nat × Entry)) (e : Entry) : List (Nat × Entry) :=
  match candidate e with
  | some i => mapSet i e m
  | none => m

/-- The gathering loop (logendpoint.cpp:181-206). -/
def gather (d : List Entry) : List (Nat × Entry) := d.foldl gatherStep []

/-- `files_to_delete` before the loop (logendpoint.cpp:212-213). -/
def filesToDelete (lim : Limits) (n : Nat) : UInt64 :=
  if lim.maxFiles > 0 then UInt64.ofNat n - lim.maxFiles else 0xFFFFFFFFFFFFFFFF

/-- What the system does during the deletion: whether a path fits `PATH_MAX` and whether
`remove` succeeds (logendpoint.cpp:228-241). -/
structure RmEnv where
  fits : List Char → Bool
  removes : List Char → Bool

/-- The deletion loop (logendpoint.cpp:221-249).  The result lists the calls of `remove` in
order with their success; `none` is the overflow of `files_to_delete--` at the smallest
`ssize_t`, which is undefined. -/
def delLoop (env : RmEnv) : List (Nat × Entry) → UInt64 → UInt64 → Option (List (Entry × Bool))
  | [], _, _ => some []
  | (_, e) :: m, bytes, files =>
    if sgn bytes ≤ 0 ∧ sgn files ≤ 0 then some []
    else if !env.fits e.name then delLoop env m bytes files
    else if env.removes e.name then
      if files = 0x8000000000000000 then none
      else
        (delLoop env m (bytes - UInt64.ofNat e.data.length) (files - 1)).map fun l => (e, true) :: l
    else (delLoop env m bytes files).map fun l => (e, false) :: l

/-- The free space value used after `statvfs` (logendpoint.cpp:146-155); `none` is the early
return. -/
def VfsRes.space : VfsRes → Option UInt64
  | .free b => some b
  | .noent => none
  | .fail => some 0xFFFFFFFFFFFFFFFF

/-- `LogEndpoint::_delete_old_logs` (logendpoint.cpp:141-262): the calls of `remove`, or `none`
for undefined behaviour.  `dirOk` is false if `opendir`/`dirfd` fails (166-177). -/
def deleteCalls (lim : Limits) (vfs : VfsRes) (dirOk : Bool) (env : RmEnv) (d : List Entry) :
    Option (List (Entry × Bool)) :=
  match vfs.space with
  | none => some []
  | some free =>
    if free > lim.minFree ∧ lim.maxFiles = 0 then some []
    else if !dirOk then some []
    else
      delLoop env (gather d) (lim.minFree - free) (filesToDelete lim (gather d).length)

/-- Effect of the successful calls of `remove` on the directory. -/
def applyRemoves (calls : List (Entry × Bool)) (d : List Entry) : List Entry :=
  d.filter fun e => !calls.any fun c => c.2 && c.1.name == e.name

/-! ## Histories of the log directory -/

/-- The log endpoints of one run share the directory; `file e` is the log file open in log
endpoint `e` (`_file != -1`, then `_filename`; logendpoint.h:74, 108). -/
structure LogFs where
  dir : List Entry
  file : Nat → Option (List Char)

/-- The environment of one call of `LogEndpoint::start` (logendpoint.cpp:388-433). -/
structure StartEnv where
  vfs : VfsRes
  dirOk : Bool
  rm : RmEnv
  openEnv : OpenEnv
  date : Date
  timers : Bool

/-- `LogEndpoint::start` (logendpoint.cpp:388-433) as far as files are concerned: nothing if a
log is open; delete old logs; create a file; if a timer cannot be created the file is closed and
left as it is (425-432).  `none` is undefined behaviour. -/
def LogFs.start (lim : Limits) (ext : List Char) (env : StartEnv) (e : Nat) (s : LogFs) :
    Option LogFs :=
  if (s.file e).isSome then some s
  else
    match deleteCalls lim env.vfs env.dirOk env.rm s.dir with
    | none => none
    | some calls =>
      let r := getFile env.openEnv env.date ext (applyRemoves calls s.dir)
      match r.2 with
      | some name =>
        if env.timers then
          some { dir := r.1, file := fun k => if k = e then some name else s.file k }
        else some { s with dir := r.1 }
      | none => some { s with dir := r.1 }

/-- `LogEndpoint::stop` with its guard `_file == -1` in the derived classes
(logendpoint.cpp:357-386, ulog.cpp:79-82, binlog.cpp:61-64, tlog.cpp:51-54).  `fits` is the
`PATH_MAX` test (382). -/
def LogFs.stop (fits : List Char → Bool) (e : Nat) (s : LogFs) : LogFs :=
  match s.file e with
  | none => s
  | some name =>
    { dir := if fits name then chmodRO name s.dir else s.dir
      file := fun k => if k = e then none else s.file k }

/-- Any `write`/`lseek` on the open file of endpoint `e` replaces its content by a new one
(ulog.cpp:316-346, binlog.cpp:198-205, tlog.cpp:74-75). -/
def LogFs.write (e : Nat) (f : List UInt8 → List UInt8) (s : LogFs) : LogFs :=
  match s.file e with
  | none => s
  | some name =>
    { s with dir := s.dir.map fun x => if x.name = name then { x with data := f x.data } else x }

/-- What happens to the log directory: a log endpoint starts, writes or stops, or the router
process ends at that point (normally, by a crash or by loss of power) and is started again,
which marks unfinished logs (mainloop.cpp:441, 446). -/
inductive FsEv where
  | start (e : Nat) (ext : List Char) (env : StartEnv)
  | write (e : Nat) (f : List UInt8 → List UInt8)
  | stop (e : Nat)
  | boot

/-- One event of a history. -/
def LogFs.step (lim : Limits) (fits : List Char → Bool) (s : LogFs) : FsEv → Option LogFs
  | .start e ext env => s.start lim ext env e
  | .write e f => some (s.write e f)
  | .stop e => some (s.stop fits e)
  | .boot => some { dir := markUnfinished fits s.dir, file := fun _ => none }

/-- A history of events. -/
def LogFs.run (lim : Limits) (fits : List Char → Bool) (s : LogFs) : List FsEv → Option LogFs
  | [] => some s
  | ev :: evs =>
    match s.step lim fits ev with
    | none => none
    | some s' => s'.run lim fits evs

end Verif
