import Verif.Model.Config

/-
The command line and the configuration files: /repo/src/main.cpp:43-59, 95-403, 521-644.

Strings contain no NUL.  `getopt_long` is the one of glibc without `POSIXLY_CORRECT`: options and other
arguments can be mixed, `--` ends the options, long names can be shortened.  That it permutes `argv`
does not matter: parsing the permuted `argv` again gives the same options and arguments, so one model
serves both passes.
-/

namespace Verif

/-! ### Options -/

/-- `short_options` (main.cpp:59): the letter, and whether it takes an argument. -/
def shortOptions : List (UInt8 × Bool) :=
  [(104, false), (101, true), (114, false), (116, true), (99, true), (100, true), (108, true), (112, true),
   (103, true), (118, false), (86, true), (115, true), (84, true), (121, false)]

/-- `long_options` (main.cpp:43-57): name, whether it takes an argument, letter. -/
def longOptions : List (List UInt8 × Bool × UInt8) :=
  [(ascii "endpoints", true, 101), (ascii "conf-file", true, 99), (ascii "conf-dir", true, 100),
   (ascii "report_msg_statistics", false, 114), (ascii "tcp-port", true, 116), (ascii "tcp-endpoint", true, 112),
   (ascii "log", true, 108), (ascii "telemetry-log", false, 84), (ascii "debug-log-level", true, 103),
   (ascii "syslog", false, 121), (ascii "verbose", false, 118), (ascii "version", false, 86),
   (ascii "sniffer-sysid", true, 115)]

/-- What one call of `getopt_long` returns: a letter with `optarg`, or '?'. -/
inductive OptEvent where
  | opt (c : UInt8) (arg : List UInt8)
  | bad
deriving DecidableEq, Repr

/-- Splitting `name=value`. -/
def splitEq : List UInt8 → List UInt8 × Option (List UInt8)
  | [] => ([], none)
  | b :: bs => if b = 61 then ([], some bs) else ((b :: (splitEq bs).1), (splitEq bs).2)

/-- Long option lookup: an exact match, else the only one that begins with the name. -/
def findLong (name : List UInt8) : Option (Bool × UInt8) :=
  match longOptions.find? (·.1 == name) with
  | some o => some o.2
  | none =>
    match longOptions.filter fun o => name.isPrefixOf o.1 with
    | [o] => some o.2
    | _ => none

/-- Result of one argument: events, and whether the last option still needs the next argument. -/
inductive ShortRes where
  | done (es : List OptEvent)
  | wants (es : List OptEvent) (c : UInt8)
deriving DecidableEq, Repr

/-- Put an event in front. -/
def ShortRes.push (e : OptEvent) : ShortRes → ShortRes
  | .done es => .done (e :: es)
  | .wants es c => .wants (e :: es) c

/-- An argument of short options, without the '-'. -/
def shortCluster : List UInt8 → ShortRes
  | [] => .done []
  | c :: cs =>
    match shortOptions.lookup c with
    | none => (shortCluster cs).push .bad
    | some false => (shortCluster cs).push (.opt c [])
    | some true => if cs = [] then .wants [] c else .done [.opt c cs]

/-- A long option, without the "--". -/
def longOption (t : List UInt8) : ShortRes :=
  match findLong (splitEq t).1 with
  | none => .done [.bad]
  | some (takes, c) =>
    match takes, (splitEq t).2 with
    | false, none => .done [.opt c []]
    | false, some _ => .done [.bad]
    | true, some v => .done [.opt c v]
    | true, none => .wants [] c

/-- Kinds of arguments. -/
inductive ArgKind where
  | stop
  | option (r : ShortRes)
  | plain
deriving DecidableEq, Repr

/-- Classification of an argument. -/
def argKind : List UInt8 → ArgKind
  | [45, 45] => .stop
  | 45 :: 45 :: t => .option (longOption t)
  | 45 :: c :: t => .option (shortCluster (c :: t))
  | _ => .plain

/-- `getopt_long` called until it returns -1 (main.cpp:159, 192), and the remaining arguments
(main.cpp:310): events and positional arguments. -/
def getopt : List (List UInt8) → List OptEvent × List (List UInt8)
  | [] => ([], [])
  | a :: rest =>
    match argKind a with
    | .stop => ([], rest)
    | .plain => ((getopt rest).1, a :: (getopt rest).2)
    | .option (.done es) => (es ++ (getopt rest).1, (getopt rest).2)
    | .option (.wants es c) =>
      match rest with
      | [] => (es ++ [.bad], [])
      | v :: rest => (es ++ .opt c v :: (getopt rest).1, (getopt rest).2)

/-! ### `parse_argv` -/

/-- `split_on_last_colon` (main.cpp:109-126): base, number (`ULONG_MAX` without colon), and the text
behind the colon, which stays in memory behind the terminating NUL of the base. -/
def splitOnLastColon (s : List UInt8) : Option (List UInt8 × Nat × List UInt8) :=
  match s.reverse.dropWhile (· != 58) with
  | [] => some (s, ulongMax, [])
  | _ :: base =>
    let suffix := (s.reverse.takeWhile (· != 58)).reverse
    (safeAtoul suffix).map fun n => (base.reverse, n, suffix)

/-- `atoi` (main.cpp:260, 346): conversion of the `long` to `int`. -/
def atoiC (s : List UInt8) : Int := (strtol10 s + 2 ^ 31) % 2 ^ 32 - 2 ^ 31

/-- `"CLI"`. -/
def cliName : List UInt8 := ascii "CLI"

/-- One option in `parse_argv` (main.cpp:193-306); `none`: it returns something other than 2. -/
def argvOption (c : Config) : OptEvent → Option Config
  | .bad => none
  | .opt 104 _ => none
  | .opt 101 a =>
    match splitOnLastColon a with
    | none => none
    | some (ip, port, _) =>
      let o : UdpConf := { name := cliName, mode := .client, address := ip
                           port := if port ≠ ulongMax then port else findNextUdpPort [] c.udp }
      if !o.valid then none else some { c with udp := c.udp ++ [o] }
  | .opt 114 _ => some { c with stats := true }
  | .opt 116 a => (safeAtoul a).map fun p => { c with tcpPort := p }
  | .opt 108 a => some { c with log := { c.log with dir := a } }
  | .opt 84 _ => some { c with log := { c.log with telemetry := true } }
  | .opt 103 a => (logLevel a).map fun l => { c with level := l }
  | .opt 118 _ => some { c with level := .debug }
  | .opt 115 a =>
    let id := (atoiC a % 65536).toNat
    if id = 0 ∨ id > 255 then none else some { c with sniffer := id }
  | .opt 112 a =>
    match splitOnLastColon a with
    | none => none
    | some (ip, port, _) =>
      let o : TcpConf := { name := cliName, address := ip, port }
      if port = ulongMax then none
      else if !o.valid then none else some { c with tcp := c.tcp ++ [o] }
  | .opt _ _ => some c

/-- A positional argument (main.cpp:309-358); `isChr` tells whether a path is a character device. -/
def argvPlain (isChr : List UInt8 → Bool) (c : Config) (a : List UInt8) : Option Config :=
  match splitOnLastColon a with
  | none => none
  | some (base, number, suffix) =>
    if !isChr base then
      let o : UdpConf := { name := cliName, mode := .server, address := base, port := number }
      if number = ulongMax then none
      else if !o.valid then none else some { c with udp := c.udp ++ [o] }
    else
      -- `push_back(atoi(..))` into a vector of 32-bit unsigned numbers
      let baud := if number ≠ ulongMax then (atoiC suffix % 2 ^ 32).toNat else 115200
      some { c with uart := c.uart ++ [{ name := cliName, device := base, baud := [baud] }] }

/-- The options one after the other. -/
def argvOptions (c : Config) : List OptEvent → Option Config
  | [] => some c
  | e :: es => (argvOption c e).bind fun c => argvOptions c es

/-- The positional arguments one after the other. -/
def argvPlains (isChr : List UInt8 → Bool) (c : Config) : List (List UInt8) → Option Config
  | [] => some c
  | a :: as => (argvPlain isChr c a).bind fun c => argvPlains isChr c as

/-- `parse_argv` (main.cpp:184-371); `none`: the program ends. -/
def parseArgv (isChr : List UInt8 → Bool) (argv : List (List UInt8)) (c : Config) : Option Config :=
  (argvOptions c (getopt argv).1).bind fun c => argvPlains isChr c (getopt argv).2

/-! ### Configuration files -/

/-- A file as `ConfFile::parse` finds it (conf_file.cpp:65-103). -/
inductive FileState where
  | missing
  | unreadable
  | content (bytes : List UInt8)
deriving DecidableEq, Repr

/-- A directory entry: name, and for a regular file its content. -/
structure DirEnt where
  name : List UInt8
  file : Option FileState
deriving DecidableEq, Repr

/-- `strcmp(a, b) <= 0` (main.cpp:521-524). -/
def strLe : List UInt8 → List UInt8 → Bool
  | [], _ => true
  | _ :: _, [] => false
  | a :: as, b :: bs => if a < b then true else if a = b then strLe as bs else false

/-- Insertion, for `sortEnts`. -/
def insertEnt (p : List UInt8 × FileState) : List (List UInt8 × FileState) → List (List UInt8 × FileState)
  | [] => [p]
  | q :: qs => if strLe p.1 q.1 then p :: q :: qs else q :: insertEnt p qs

/-- `qsort(files, i, ..)` (main.cpp:580); entries have different names, so the result does not depend
on the algorithm. -/
def sortEnts : List (List UInt8 × FileState) → List (List UInt8 × FileState)
  | [] => []
  | p :: ps => insertEnt p (sortEnts ps)

/-- The loop over the directory (main.cpp:553-578): `ub` is the write to `files[128]`, `err` a path
that is too long.  `i` is the number of files so far. -/
def collectEnts (dir : List UInt8) : Nat → List DirEnt → ConfRes (List (List UInt8 × FileState))
  | _, [] => .ok []
  | i, e :: es =>
    let path := dir ++ 47 :: e.name
    if path.length ≥ 4096 then .err
    else
      match e.file with
      | none => collectEnts dir i es
      | some f =>
        if i ≥ 128 then .ub
        else (collectEnts dir (i + 1) es).bind fun r => .ok ((path, f) :: r)

/-- `conffile.parse(files[j])` one after the other (main.cpp:582-588). -/
def parseEnts (ss : List CfgSection) : List (List UInt8 × FileState) → ConfRes (List CfgSection)
  | [] => .ok ss
  | (_, f) :: fs =>
    match f with
    | .content b => if (parseConf ss b).2 then parseEnts (parseConf ss b).1 fs else .err
    | _ => .err

/-- The main configuration file (main.cpp:537-543): a missing one is fine. -/
def readMain : FileState → ConfRes (List CfgSection)
  | .missing => .ok []
  | .unreadable => .err
  | .content b => if (parseConf [] b).2 then .ok (parseConf [] b).1 else .err

/-- `parse_conf_files` up to `parse_confs` (main.cpp:526-589); `dir` is `none` if the directory cannot
be opened. -/
def readConfFiles (main : FileState) (dirName : List UInt8) (dir : Option (List DirEnt)) : ConfRes (List CfgSection) :=
  (readMain main).bind fun ss =>
    match dir with
    | none => .ok ss
    | some es => (collectEnts dirName 0 es).bind fun fs => parseEnts ss (sortEnts fs)

/-- `main` up to the configuration (main.cpp:602-628): `parse_conf_files`, then `parse_argv`. -/
def mainConfig (main : FileState) (dirName : List UInt8) (dir : Option (List DirEnt)) (isChr : List UInt8 → Bool)
    (argv : List (List UInt8)) : ConfRes Config :=
  ((readConfFiles main dirName dir).bind fun ss => readConfig ss {}).bind fun c =>
    match parseArgv isChr argv c with
    | none => .err
    | some c => .ok c

end Verif
