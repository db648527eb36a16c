/-
From the command line to the running router: `main` (src/main.cpp:602-642), `pre_parse_argv` (149-182),
`get_conf_file_name`, `get_conf_dir` (372-402) and `Mainloop::add_endpoints` (src/mainloop.cpp:362-462).
-/
import Verif.Model.Cli
import Verif.Model.Routing

namespace Verif

/-- What `pre_parse_argv` finds (src/main.cpp:149-182). -/
structure PreArgs where
  confFile : List UInt8 := []
  confDir : List UInt8 := []
  syslog : Bool := false
deriving DecidableEq, Repr

/-- `pre_parse_argv` (src/main.cpp:149-182); `none`: the version is printed. Unknown options are skipped. -/
def preParse (p : PreArgs) : List OptEvent → Option PreArgs
  | [] => some p
  | .bad :: es => preParse p es
  | .opt c a :: es =>
    if c = 99 then preParse { p with confFile := a } es
    else if c = 100 then preParse { p with confDir := a } es
    else if c = 121 then preParse { p with syslog := true } es
    else if c = 86 then none
    else preParse p es

/-- `DEFAULT_CONFFILE`, `DEFAULT_CONF_DIR` (src/main.cpp:38-39). -/
def defaultConfFile : List UInt8 := ascii "/etc/mavlink-router/main.conf"
/-- See `defaultConfFile`. -/
def defaultConfDir : List UInt8 := ascii "/etc/mavlink-router/config.d"

/-- `get_conf_file_name`, `get_conf_dir` (src/main.cpp:372-402): command line, environment variable, default. -/
def confName (arg : List UInt8) (var : Option (List UInt8)) (dflt : List UInt8) : List UInt8 :=
  if arg ≠ [] then arg else var.getD dflt

/-- The surroundings of the program: environment variables, files, and which system calls succeed. `opens n` is the
result of the n-th `setup` (src/mainloop.cpp:370-403), for a TCP endpoint whether the first connection attempt
succeeded. -/
structure Host where
  varFile : Option (List UInt8) := none
  varDir : Option (List UInt8) := none
  file : List UInt8 → FileState := fun _ => .missing
  dir : List UInt8 → Option (List DirEnt) := fun _ => none
  isChr : List UInt8 → Bool := fun _ => false
  epoll : Bool := true
  opens : Nat → Bool := fun _ => true
  listens : Bool := true

/-- The router when it enters the main loop. -/
structure Running where
  eps : List Ep
  sniffer : UInt16
  dedup : UInt32
  server : Option Nat
  stats : Bool
  log : LogConf
deriving DecidableEq, Repr

/-- A log endpoint in `g_endpoints`: its constructor adds 2/0 (src/logendpoint.cpp:61-67). -/
def logEp : Ep := { kind := .log, learned := [sysComp 2 0] }

/-- The log endpoints (src/mainloop.cpp:424-449): the flight stack log, then the telemetry log. -/
def LogConf.endpoints (l : LogConf) : List Ep :=
  if l.dir = [] then [] else if l.telemetry then [logEp, logEp] else [logEp]

/-- The endpoint object of a TCP configuration (src/mainloop.cpp:394-402, src/endpoint.cpp:1456-1515): without
connection its descriptor is closed. -/
def tcpEp (isOpen : Bool) (o : TcpConf) : Ep := { setupEp .tcp o.filters o.group with fdOpen := isOpen }

/-- `Mainloop::add_endpoints` (src/mainloop.cpp:362-462); `none`: it returns false. The group links are made by
`linkGroups` when the router starts; log endpoints are in no group, so it does not matter that they are created
afterwards. A failing TCP server is ignored (420-422); its port is converted by `htons` (481). -/
def addEndpoints (h : Host) (c : Config) : Option Running :=
  let nu := c.uart.length
  let nd := c.udp.length
  if (c.uart.zipIdx.all fun x => x.1.valid && h.opens x.2) &&
      (c.udp.zipIdx.all fun x => x.1.valid && h.opens (nu + x.2)) && (c.tcp.all fun o => o.valid) then
    some {
      eps := c.uart.map (fun o => setupEp .uart o.filters o.group) ++
        c.udp.map (fun o => setupEp .udp o.filters o.group) ++
        c.tcp.zipIdx.map (fun x => tcpEp (h.opens (nu + nd + x.2)) x.1) ++ c.log.endpoints
      sniffer := UInt16.ofNat c.sniffer
      dedup := UInt32.ofNat c.dedupMs
      server := if c.tcpPort ≠ 0 ∧ h.listens then some (c.tcpPort % 65536) else none
      stats := c.stats
      log := c.log }
  else none

/-- How the program gets on: it ends with a status (0 is success), it runs, or its behaviour is undefined. -/
inductive Outcome where
  | exits (status : Nat)
  | runs (r : Running)
  | ub
deriving DecidableEq, Repr

/-- The configuration (src/main.cpp:614-621): files named by the command line, the environment or the defaults, then the
command line. -/
def Host.config (h : Host) (p : PreArgs) (argv : List (List UInt8)) : ConfRes Config :=
  mainConfig (h.file (confName p.confFile h.varFile defaultConfFile)) (confName p.confDir h.varDir defaultConfDir)
    (h.dir (confName p.confDir h.varDir defaultConfDir)) h.isChr argv

/-- `main` up to the main loop (src/main.cpp:602-642); `argv` without the program name. -/
def mainStart (h : Host) (argv : List (List UInt8)) : Outcome :=
  match preParse {} (getopt argv).1 with
  | none => .exits 0
  | some p =>
    match h.config p argv with
    | .ub => .ub
    | .err => .exits 1
    | .ok c =>
      if !h.epoll then .exits 1
      else
        match addEndpoints h c with
        | none => .exits 1
        | some r => .runs r

end Verif
