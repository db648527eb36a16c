import Verif.Model.ConfNum
import Verif.Model.Routing
import Verif.Model.LogCore

/-
From configuration sections to the program's configuration: the option tables
(/repo/src/endpoint.cpp:57-121, /repo/src/logendpoint.cpp:48-58, /repo/src/main.cpp:438-446),
`extract_options` (/repo/src/common/conf_file.cpp:340-407), the validation functions
(/repo/src/endpoint.cpp:141-157, 1050-1063, 1411-1438, 1764-1786), `parse_confs`
(/repo/src/main.cpp:432-519) and the part of the endpoints' `setup` that copies filters and group
(/repo/src/endpoint.cpp:756-794, 1090-1128, 1462-1500).

Parsers check the size of the storage they are given; the tables pass the size of the field, so these
checks never fail and are left out.
-/

namespace Verif

/-- `struct UartEndpointConfig` (endpoint.h:39-57). -/
structure UartConf where
  name : List UInt8
  device : List UInt8 := []
  baud : List Nat := []
  flow : Bool := false
  filters : Filters := {}
  group : List UInt8 := []
deriving DecidableEq, Repr

/-- `enum class Mode` (endpoint.h:60). -/
inductive UdpConfMode where
  | undefined | server | client
deriving DecidableEq, Repr

/-- `struct UdpEndpointConfig` (endpoint.h:59-79). -/
structure UdpConf where
  name : List UInt8
  address : List UInt8 := []
  port : Nat := 0
  mode : UdpConfMode := .undefined
  filters : Filters := {}
  group : List UInt8 := []
deriving DecidableEq, Repr

/-- `struct TcpEndpointConfig` (endpoint.h:81-99). -/
structure TcpConf where
  name : List UInt8
  address : List UInt8 := []
  port : Nat := 0
  retry : Int := 5
  filters : Filters := {}
  group : List UInt8 := []
deriving DecidableEq, Repr

/-- `enum class MavDialect` (logendpoint.h:40). -/
inductive Dialect where
  | auto | common | ardupilotmega
deriving DecidableEq, Repr

/-- `struct LogOptions` (logendpoint.h:39-49). -/
structure LogConf where
  dir : List UInt8 := []
  mode : LogMode := .always
  dialect : Dialect := .auto
  minFree : Nat := 0
  maxFiles : Nat := 0
  fcuId : Int := -1
  telemetry : Bool := false
deriving DecidableEq, Repr

/-- `enum class Level` (common/log.h:28-35). -/
inductive LogLevel where
  | error | warning | notice | info | debug | trace
deriving DecidableEq, Repr

/-- `struct Configuration` (mainloop.h:33-47) without the names of the configuration file and
directory and the log backend. -/
structure Config where
  tcpPort : Nat := 5760
  stats : Bool := false
  level : LogLevel := .info
  dedupMs : Nat := 0
  log : LogConf := {}
  uart : List UartConf := []
  udp : List UdpConf := []
  tcp : List TcpConf := []
  sniffer : Nat := 0
deriving DecidableEq, Repr

/-- One line of an option table (conf_file.h:49-57); `parse` updates the struct, `none` is a negative
return value. -/
structure Opt (α : Type) where
  key : List UInt8
  required : Bool
  parse : List UInt8 → α → Option α

/-- Use an option of a part of a struct. -/
def Opt.lift {α β : Type} (get : β → α) (set : α → β → β) (o : Opt α) : Opt β :=
  { key := o.key, required := o.required, parse := fun v b => (o.parse v (get b)).map fun a => set a b }

/-- `_extract_options_from_section` (conf_file.cpp:340-374); `find` is `_find_config` of the section. -/
def extract {α : Type} (find : List UInt8 → Option (List UInt8)) : List (Opt α) → α → Option α
  | [], a => some a
  | o :: os, a =>
    match find o.key with
    | none => if o.required then none else extract find os a
    | some v =>
      match o.parse v a with
      | none => none
      | some a => extract find os a

/-- `extract_options(iter, ..)` (conf_file.cpp:401-407). -/
def extractIter {α : Type} (s : CfgSection) (os : List (Opt α)) (a : α) : Option α :=
  extract (fun k => (findConfig k s.configs).map (·.value)) os a

/-- `extract_options(name, ..)` (conf_file.cpp:376-399). -/
def extractNamed {α : Type} (ss : List CfgSection) (name : List UInt8) (os : List (Opt α)) (a : α) : Option α :=
  match (findSection name ss).bind fun k => sectionAt k ss with
  | none => if os.any (·.required) then none else some a
  | some s => extractIter s os a

/-- An optional list of 32-bit numbers. -/
def optU32s {α : Type} (key : String) (get : α → List Nat) (set : List Nat → α → α) : Opt α :=
  { key := ascii key, required := false, parse := fun v a => some (set (parseU32s v (get a)) a) }

/-- An optional list of 8-bit numbers. -/
def optU8s {α : Type} (key : String) (get : α → List UInt8) (set : List UInt8 → α → α) : Opt α :=
  { key := ascii key, required := false, parse := fun v a => some (set (parseU8s v (get a)) a) }

/-- A string (`parse_stdstring`, conf_file.cpp:502-517). -/
def optStr {α : Type} (key : String) (required : Bool) (set : List UInt8 → α → α) : Opt α :=
  { key := ascii key, required, parse := fun v a => some (set v a) }

/-- A number or switch. -/
def optVal {α β : Type} (key : String) (required : Bool) (parse : List UInt8 → Option β) (set : β → α → α) : Opt α :=
  { key := ascii key, required, parse := fun v a => (parse v).map fun x => set x a }

/-- The twelve filter options, the same lines in all three tables (endpoint.cpp:63-74, 84-95,
106-117). -/
def filterOpts : List (Opt Filters) :=
  [ optU32s "AllowMsgIdOut" (·.allowOutMsg) (fun l f => { f with allowOutMsg := l }),
    optU32s "BlockMsgIdOut" (·.blockOutMsg) (fun l f => { f with blockOutMsg := l }),
    optU8s "AllowSrcCompOut" (·.allowOutComp) (fun l f => { f with allowOutComp := l }),
    optU8s "BlockSrcCompOut" (·.blockOutComp) (fun l f => { f with blockOutComp := l }),
    optU8s "AllowSrcSysOut" (·.allowOutSys) (fun l f => { f with allowOutSys := l }),
    optU8s "BlockSrcSysOut" (·.blockOutSys) (fun l f => { f with blockOutSys := l }),
    optU32s "AllowMsgIdIn" (·.allowInMsg) (fun l f => { f with allowInMsg := l }),
    optU32s "BlockMsgIdIn" (·.blockInMsg) (fun l f => { f with blockInMsg := l }),
    optU8s "AllowSrcCompIn" (·.allowInComp) (fun l f => { f with allowInComp := l }),
    optU8s "BlockSrcCompIn" (·.blockInComp) (fun l f => { f with blockInComp := l }),
    optU8s "AllowSrcSysIn" (·.allowInSys) (fun l f => { f with allowInSys := l }),
    optU8s "BlockSrcSysIn" (·.blockInSys) (fun l f => { f with blockInSys := l }) ]

/-- `UartEndpoint::option_table` (endpoint.cpp:59-77). -/
def uartOpts : List (Opt UartConf) :=
  [ optU32s "baud" (·.baud) (fun l c => { c with baud := l }),
    optStr "device" true (fun v c => { c with device := v }),
    optVal "FlowControl" false parseBool (fun b c => { c with flow := b }) ] ++
  filterOpts.map (Opt.lift (·.filters) (fun f c => { c with filters := f })) ++
  [ optStr "group" false (fun v c => { c with group := v }) ]

/-- `UdpEndpoint::parse_udp_mode` (endpoint.cpp:1382-1409). -/
def parseUdpMode (val : List UInt8) : Option UdpConfMode :=
  if memCaseEq val (ascii "normal") then some .client
  else if memCaseEq val (ascii "eavesdropping") then some .server
  else if memCaseEq val (ascii "server") then some .server
  else none

/-- `UdpEndpoint::option_table` (endpoint.cpp:80-99). -/
def udpOpts : List (Opt UdpConf) :=
  [ optStr "address" true (fun v c => { c with address := v }),
    optVal "mode" true parseUdpMode (fun m c => { c with mode := m }),
    optVal "port" false parseUl (fun p c => { c with port := p }),
    optU32s "filter" (·.filters.allowOutMsg) (fun l c => { c with filters := { c.filters with allowOutMsg := l } }) ] ++
  filterOpts.map (Opt.lift (·.filters) (fun f c => { c with filters := f })) ++
  [ optStr "group" false (fun v c => { c with group := v }) ]

/-- `TcpEndpoint::option_table` (endpoint.cpp:102-120). -/
def tcpOpts : List (Opt TcpConf) :=
  [ optStr "address" true (fun v c => { c with address := v }),
    optVal "port" true parseUl (fun p c => { c with port := p }),
    optVal "RetryTimeout" false parseI (fun r c => { c with retry := r }) ] ++
  filterOpts.map (Opt.lift (·.filters) (fun f c => { c with filters := f })) ++
  [ optStr "group" false (fun v c => { c with group := v }) ]

/-- `log_level_from_str` (main.cpp:128-147). -/
def logLevel (s : List UInt8) : Option LogLevel :=
  if memCaseEq s (ascii "error") then some .error
  else if memCaseEq s (ascii "warning") then some .warning
  else if memCaseEq s (ascii "info") then some .info
  else if memCaseEq s (ascii "debug") then some .debug
  else if memCaseEq s (ascii "trace") then some .trace
  else none

/-- `parse_log_level` (main.cpp:406-429). -/
def parseLogLevel (val : List UInt8) : Option LogLevel :=
  if val.length > 10 then none else logLevel (cstrB val)

/-- `global_option_table` (main.cpp:438-446). -/
def globalOpts : List (Opt Config) :=
  [ optVal "TcpServerPort" false parseUl (fun p c => { c with tcpPort := p }),
    optVal "ReportStats" false parseBool (fun b c => { c with stats := b }),
    optVal "DebugLogLevel" false parseLogLevel (fun l c => { c with level := l }),
    optVal "DeduplicationPeriod" false parseUl (fun p c => { c with dedupMs := p }),
    optVal "SnifferSysid" false parseUl (fun p c => { c with sniffer := p }) ]

/-- `parse_mavlink_dialect` (logendpoint.cpp:516-544). -/
def parseDialect (val : List UInt8) : Option Dialect :=
  if memCaseEq val (ascii "auto") then some .auto
  else if memCaseEq val (ascii "common") then some .common
  else if memCaseEq val (ascii "ardupilotmega") then some .ardupilotmega
  else none

/-- `parse_log_mode` (logendpoint.cpp:546-574). -/
def parseLogMode (val : List UInt8) : Option LogMode :=
  if val.length > 20 then none
  else if memCaseEq (cstrB val) (ascii "always") then some .always
  else if memCaseEq (cstrB val) (ascii "while-armed") then some .whileArmed
  else none

/-- `parse_fcu_id` (logendpoint.cpp:576-589); the value is stored even if it is refused, but then
reading the configuration fails. -/
def parseFcuId (val : List UInt8) : Option Int :=
  match parseI val with
  | none => none
  | some i => if i > 255 ∨ i ≤ 0 then none else some i

/-- `LogEndpoint::option_table` (logendpoint.cpp:49-58). -/
def logOpts : List (Opt LogConf) :=
  [ optStr "Log" false (fun v c => { c with dir := v }),
    optVal "LogMode" false parseLogMode (fun m c => { c with mode := m }),
    optVal "MavlinkDialect" false parseDialect (fun d c => { c with dialect := d }),
    optVal "MinFreeSpace" false parseUl (fun n c => { c with minFree := n }),
    optVal "MaxLogFiles" false parseUl (fun n c => { c with maxFiles := n }),
    optVal "LogSystemId" false parseFcuId (fun i c => { c with fcuId := i }),
    optVal "LogTelemetry" false parseBool (fun b c => { c with telemetry := b }) ]

/-! ### Validation -/

/-- `\d` of the regular expressions (endpoint.cpp:144, 150). -/
def isDigitB (b : UInt8) : Bool := 48 ≤ b && b ≤ 57

/-- `[a-f\d]` (endpoint.cpp:144). -/
def isHexB (b : UInt8) : Bool := isDigitB b || (97 ≤ b && b ≤ 102)

/-- Pieces of a text between occurrences of a byte. -/
def splitB (c : UInt8) (acc : List UInt8) : List UInt8 → List (List UInt8)
  | [] => [acc.reverse]
  | b :: bs => if b = c then acc.reverse :: splitB c [] bs else splitB c (b :: acc) bs

/-- `validate_ipv4` (endpoint.cpp:148-152): the language of the regular expression, four groups of one
to three digits separated by dots. -/
def validIpv4 (ip : List UInt8) : Bool :=
  let ps := splitB 46 [] ip
  ps.length == 4 && ps.all fun p => 1 ≤ p.length && p.length ≤ 3 && p.all isDigitB

/-- `validate_ipv6` (endpoint.cpp:141-146): '[', at least two groups of at most four hexadecimal
digits separated by ':', ']'. -/
def validIpv6 (ip : List UInt8) : Bool :=
  match ip with
  | 91 :: r =>
    match r.reverse with
    | 93 :: m =>
      let ps := splitB 58 [] m.reverse
      2 ≤ ps.length && ps.all fun p => p.length ≤ 4 && p.all isHexB
    | _ => false
  | _ => false

/-- `validate_ip` (endpoint.cpp:154-157). -/
def validIp (ip : List UInt8) : Bool := validIpv4 ip || validIpv6 ip

/-- `ULONG_MAX`. -/
def ulongMax : Nat := 2 ^ 64 - 1

/-- `UartEndpoint::validate_config` (endpoint.cpp:1050-1063). -/
def UartConf.valid (c : UartConf) : Bool := c.baud != [] && c.device != []

/-- `UdpEndpoint::validate_config` (endpoint.cpp:1411-1438). -/
def UdpConf.valid (c : UdpConf) : Bool :=
  c.address != [] && validIp c.address && !(c.port == 0 || c.port == ulongMax) &&
    (c.mode == .client || c.mode == .server)

/-- `TcpEndpoint::validate_config` (endpoint.cpp:1764-1786). -/
def TcpConf.valid (c : TcpConf) : Bool :=
  c.address != [] && validIp c.address && !(c.port == 0 || c.port == ulongMax)

/-! ### `parse_confs` -/

/-- `find_next_udp_port` (main.cpp:95-107). -/
def findNextUdpPort (ip : List UInt8) : List UdpConf → Nat
  | [] => 14550
  | c :: cs => if ip = c.address ∧ c.port = 14550 then 14551 else findNextUdpPort ip cs

/-- Outcome of reading the configuration. -/
inductive ConfRes (α : Type) where
  | ub
  | err
  | ok (a : α)
deriving DecidableEq, Repr

/-- A loop over the sections that match (main.cpp:461-479, 483-501, 505-516); `body` is `none` for an
error.  The fuel is the number of sections. -/
def forSections (pre : List UInt8) (body : CfgSection → Config → Option Config) :
    Nat → List CfgSection → Config → ConfRes Config
  | 0, _, c => .ok c
  | n + 1, ss, c =>
    match getSections pre ss with
    | .ub => .ub
    | .done => .ok c
    | .found s rest =>
      match body s c with
      | none => .err
      | some c => forSections pre body n rest c

/-- `section_pattern`s without the star (endpoint.cpp:58, 79, 101). -/
def uartPrefix : List UInt8 := ascii "uartendpoint "
/-- See `uartPrefix`. -/
def udpPrefix : List UInt8 := ascii "udpendpoint "
/-- See `uartPrefix`. -/
def tcpPrefix : List UInt8 := ascii "tcpendpoint "

/-- A UART section (main.cpp:462-478). -/
def uartSection (s : CfgSection) (c : Config) : Option Config :=
  match extractIter s uartOpts { name := s.name.drop uartPrefix.length } with
  | none => none
  | some o =>
    let o := if o.baud = [] then { o with baud := [115200] } else o
    if !o.valid then none else some { c with uart := c.uart ++ [o] }

/-- A UDP section (main.cpp:484-500). -/
def udpSection (s : CfgSection) (c : Config) : Option Config :=
  match extractIter s udpOpts { name := s.name.drop udpPrefix.length, port := ulongMax } with
  | none => none
  | some o =>
    let o := if o.mode = .client ∧ o.port = ulongMax then { o with port := findNextUdpPort o.address c.udp } else o
    if !o.valid then none else some { c with udp := c.udp ++ [o] }

/-- A TCP section (main.cpp:506-515). -/
def tcpSection (s : CfgSection) (c : Config) : Option Config :=
  match extractIter s tcpOpts { name := s.name.drop tcpPrefix.length, port := ulongMax } with
  | none => none
  | some o => if !o.valid then none else some { c with tcp := c.tcp ++ [o] }

/-- Continue after a loop. -/
def ConfRes.bind {α β : Type} (r : ConfRes α) (f : α → ConfRes β) : ConfRes β :=
  match r with
  | .ub => .ub
  | .err => .err
  | .ok a => f a

/-- `parse_confs` (main.cpp:432-519). -/
def readConfig (ss : List CfgSection) (c : Config) : ConfRes Config :=
  match extractNamed ss (ascii "General") globalOpts c with
  | none => .err
  | some c =>
    match extractNamed ss (ascii "General") logOpts c.log with
    | none => .err
    | some l =>
      ((forSections uartPrefix uartSection ss.length ss { c with log := l }).bind
        (forSections udpPrefix udpSection ss.length ss)).bind
        (forSections tcpPrefix tcpSection ss.length ss)

/-! ### Endpoints -/

/-- A group name as the routing model writes it. -/
def groupName (g : List UInt8) : String := String.ofList (g.map fun b => Char.ofNat b.toNat)

/-- The `filter_add_*` loops of `setup` (endpoint.cpp:756-792, 1090-1126, 1462-1498) on a new
endpoint. -/
def setupEp (kind : EpKind) (f : Filters) (group : List UInt8) : Ep :=
  { kind, group := groupName group, filters := f }

/-- The endpoint objects `add_endpoints` creates (mainloop.cpp:370-403), in order. -/
def Config.endpoints (c : Config) : List Ep :=
  c.uart.map (fun o => setupEp .uart o.filters o.group) ++
  c.udp.map (fun o => setupEp .udp o.filters o.group) ++
  c.tcp.map (fun o => setupEp .tcp o.filters o.group)

end Verif
