import Verif.Spec.Cli
import Verif.Spec.ConfDir
import Verif.Model.Start

/-
What starting the program is to do, in terms of command line, environment and files.
-/

namespace Verif.Spec.Conf

/-- The name of the configuration file or directory: the argument of the last such option unless it is empty, else the
environment variable if it is set, else the default. -/
def chosen (es : List OptEvent) (letter : UInt8) (var : Option (List UInt8)) (dflt : String) : List UInt8 :=
  match lastArg letter es, var with
  | some (b :: bs), _ => b :: bs
  | _, some v => v
  | _, none => ascii dflt

/-- The configuration file of a program start. -/
def confFileOf (h : Host) (argv : List (List UInt8)) : List UInt8 :=
  chosen (getopt argv).1 99 h.varFile "/etc/mavlink-router/main.conf"

/-- The configuration directory of a program start. -/
def confDirOf (h : Host) (argv : List (List UInt8)) : List UInt8 :=
  chosen (getopt argv).1 100 h.varDir "/etc/mavlink-router/config.d"

/-- The contents of the files of a directory in alphabetical order; nothing if there is no such directory. -/
def DirContent (dir : Option (List DirEnt)) (cs : List (List UInt8)) : Prop :=
  (dir = none ∧ cs = []) ∨
  ∃ es order, dir = some es ∧ order.Perm (regularFiles es) ∧ order.Pairwise (fun a b => Precedes a.1 b.1) ∧ Contents order cs

/-- The files a program start reads, in order. -/
def FilesUsed (h : Host) (argv : List (List UInt8)) (files : List (List UInt8)) : Prop :=
  ∃ ms cs, MainContent (h.file (confFileOf h argv)) ms ∧ DirContent (h.dir (confDirOf h argv)) cs ∧ files = ms ++ cs

/-- A word from a list; a value with a NUL byte can be anything. -/
def WordIs {β : Type} (v : Option (List UInt8)) (dflt : β) (words : List (String × β)) (x : β) : Prop :=
  (v = none → x = dflt) ∧ ∀ t, v = some t → 0 ∉ t → ∃ w ∈ words, Same t (ascii w.1) ∧ x = w.2

/-- The settings of the section General. -/
structure GeneralAsked (val : String → Option (List UInt8)) (c : Config) : Prop where
  tcpPort : NumberIs (val "TcpServerPort") 5760 c.tcpPort
  stats : SwitchIs (val "ReportStats") false c.stats
  level : WordIs (val "DebugLogLevel") .info
    [("error", .error), ("warning", .warning), ("info", .info), ("debug", .debug), ("trace", .trace)] c.level
  dedup : NumberIs (val "DeduplicationPeriod") 0 c.dedupMs
  sniffer : NumberIs (val "SnifferSysid") 0 c.sniffer
  dir : c.log.dir = (val "Log").getD []
  mode : WordIs (val "LogMode") .always [("always", .always), ("while-armed", .whileArmed)] c.log.mode
  dialect : WordIs (val "MavlinkDialect") .auto [("auto", .auto), ("common", .common), ("ardupilotmega", .ardupilotmega)]
    c.log.dialect
  minFree : NumberIs (val "MinFreeSpace") 0 c.log.minFree
  maxFiles : NumberIs (val "MaxLogFiles") 0 c.log.maxFiles
  fcuId : IntIs (val "LogSystemId") (-1) c.log.fcuId ∧ (c.log.fcuId = -1 ∨ 1 ≤ c.log.fcuId ∧ c.log.fcuId ≤ 255)
  telemetry : SwitchIs (val "LogTelemetry") false c.log.telemetry

/-- What the kinds of endpoints are called in section names. -/
def kindNames : List (String × EpKind) := [("UartEndpoint ", .uart), ("UdpEndpoint ", .udp), ("TcpEndpoint ", .tcp)]

/-- An endpoint has the type, filters and group of a section. -/
def FromSection (ds : List Decl) (sec : List UInt8) (e : Ep) : Prop :=
  (∃ t ∈ kindNames, (∃ name, Typed (ascii t.1) sec name) ∧ e.kind = t.2) ∧
  FiltersAre (fun k => lastSet ds sec (ascii k)) e.filters ∧
  (∃ l l', IdsAre (lastSet ds sec (ascii "Filter")) l ∧ IdsAre (lastSet ds sec (ascii "AllowMsgIdOut")) l' ∧
    e.filters.allowOutMsg = if e.kind = .udp then l ++ l' else l') ∧
  e.group = String.ofList (((lastSet ds sec (ascii "Group")).getD []).map fun b => Char.ofNat b.toNat)

/-- Endpoints are one for each section of a type, in some order of distinct names. -/
def OneForEach (ds : List Decl) (t : String × EpKind) (es : List Ep) : Prop :=
  ∃ names, OneEach (ascii t.1) ds names ∧ names.length = es.length ∧
    ∀ (k : Nat) name e, names[k]? = some name → es[k]? = some e →
      e.kind = t.2 ∧ ∃ sec, Declared ds sec ∧ Typed (ascii t.1) sec name ∧ FromSection ds sec e

/-- Endpoints of a kind without filter and group. -/
def PlainEps (kind : EpKind) (es : List Ep) : Prop := ∀ e ∈ es, e.kind = kind ∧ e.filters = {} ∧ e.group = ""

end Verif.Spec.Conf
