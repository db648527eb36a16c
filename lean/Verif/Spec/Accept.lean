import Verif.Spec.Addr
import Verif.Spec.CliWords
import Verif.Spec.Start

/-
Configurations and command lines written as documented (examples/config.sample, and the help text, main.cpp:61-93).
-/

namespace Verif.Spec.Conf

/-- A number in a range, if the option is set. -/
def GoodNumber (lo hi : Nat) (v : Option (List UInt8)) : Prop := ∀ t, v = some t → ∃ n, Decimal t n ∧ lo ≤ n ∧ n < hi

/-- One of some words, in any case, if the option is set. -/
def GoodWord (words : List String) (v : Option (List UInt8)) : Prop := ∀ t, v = some t → ∃ w ∈ words, Same t (ascii w)

/-- An address: four groups of digits with dots, or groups of hexadecimal digits with colons in brackets. -/
def GoodAddress (t : List UInt8) : Prop := Quad t ∨ ∃ x, t = 91 :: (x ++ [93]) ∧ Colons x

/-- The words for switches. -/
def switchWords : List String := ["true", "false", "0", "1"]

/-- The words for the level of messages. -/
def levelWords : List String := ["error", "warning", "info", "debug", "trace"]

/-- The section General as documented. -/
structure GoodGeneral (val : String → Option (List UInt8)) : Prop where
  tcpPort : GoodNumber 0 (2 ^ 64) (val "TcpServerPort")
  stats : GoodWord switchWords (val "ReportStats")
  level : GoodWord levelWords (val "DebugLogLevel")
  dedup : GoodNumber 0 (2 ^ 64) (val "DeduplicationPeriod")
  sniffer : GoodNumber 0 (2 ^ 64) (val "SnifferSysid")
  mode : GoodWord ["always", "while-armed"] (val "LogMode")
  dialect : GoodWord ["auto", "common", "ardupilotmega"] (val "MavlinkDialect")
  minFree : GoodNumber 0 (2 ^ 64) (val "MinFreeSpace")
  maxFiles : GoodNumber 0 (2 ^ 64) (val "MaxLogFiles")
  fcuId : GoodNumber 1 256 (val "LogSystemId")
  telemetry : GoodWord switchWords (val "LogTelemetry")

/-- A section for a serial port as documented: it has a device. -/
structure GoodUart (val : String → Option (List UInt8)) : Prop where
  device : ∃ t, val "Device" = some t
  flow : GoodWord switchWords (val "FlowControl")

/-- A section for UDP as documented: it has an address and a mode, and a port unless the mode is `normal`. -/
structure GoodUdp (val : String → Option (List UInt8)) : Prop where
  address : ∃ t, val "Address" = some t ∧ GoodAddress t
  mode : ∃ t, val "Mode" = some t
  modeWord : GoodWord ["normal", "server", "eavesdropping"] (val "Mode")
  port : GoodNumber 1 65536 (val "Port")
  portGiven : GoodWord ["normal"] (val "Mode") ∨ ∃ t, val "Port" = some t

/-- A section for TCP as documented: it has an address and a port. -/
structure GoodTcp (val : String → Option (List UInt8)) : Prop where
  address : ∃ t, val "Address" = some t ∧ GoodAddress t
  port : GoodNumber 1 65536 (val "Port")
  portGiven : ∃ t, val "Port" = some t
  retry : GoodNumber 0 (2 ^ 31) (val "RetryTimeout")

/-- Everything the files declare is as documented; section names are shorter than 100 bytes. What is set in other
sections, and options that do not exist, do not matter. -/
structure GoodSections (ds : List Decl) : Prop where
  short : ∀ n, Decl.section n ∈ ds → n.length < 100
  general : GoodGeneral fun k => lastSet ds (ascii "General") (ascii k)
  uart : ∀ sec name, Declared ds sec → Typed (ascii "UartEndpoint ") sec name → GoodUart fun k => lastSet ds sec (ascii k)
  udp : ∀ sec name, Declared ds sec → Typed (ascii "UdpEndpoint ") sec name → GoodUdp fun k => lastSet ds sec (ascii k)
  tcp : ∀ sec name, Declared ds sec → Typed (ascii "TcpEndpoint ") sec name → GoodTcp fun k => lastSet ds sec (ascii k)

/-- `ADDRESS:PORT`. -/
def AddressPort (t : List UInt8) : Prop :=
  ∃ addr num n, t = addr ++ 58 :: num ∧ GoodAddress addr ∧ Decimal num n ∧ 1 ≤ n ∧ n < 65536

/-- Words of a command line as in the help text. -/
def CliWord.Good (isChr : List UInt8 → Bool) : CliWord → Prop
  | .switch _ _ => True
  | .option o arg _ =>
    (o.1 = 101 → AddressPort arg ∨ Quad arg) ∧
    (o.1 = 112 → AddressPort arg) ∧
    (o.1 = 116 → GoodNumber 0 (2 ^ 64) (some arg)) ∧
    (o.1 = 103 → GoodWord levelWords (some arg)) ∧
    (o.1 = 115 → GoodNumber 1 256 (some arg))
  | .plain t =>
    (isChr t = true ∧ (58 : UInt8) ∉ t) ∨
    (∃ dev num n, t = dev ++ 58 :: num ∧ isChr dev = true ∧ Decimal num n ∧ n < 2 ^ 31) ∨
    (∃ addr num n, t = addr ++ 58 :: num ∧ isChr addr = false ∧ GoodAddress addr ∧ Decimal num n ∧ 1 ≤ n ∧ n < 65536)

/-- The files of a program start can be read: the main file if there is one, and at most 128 files in the directory,
with paths shorter than 4096 bytes. -/
structure FilesReadable (h : Host) (argv : List (List UInt8)) : Prop where
  main : h.file (confFileOf h argv) ≠ .unreadable
  count : ∀ es, h.dir (confDirOf h argv) = some es → (regularFiles es).length ≤ 128
  names : ∀ es, h.dir (confDirOf h argv) = some es → ∀ e ∈ es, (confDirOf h argv).length + 1 + e.name.length < 4096
  content : ∀ es, h.dir (confDirOf h argv) = some es → ∀ f ∈ regularFiles es, ∃ b, f.2 = .content b

end Verif.Spec.Conf
