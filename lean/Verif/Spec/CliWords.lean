import Verif.Spec.Cli

/-
The words of a command line, and the endpoints it asks for.
-/

namespace Verif.Spec.Conf

/-- The ways to write an option with an argument: `-x ARG`, `-xARG`, `--long ARG`, `--long=ARG`. -/
inductive OptForm where
  | short | shortJoined | long | longJoined
deriving DecidableEq, Repr

/-- What the user writes: a switch (in short or long form), an option with an argument, or something
else, namely the address of an endpoint. -/
inductive CliWord where
  | switch (o : UInt8 × String) (long : Bool)
  | option (o : UInt8 × String) (arg : List UInt8) (f : OptForm)
  | plain (t : List UInt8)
deriving DecidableEq, Repr

/-- The switches of the help text that work in both forms (main.cpp:61-93). -/
def switches : List (UInt8 × String) := [(114, "report_msg_statistics"), (118, "verbose"), (121, "syslog")]

/-- The options of the help text that take an argument (main.cpp:61-93). -/
def withArg : List (UInt8 × String) :=
  [(101, "endpoint"), (112, "tcp-endpoint"), (116, "tcp-port"), (99, "conf-file"), (100, "conf-dir"), (108, "log"),
   (103, "debug-log-level"), (115, "sniffer-sysid")]

/-- Words as the help text has them; a word that is no option does not begin with '-' (or is just
that); an argument written without a blank is not empty. `telemetry-log` works in its long form
only. -/
def CliWord.Ok : CliWord → Prop
  | .switch o long => o ∈ switches ∨ o = (84, "telemetry-log") ∧ long = true
  | .option o arg f => o ∈ withArg ∧ (f = .shortJoined → arg ≠ [])
  | .plain t => t.head? ≠ some 45 ∨ t = [45]

/-- The arguments of the program for a word. -/
def CliWord.args : CliWord → List (List UInt8)
  | .switch o false => [[45, o.1]]
  | .switch o true => [ascii "--" ++ ascii o.2]
  | .option o arg .short => [[45, o.1], arg]
  | .option o arg .shortJoined => [45 :: o.1 :: arg]
  | .option o arg .long => [ascii "--" ++ ascii o.2, arg]
  | .option o arg .longJoined => [ascii "--" ++ (ascii o.2 ++ 61 :: arg)]
  | .plain t => [t]

/-- The option a word stands for. -/
def CliWord.asks : CliWord → Option OptEvent
  | .switch o _ => some (.opt o.1 [])
  | .option o arg _ => some (.opt o.1 arg)
  | .plain _ => none

/-- The text of a word that is no option. -/
def CliWord.text : CliWord → Option (List UInt8)
  | .plain t => some t
  | _ => none

/-- Two words that mean the same: they differ at most in the form of the option. -/
def CliWord.SameMeaning : CliWord → CliWord → Prop
  | .switch o _, .switch o' _ => o = o'
  | .option o a _, .option o' a' _ => o = o' ∧ a = a'
  | .plain t, .plain t' => t = t'
  | _, _ => False

/-! ### Endpoints -/

/-- Two lists agree position by position. -/
def Matches {α β : Type} (R : α → β → Prop) : List α → List β → Prop
  | [], [] => True
  | a :: as, b :: bs => R a b ∧ Matches R as bs
  | _, _ => False

/-- `addr:number`, split at the last colon. -/
def Splits (t addr num : List UInt8) : Prop := t = addr ++ 58 :: num ∧ (58 : UInt8) ∉ num

/-- The value of a plain decimal number. -/
def ReadsAs (num : List UInt8) (x : Nat) : Prop := ∀ n, Decimal num n → n < 2 ^ 64 - 1 → x = n

/-- A TCP endpoint for `-p ADDRESS:PORT`: nothing but address and port is set. -/
def AsTcp (t : List UInt8) (o : TcpConf) : Prop :=
  (∃ num, Splits t o.address num ∧ ReadsAs num o.port) ∧
  o = { name := ascii "CLI", address := o.address, port := o.port, retry := 5, filters := {}, group := [] }

/-- A UDP client for `-e ADDRESS[:PORT]`. -/
def AsClient (t : List UInt8) (o : UdpConf) : Prop :=
  ((58 : UInt8) ∉ t ∧ o.address = t ∧ 14550 ≤ o.port ∨ ∃ num, Splits t o.address num ∧ ReadsAs num o.port) ∧
  o = { name := ascii "CLI", mode := .client, address := o.address, port := o.port, filters := {}, group := [] }

/-- A UDP server for the word `ADDRESS:PORT`. -/
def AsServer (t : List UInt8) (o : UdpConf) : Prop :=
  (∃ num, Splits t o.address num ∧ ReadsAs num o.port) ∧
  o = { name := ascii "CLI", mode := .server, address := o.address, port := o.port, filters := {}, group := [] }

/-- A serial port for the word `DEVICE[:BAUD]`. -/
def AsUart (t : List UInt8) (o : UartConf) : Prop :=
  ((58 : UInt8) ∉ t ∧ o.device = t ∧ o.baud = [115200] ∨
    ∃ num, Splits t o.device num ∧ ∀ n, Decimal num n → n < 2 ^ 31 → o.baud = [n]) ∧
  ∃ x, o = { name := ascii "CLI", device := o.device, baud := [x], flow := false, filters := {}, group := [] }

/-- What a word that is no option asks for: a serial port if there is a device of this name, a UDP
server otherwise. -/
def AsPlain (isChr : List UInt8 → Bool) (t : List UInt8) : UartConf ⊕ UdpConf → Prop
  | .inl o => isChr o.device = true ∧ AsUart t o
  | .inr o => isChr o.address = false ∧ AsServer t o

/-- The serial ports of a list of endpoints. -/
def uartsOf (xs : List (UartConf ⊕ UdpConf)) : List UartConf :=
  xs.filterMap fun x => match x with | .inl o => some o | .inr _ => none

/-- The UDP endpoints of a list of endpoints. -/
def udpsOf (xs : List (UartConf ⊕ UdpConf)) : List UdpConf :=
  xs.filterMap fun x => match x with | .inl _ => none | .inr o => some o

/-- The endpoints a command line adds, in order; those for `-e` come before the others of UDP. -/
def EndpointsAsked (isChr : List UInt8 → Bool) (es : List OptEvent) (ps : List (List UInt8)) (c c' : Config) : Prop :=
  (∃ ws, Matches AsTcp (es.filterMap (argOf 112)) ws ∧ c'.tcp = c.tcp ++ ws) ∧
  ∃ vs xs, Matches AsClient (es.filterMap (argOf 101)) vs ∧ Matches (AsPlain isChr) ps xs ∧
    c'.uart = c.uart ++ uartsOf xs ∧ c'.udp = c.udp ++ vs ++ udpsOf xs

end Verif.Spec.Conf
