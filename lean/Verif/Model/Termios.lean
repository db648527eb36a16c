/-
Terminal attributes of a serial port: `reset_uart` (src/common/xtermios.cpp:24-65), `UartEndpoint::open`
(src/endpoint.cpp:864-952), `set_speed` (799-832), `set_flow_control` (834-862).  The bits are those of Linux
(asm-generic/termbits.h).

Simplified: an `ioctl` that succeeds stores the attributes as they are given; the latency flag of the driver
(src/endpoint.cpp:919-936) is not part of the attributes.
-/

namespace Verif

/-- `struct termios2`; also `struct termios`, whose speed is in `c_cflag`. -/
structure Termios where
  iflag : BitVec 32
  oflag : BitVec 32
  cflag : BitVec 32
  lflag : BitVec 32
  cc : List UInt8
  ispeed : Nat
  ospeed : Nat
deriving DecidableEq, Repr

namespace Tty

/-! Bits of `c_iflag` (asm-generic/termbits.h, octal as there; used at src/common/xtermios.cpp:43-44, src/endpoint.cpp:886). -/
/-- Ignore break; see the heading. -/
def IGNBRK : BitVec 32 := 0o1
/-- Break interrupts; see the heading. -/
def BRKINT : BitVec 32 := 0o2
/-- Mark parity errors; see the heading. -/
def PARMRK : BitVec 32 := 0o10
/-- Check parity; see the heading. -/
def INPCK : BitVec 32 := 0o20
/-- Strip the eighth bit; see the heading. -/
def ISTRIP : BitVec 32 := 0o40
/-- NL to CR; see the heading. -/
def INLCR : BitVec 32 := 0o100
/-- Ignore CR; see the heading. -/
def IGNCR : BitVec 32 := 0o200
/-- CR to NL; see the heading. -/
def ICRNL : BitVec 32 := 0o400
/-- To lower case; see the heading. -/
def IUCLC : BitVec 32 := 0o1000
/-- XON/XOFF on output; see the heading. -/
def IXON : BitVec 32 := 0o2000
/-- Any character restarts; see the heading. -/
def IXANY : BitVec 32 := 0o4000
/-- XON/XOFF on input; see the heading. -/
def IXOFF : BitVec 32 := 0o10000
/-- Bell when full; see the heading. -/
def IMAXBEL : BitVec 32 := 0o20000
/-- UTF-8 editing; see the heading. -/
def IUTF8 : BitVec 32 := 0o40000

/-! Bits of `c_oflag` (the same; src/common/xtermios.cpp:46-47, src/endpoint.cpp:887). -/
/-- Process output; see the heading. -/
def OPOST : BitVec 32 := 0o1
/-- To upper case; see the heading. -/
def OLCUC : BitVec 32 := 0o2
/-- NL to CR NL; see the heading. -/
def ONLCR : BitVec 32 := 0o4
/-- CR to NL; see the heading. -/
def OCRNL : BitVec 32 := 0o10
/-- No CR in column 0; see the heading. -/
def ONOCR : BitVec 32 := 0o20
/-- NL does CR; see the heading. -/
def ONLRET : BitVec 32 := 0o40
/-- Fill characters; see the heading. -/
def OFILL : BitVec 32 := 0o100
/-- Fill with DEL; see the heading. -/
def OFDEL : BitVec 32 := 0o200
/-- Expand tabs (all bits of TABDLY); see the heading. -/
def XTABS : BitVec 32 := 0o14000

/-! Bits of `c_cflag` (the same; src/common/xtermios.cpp:41, src/endpoint.cpp:814-815, 848-852, 895-902). -/
/-- Speed; see the heading. -/
def CBAUD : BitVec 32 := 0o10017
/-- Code of 1200 baud; see the heading. -/
def B1200 : BitVec 32 := 0o11
/-- Speed as a number; see the heading. -/
def BOTHER : BitVec 32 := 0o10000
/-- Input speed; see the heading. -/
def CIBAUD : BitVec 32 := 0o2003600000
/-- Bits of a character; see the heading. -/
def CSIZE : BitVec 32 := 0o60
/-- Eight bits; see the heading. -/
def CS8 : BitVec 32 := 0o60
/-- Two stop bits; see the heading. -/
def CSTOPB : BitVec 32 := 0o100
/-- Receive; see the heading. -/
def CREAD : BitVec 32 := 0o200
/-- Parity; see the heading. -/
def PARENB : BitVec 32 := 0o400
/-- Ignore modem lines; see the heading. -/
def CLOCAL : BitVec 32 := 0o4000
/-- Flow control by RTS and CTS; see the heading. -/
def CRTSCTS : BitVec 32 := 0o20000000000

/-! Bits of `c_lflag` (the same; src/common/xtermios.cpp:49-50, src/endpoint.cpp:889, 892). -/
/-- Signals; see the heading. -/
def ISIG : BitVec 32 := 0o1
/-- Line editing; see the heading. -/
def ICANON : BitVec 32 := 0o2
/-- Case; see the heading. -/
def XCASE : BitVec 32 := 0o4
/-- Echo; see the heading. -/
def ECHO : BitVec 32 := 0o10
/-- Echo erase; see the heading. -/
def ECHOE : BitVec 32 := 0o20
/-- Echo kill; see the heading. -/
def ECHOK : BitVec 32 := 0o40
/-- Echo NL; see the heading. -/
def ECHONL : BitVec 32 := 0o100
/-- No flush; see the heading. -/
def NOFLSH : BitVec 32 := 0o200
/-- Stop background output; see the heading. -/
def TOSTOP : BitVec 32 := 0o400
/-- Echo control characters; see the heading. -/
def ECHOCTL : BitVec 32 := 0o1000
/-- Echo erased characters; see the heading. -/
def ECHOPRT : BitVec 32 := 0o2000
/-- Echo kill visually; see the heading. -/
def ECHOKE : BitVec 32 := 0o4000
/-- Extensions; see the heading. -/
def IEXTEN : BitVec 32 := 0o100000

/-! Indices of `c_cc` (the same; src/endpoint.cpp:905-906). -/
/-- Interrupt; see the heading. -/
def VINTR : Nat := 0
/-- Quit; see the heading. -/
def VQUIT : Nat := 1
/-- Time to wait for input; see the heading. -/
def VTIME : Nat := 5
/-- Least number of bytes; see the heading. -/
def VMIN : Nat := 6
/-- XON; see the heading. -/
def VSTART : Nat := 8
/-- XOFF; see the heading. -/
def VSTOP : Nat := 9
/-- Suspend; see the heading. -/
def VSUSP : Nat := 10

end Tty
open Tty

/-- `default_cc` (src/common/xtermios.cpp:29-31). -/
def defaultCc : List UInt8 :=
  [0o3, 0o34, 0o177, 0o25, 0o4, 0, 0, 0, 0o21, 0o23, 0o32, 0, 0o22, 0o17, 0o27, 0o26,
   0, 0, 0, 0, 0, 0, 0, 0, 0, 0, 0, 0, 0, 0, 0, 0]

/-- The attributes after the first `tcsetattr` of `reset_uart` (src/common/xtermios.cpp:36-57).  `NL0`, `CR0`, `TAB0`,
`BS0`, `VT0`, `FF0` are 0. -/
def resetFlags (t : Termios) : Termios :=
  { t with
    cflag := CREAD
    iflag := (t.iflag ||| (BRKINT ||| ICRNL ||| IMAXBEL)) &&& ~~~(INLCR ||| IGNCR ||| IUTF8 ||| IXOFF ||| IUCLC ||| IXANY)
    oflag := (t.oflag ||| (OPOST ||| ONLCR)) &&& ~~~(OLCUC ||| OCRNL ||| ONLRET ||| OFILL ||| OFDEL)
    lflag := (t.lflag ||| (ISIG ||| ICANON ||| IEXTEN ||| ECHO ||| ECHOE ||| ECHOK ||| ECHOCTL ||| ECHOKE)) &&&
      ~~~(ECHONL ||| NOFLSH ||| XCASE ||| TOSTOP ||| ECHOPRT)
    cc := defaultCc }

/-- `cfsetspeed(&tc, B1200)` (src/common/xtermios.cpp:59). -/
def speed1200 (t : Termios) : Termios :=
  { t with cflag := (t.cflag &&& ~~~CBAUD) ||| B1200, ispeed := 1200, ospeed := 1200 }

/-- The attributes set by `UartEndpoint::open` (src/endpoint.cpp:881-911). -/
def rawFlags (t : Termios) : Termios :=
  { t with
    iflag := t.iflag &&& ~~~(IGNBRK ||| BRKINT ||| ICRNL ||| INLCR ||| PARMRK ||| INPCK ||| ISTRIP ||| IXON)
    oflag := t.oflag &&& ~~~(OCRNL ||| ONLCR ||| ONLRET ||| ONOCR ||| OFILL ||| OPOST)
    lflag := t.lflag &&& ~~~(ECHO ||| ECHOE ||| ECHOK ||| ECHOCTL ||| ECHOKE ||| ECHONL ||| ICANON ||| IEXTEN ||| ISIG) &&&
      ~~~TOSTOP
    cflag := (((t.cflag &&& ~~~CRTSCTS) &&& ~~~(CSIZE ||| PARENB)) ||| CLOCAL) ||| CS8
    cc := (t.cc.set VMIN 0).set VTIME 0 }

/-- The attributes set by `set_speed` (src/endpoint.cpp:813-817). -/
def speedFlags (baud : Nat) (t : Termios) : Termios :=
  { t with cflag := (t.cflag &&& ~~~CBAUD) ||| BOTHER, ispeed := baud, ospeed := baud }

/-- The attributes set by `set_flow_control` (src/endpoint.cpp:848-852). -/
def flowFlags (enabled : Bool) (t : Termios) : Termios :=
  { t with cflag := if enabled then t.cflag ||| CRTSCTS else t.cflag &&& ~~~CRTSCTS }

/-- What the system calls of opening a UART do: `open`, the two calls of `reset_uart` that matter, `TCGETS2`,
`TCSETS2`, the flush. -/
structure TtyRes where
  opened : Bool := true
  getOld : Bool := true
  setOld : Bool := true
  setSpeed : Bool := true
  get : Bool := true
  set : Bool := true
  flush : Bool := true
deriving DecidableEq, Repr

/-- `reset_uart` (src/common/xtermios.cpp:24-65): the attributes and whether it succeeded. -/
def resetUart (r : TtyRes) (t : Termios) : Termios × Bool :=
  if !r.getOld then (t, false)
  else if !r.setOld then (t, false)
  else if !r.setSpeed then (resetFlags t, false)
  else (speed1200 (resetFlags t), true)

/-- `UartEndpoint::open` (src/endpoint.cpp:864-952). -/
def uartOpen (r : TtyRes) (t : Termios) : Termios × Bool :=
  if !r.opened then (t, false)
  else
    match resetUart r t with
    | (t, false) => (t, false)
    | (t, true) =>
      if !r.get then (t, false)
      else if !r.set then (t, false)
      else (rawFlags t, r.flush)

/-- What the calls of `set_speed` and `set_flow_control` do. -/
structure SpeedRes where
  get : Bool := true
  set : Bool := true
  flush : Bool := true
deriving DecidableEq, Repr

/-- `set_speed` on an open port (src/endpoint.cpp:799-832). -/
def setSpeed (r : SpeedRes) (baud : Nat) (t : Termios) : Termios × Bool :=
  if !r.get then (t, false) else if !r.set then (t, false) else (speedFlags baud t, r.flush)

/-- `set_flow_control` on an open port (src/endpoint.cpp:834-862). -/
def setFlow (r : SpeedRes) (enabled : Bool) (t : Termios) : Termios × Bool :=
  if !r.get then (t, false) else if !r.set then (t, false) else (flowFlags enabled t, true)

/-- `UartEndpoint::setup` with the attributes of the port (src/endpoint.cpp:730-758); `rates` is not empty
(`validate_config`).  With several rates the result of the first `set_speed` is ignored (`add_speeds`, 1032-1048). -/
def ttySetup (r : TtyRes) (rs rf : SpeedRes) (rates : List Nat) (flow : Bool) (t : Termios) : Termios × Bool :=
  match uartOpen r t with
  | (t, false) => (t, false)
  | (t, true) =>
    let s := setSpeed rs (rates.getD 0 0) t
    if rates.length = 1 && !s.2 then (s.1, false)
    else if flow then setFlow rf true s.1
    else (s.1, true)

/-- Changes of the rate afterwards (`_change_baud_cb`, src/endpoint.cpp:954-966). -/
def ttyRates : List (SpeedRes × Nat) → Termios → Termios
  | [], t => t
  | (r, b) :: rs, t => ttyRates rs (setSpeed r b t).1

end Verif
