import Verif.Model.Termios

/-
What a terminal does to bytes (POSIX 11.1.9 - 11.2.5, termios(3)).
-/

namespace Verif.Spec
open Tty

/-- A bit is set. -/
def On (f m : BitVec 32) : Bool := f &&& m != 0

/-- A control character of the terminal. -/
def ctl (t : Termios) (k : Nat) : UInt8 := t.cc.getD k 0

/-- What the terminal makes of a byte received without error: what the program gets to read, or `none` if it does not get
it now (ignored, kept for line editing, or taken as a signal or flow control). -/
def ttyReceived (t : Termios) (b : UInt8) : Option (List UInt8) :=
  let b := if On t.iflag ISTRIP then b &&& 0x7f else b
  let b := if On t.iflag IUCLC && 65 ≤ b && b ≤ 90 then b + 32 else b
  if On t.cflag CREAD = false then none
  else if (On t.iflag IXON || On t.iflag IXOFF) && (b = ctl t VSTART || b = ctl t VSTOP) then none
  else if On t.lflag ISIG && (b = ctl t VINTR || b = ctl t VQUIT || b = ctl t VSUSP) then none
  else if On t.iflag IGNCR && b = 13 then none
  else if On t.lflag ICANON then none
  else
    let b := if On t.iflag ICRNL && b = 13 then 10 else if On t.iflag INLCR && b = 10 then 13 else b
    if On t.iflag PARMRK && b = 255 then some [255, 255] else some [b]

/-- What is sent on the line for a byte written in a column. -/
def ttyTransmitted (t : Termios) (column : Nat) (b : UInt8) : List UInt8 :=
  if On t.oflag OPOST = false then [b]
  else
    let b := if On t.oflag OLCUC && 97 ≤ b && b ≤ 122 then b - 32 else b
    if On t.oflag ONLCR && b = 10 then [13, 10]
    else if On t.oflag ONOCR && b = 13 && column = 0 then []
    else if On t.oflag OCRNL && b = 13 then [10]
    else if On t.oflag XTABS && b = 9 then List.replicate (8 - column % 8) 32
    else [b]

/-- Received bytes are echoed. -/
def echoes (t : Termios) : Bool :=
  On t.lflag ECHO || (On t.lflag ECHONL && On t.lflag ICANON)

/-- Eight data bits, no parity, one stop bit. -/
def Is8N1 (t : Termios) : Prop :=
  t.cflag &&& CSIZE = CS8 ∧ On t.cflag PARENB = false ∧ On t.cflag CSTOPB = false

/-- A read returns at once with what there is. -/
def NeverWaits (t : Termios) : Prop := ctl t VMIN = 0 ∧ ctl t VTIME = 0

/-- The port passes all bytes. -/
structure Transparent (t : Termios) : Prop where
  rx : ∀ b, ttyReceived t b = some [b]
  tx : ∀ column b, ttyTransmitted t column b = [b]
  echo : echoes t = false
  frame : Is8N1 t
  modem : On t.cflag CLOCAL = true
  reads : NeverWaits t

/-- Both directions have a speed: it is given as a number, the input speed follows the output speed. -/
def SpeedIs (t : Termios) (baud : Nat) : Prop :=
  t.cflag &&& CBAUD = BOTHER ∧ t.cflag &&& CIBAUD = 0 ∧ t.ispeed = baud ∧ t.ospeed = baud

end Verif.Spec
