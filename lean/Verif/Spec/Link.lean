import Verif.Model.Link

/- Specifications for C26, C27, C30, C31. -/

namespace Verif.Spec

/-! ### UDP -/

/-- The event is a received datagram. -/
def isDatagram : UdpEv → Bool
  | .recv _ (.datagram _ _) => true
  | _ => false

/-- Address of the most recent datagram of a history. -/
def lastSender : List UdpEv → Option Addr
  | [] => none
  | e :: es =>
    match lastSender es with
    | some a => some a
    | none =>
      match e with
      | .recv _ (.datagram a _) => some a
      | _ => none

/-- The no-message timer was served at least 5 s after time `t`. -/
def ServedAfter (t : Nat) (es : List UdpEv) : Prop := ∃ now, .timer now ∈ es ∧ t + 5000 ≤ now

/-! ### UART -/

/-- No known valid message was received. -/
def noKnown (es : List UartEv) : Prop := .read true ∉ es

/-- Number of 5 s periods since `t0`, later than the `k`-th, in which the timer was served (each counts once). -/
def periodsServed (t0 : Nat) : Nat → List UartEv → Nat
  | _, [] => 0
  | k, .read _ :: es => periodsServed t0 k es
  | k, .timer now _ :: es =>
    if k < (now - t0) / 5000 then 1 + periodsServed t0 ((now - t0) / 5000) es else periodsServed t0 k es

/-- The device took every rate it was asked for. -/
def AllSet (es : List UartEv) : Prop := ∀ now sp, .timer now sp ∈ es → sp ≠ .notSet

/-- The rate in use is the last one the device took. -/
def lastTaken (asked : List (Nat × Bool)) : Option Nat := ((asked.filter (·.2)).getLast?).map (·.1)

/-- The first `n` rates of the cycle through `rates`. -/
def cycle (rates : List Nat) (n : Nat) : List Nat := (List.range n).filterMap fun i => rates[i % rates.length]?

/-! ### Writing -/

/-- Messages offered to the endpoint. -/
def offered : List TxEv → List (List UInt8)
  | [] => []
  | .offer m _ :: es => m :: offered es
  | _ :: es => offered es

/-- Messages offered while the link is up (descriptor open, UDP peer known), with the result of the system call. -/
def attempts (k : LinkKind) : Bool → UInt16 → List TxEv → List (List UInt8 × SysRes)
  | _, _, [] => []
  | up, port, .offer m r :: es =>
    if up ∧ (k = .udp → port ≠ 0) then (m, r) :: attempts k up port es else attempts k up port es
  | up, port, .canWrite :: es => attempts k up port es
  | _, port, .conn o :: es => attempts k o port es
  | up, _, .peer p :: es => attempts k up p es

/-- The kernel took some of it; the UART code also counts failed writes, except for "would block". -/
def sent (k : LinkKind) : List UInt8 × SysRes → Bool
  | (_, .took _) => true
  | (_, .eagain) => false
  | (_, _) => k = .uart

/-- The kernel took all of it. -/
def whole : List UInt8 × SysRes → Bool
  | (m, .took n) => n = m.length
  | _ => false

end Verif.Spec
