import Verif.Model.Open

/-
What opening links may leave behind.
-/

namespace Verif.Spec

/-- The descriptors open after some calls, if some were before. -/
def openAfter (fds : List Nat) : List Call → List Nat
  | [] => fds
  | .opened fd _ :: cs => openAfter (fd :: fds) cs
  | .closed fd :: cs => openAfter (fds.erase fd) cs
  | _ :: cs => openAfter fds cs

/-- The descriptors that are non-blocking after some calls, if some were before. -/
def nonblocking (fds : List Nat) : List Call → List Nat
  | [] => fds
  | .opened fd nb :: cs => nonblocking (if nb then fd :: fds else fds.filter (· ≠ fd)) cs
  | .setNonblock fd :: cs => nonblocking (fd :: fds) cs
  | .closed fd :: cs => nonblocking (fds.filter (· ≠ fd)) cs
  | .connect _ :: cs => nonblocking fds cs

/-- The kernel hands out only descriptors that are not open. -/
def FreshFds (cs : List Call) : Prop :=
  ∀ pre fd nb post, cs = pre ++ .opened fd nb :: post → fd ∉ openAfter [] pre

/-- Some `connect` may block. -/
def MayBlock (cs : List Call) : Prop :=
  ∃ pre fd post, cs = pre ++ .connect fd :: post ∧ fd ∉ nonblocking [] pre

/-- A hexadecimal digit, lower case. -/
def hexDigit (b : UInt8) : Option Nat :=
  if 48 ≤ b && b ≤ 57 then some (b.toNat - 48) else if 97 ≤ b && b ≤ 102 then some (b.toNat - 87) else none

/-- The value of a group of hexadecimal digits. -/
def groupVal (g : List UInt8) : Nat := g.foldl (fun v b => v * 16 + (hexDigit b).getD 0) 0

/-- A group of an IPv6 address: one to four digits. -/
def IsGroup (g : List UInt8) : Prop := 1 ≤ g.length ∧ g.length ≤ 4 ∧ ∀ b ∈ g, (hexDigit b).isSome

/-- The text of an address of eight groups. -/
def v6Text : List (List UInt8) → List UInt8
  | [] => []
  | [g] => g
  | g :: gs => g ++ 58 :: v6Text gs

/-- ff00::/8 -/
def IsMulticast (gs : List (List UInt8)) : Prop := groupVal (gs.getD 0 []) / 256 = 0xff
/-- fe80::/10 -/
def IsLinkLocal (gs : List (List UInt8)) : Prop := groupVal (gs.getD 0 []) / 64 = 0xfe80 / 64
/-- fc00::/7 -/
def IsUla (gs : List (List UInt8)) : Prop := groupVal (gs.getD 0 []) / 512 = 0xfc00 / 512

end Verif.Spec
