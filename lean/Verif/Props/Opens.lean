import Verif.Props.Open
import Verif.Props.V6
import Verif.Props.Link
import Verif.Props.Addr

/-
C122: a link opens exactly if the kernel lets it.
-/

namespace Verif

open Spec

namespace Spec

/-- The descriptor a new link asks for and what the kernel answers to everything else the link needs: a serial device all its
settings; a UDP client broadcasts and not to block; a UDP server its group if it has one, its port and not to block; a TCP client
its connection and not to block; the listening socket its port and to listen; an accepted connection not to delay. -/
def linkNeeds : ProcEv → Option (Option Nat × List Bool)
  | .uart o st => some (o, st)
  | .udp false _ r => some (r.socket, [r.broadcast, r.fcntl])
  | .udp true false r => some (r.socket, [r.bind, r.fcntl])
  | .udp true true r => some (r.socket, [r.join, r.bind, r.fcntl])
  | .tcp _ r => some (r.socket, [r.connect, r.fcntl])
  | .listen s b l => some (s, [b, l])
  | .accept a n => some (a, [n])
  | .retry _ _ => none
  | .close _ => none

end Spec

/-- **C122** (part): a new link comes to the others, which stay as they are, and has a descriptor iff the kernel grants it
everything it needs. Missing: TCP clients whose address is seen as multicast, where it is false (`C122_violated`). -/
theorem C122_opens_partial (ls : List ProcLink) (e : ProcEv) (need : Option Nat × List Bool) (he : linkNeeds e = some need)
    (hg : ∀ r, e ≠ .tcp true r) :
    ∃ l, (procStep ls e).1 = ls ++ [l] ∧ ∀ fd, l.fd = some fd ↔ need.1 = some fd ∧ ∀ b ∈ need.2, b = true := by
  cases e with
  | uart o st =>
    cases he
    refine ⟨_, rfl, fun fd => ?_⟩
    cases o with
    | none => simp [uartOpenFd]
    | some f =>
      simp only [uartOpenFd]
      by_cases h : st.all id = true
      · rw [if_pos h]
        simp only [Option.some.injEq]
        exact ⟨fun h' => ⟨h', by simpa using h⟩, fun h' => h'.1⟩
      · rw [if_neg h]
        simp only [reduceCtorEq, Option.some.injEq, false_iff]
        exact fun h' => h (by simpa using h'.2)
  | udp sv g r =>
    obtain ⟨s, j, b, br, fc⟩ := r
    cases sv <;> cases g <;> cases he <;> refine ⟨_, rfl, fun fd => ?_⟩ <;>
      cases s <;> cases j <;> cases b <;> cases br <;> cases fc <;> simp [udpOpen, udpSocket]
  | tcp g r =>
    obtain ⟨s, c, fc⟩ := r
    cases g
    · cases he
      refine ⟨_, rfl, fun fd => ?_⟩
      cases s <;> cases c <;> cases fc <;> simp [tcpOpen]
    · exact absurd rfl (hg _)
  | listen s b l => cases he; refine ⟨_, rfl, fun fd => ?_⟩; cases s <;> cases b <;> cases l <;> simp [tcpListen]
  | accept a n => cases he; refine ⟨_, rfl, fun fd => ?_⟩; cases a <;> cases n <;> simp [tcpAccept]
  | retry i r => cases he
  | close i => cases he

example : linkNeeds (.udp true true { socket := some 4 }) = some (some 4, [true, true, true]) ∧
    (procStep [] (.udp true true { socket := some 4 })).1 = [{ fd := some 4 }] ∧
    (procStep [] (.udp true true { socket := some 4, join := false })).1 = [{ fd := none }] := ⟨rfl, rfl, rfl⟩

/-- **C122** (part): so does an attempt of a TCP client to connect again; nothing else changes. -/
theorem C122_again_partial (ls : List ProcLink) (i : Nat) (r : TcpRes) (hi : ls[i]? = some { tcpGroup := some false, fd := none }) :
    ∃ l, (procStep ls (.retry i r)).1 = ls.set i l ∧ l.tcpGroup = some false ∧
      ∀ fd, l.fd = some fd ↔ r.socket = some fd ∧ r.connect = true ∧ r.fcntl = true := by
  obtain ⟨s, c, fc⟩ := r
  refine ⟨{ tcpGroup := some false, fd := (tcpOpen false ⟨s, c, fc⟩).1 }, by simp only [procStep, hi], rfl, fun fd => ?_⟩
  cases s <;> cases c <;> cases fc <;> simp [tcpOpen]

example : (procStep [{ tcpGroup := some false, fd := none }] (.retry 0 { socket := some 7 })).1 = [{ tcpGroup := some false, fd := some 7 }] := rfl

/-- **C122**: of the accepted addresses, a TCP client takes exactly those for multicast, and refuses them, that begin with `[ff0`. -/
theorem C122_seen (ip : List UInt8) (h : validIp ip = true) : tcpSeesGroup ip = true ↔ ∃ t, ip = [91, 102, 102, 48] ++ t := by
  rcases C62_shapes ip h with ⟨hq, hv⟩ | ⟨t, rfl, hc, hv, hs⟩
  · simp only [tcpSeesGroup, hv, Bool.false_and, Bool.false_eq_true, false_iff]
    rintro ⟨t, rfl⟩
    simp [ipIsV6] at hv
  · simp only [tcpSeesGroup, hv, hs, Bool.true_and]
    rw [v6Multicast, List.isPrefixOf_iff_prefix, show ascii "ff0" = [102, 102, 48] from rfl]
    constructor
    · rintro ⟨u, rfl⟩
      exact ⟨u ++ [93], by simp⟩
    · rintro ⟨u, hu⟩
      have hu' : t ++ [93] = [102, 102, 48] ++ u := by simpa using hu
      rcases List.append_eq_append_iff.mp hu' with ⟨a, ha, hb⟩ | ⟨c, hc', hd⟩
      · cases a with
        | nil => exact ⟨[], by simpa using ha⟩
        | cons x xs =>
          have hx : x = 93 := by simpa using (List.cons.inj hb).1.symm
          have : (93 : UInt8) ∈ ([102, 102, 48] : List UInt8) := ha ▸ hx ▸ (by simp)
          exact absurd this (by decide)
      · exact ⟨c, hc'.symm⟩

/-- **C122** (part): a TCP client for a dotted IPv4 address, or for an IPv6 address that is no multicast address and whose first group
has four digits, opens exactly if the kernel grants the socket, the connection and not to block. -/
theorem C122_tcp_partial (ip : List UInt8) (h : validIp ip = true)
    (ha : ip.head? ≠ some 91 ∨ ∃ g gs, ip = 91 :: v6Text (g :: gs) ++ [93] ∧ IsGroup g ∧ g.length = 4 ∧ ¬ IsMulticast (g :: gs))
    (ls : List ProcLink) (r : TcpRes) :
    ∃ l, (procStep ls (.tcp (tcpSeesGroup ip) r)).1 = ls ++ [l] ∧
      ∀ fd, l.fd = some fd ↔ r.socket = some fd ∧ r.connect = true ∧ r.fcntl = true := by
  have hs : tcpSeesGroup ip = false := by
    rw [← Bool.not_eq_true, C122_seen ip h]
    rintro ⟨t, rfl⟩
    rcases ha with ha | ⟨g, gs, hi, hg, h4, hm⟩
    · exact ha rfl
    · obtain ⟨a, b, c, d, na, nb, nc, nd, rfl, ha, hb, hc, hd, hv⟩ := four_digits g hg h4
      obtain ⟨u, hu⟩ := v6Text_head [a, b, c, d] gs
      rw [hu] at hi
      simp only [List.cons_append, List.nil_append, List.cons.injEq] at hi
      obtain ⟨-, rfl, rfl, rfl, -⟩ := hi
      have ld := hexDigit_lt hd
      have e1 : hexDigit 102 = some 15 := rfl
      have e2 : hexDigit 48 = some 0 := rfl
      rw [e1] at ha hb
      rw [e2] at hc
      cases ha; cases hb; cases hc
      exact hm (by show groupVal [102, 102, 48, d] / 256 = 0xff; rw [hv]; omega)
  rw [hs]
  obtain ⟨l, hl, hf⟩ := C122_opens_partial ls (.tcp false r) _ rfl (fun r' => by simp)
  exact ⟨l, hl, fun fd => by simpa using hf fd⟩

example : validIp (91 :: v6Text Sample.linkLocal ++ [93]) = true ∧ ¬ IsMulticast Sample.linkLocal ∧
    (procStep [] (.tcp (tcpSeesGroup (91 :: v6Text Sample.linkLocal ++ [93])) { socket := some 7 })).1 =
      [{ tcpGroup := some false, fd := some 7 }] := ⟨by decide, by unfold IsMulticast; decide, by decide⟩

/-- The text [ff0:0:0:0:0:0:0:1]. -/
def Sample.notGroupIp : List UInt8 := 91 :: v6Text Sample.notGroup ++ [93]

/-- **C122** is false: a TCP client for ff0::1, which is no multicast address, is accepted and never opens, whatever the kernel
grants, also when it tries again. -/
theorem C122_violated :
    validIp Sample.notGroupIp = true ∧ ¬ IsMulticast Sample.notGroup ∧
      ∀ (ls : List ProcLink) (r : TcpRes), ∃ l, (procStep ls (.tcp (tcpSeesGroup Sample.notGroupIp) r)).1 = ls ++ [l] ∧ l.fd = none ∧
        ∀ (ls' : List ProcLink) (i : Nat) (r' : TcpRes), ls'[i]? = some l → (procStep ls' (.retry i r')).1 = ls' := by
  have hs : tcpSeesGroup Sample.notGroupIp = true := by decide
  have ho : ∀ r, (tcpOpen true r).1 = none := by
    rintro ⟨s, c, f⟩
    cases s <;> rfl
  refine ⟨by decide, by unfold IsMulticast; decide, fun ls r => ?_⟩
  rw [hs]
  refine ⟨{ tcpGroup := some true, fd := none }, by simp [procStep, ho r], rfl, fun ls' i r' h => ?_⟩
  simp only [procStep, h, ho r']
  obtain ⟨hl, hx⟩ := List.getElem?_eq_some_iff.mp h
  refine List.ext_getElem? (fun k => ?_)
  rw [List.getElem?_set]
  split
  · rename_i hk; subst hk; simp [hl, hx]
  · rfl

/-- **C29**, C84: what `write_msg` of a link reports is what the kernel answered: -32 (`-EPIPE`, upon which broken connections are
looked for) exactly if the link is UDP or TCP, a system call was made, and that was the answer. -/
theorem C29_reported (k : LinkKind) (tx : Tx) (msg : List UInt8) (res : SysRes) (hr : ∀ e, res = .other e → e ≠ 32) :
    (writeLink k tx msg res).2.2 = -32 ↔ k ≠ .uart ∧ (writeLink k tx msg res).2.1 = some msg ∧ res = .epipe := by
  cases k <;> cases res <;> simp only [writeLink] <;> cases h : tx.fdOpen <;>
    first
      | (simp [SysRes.neg]; done)
      | (simp [SysRes.neg]; omega)
      | (by_cases hp : tx.port = 0 <;> simp [hp, SysRes.neg] <;> omega)
      | (rename_i e; have := hr e rfl; simp [SysRes.neg]; omega)
      | (rename_i e; have := hr e rfl; by_cases hp : tx.port = 0 <;> simp [hp, SysRes.neg] <;> omega)

example : (writeLink .tcp { fdOpen := true } [1, 2] .epipe).2.2 = -32 ∧ (writeLink .uart { fdOpen := true } [1, 2] .epipe).2.2 = -1 := by
  decide

end Verif
