import Verif.Spec.OpenV6
import Verif.Props.V6

/- Property C137: how an IPv6 link is opened depends on its configuration and the host only. -/

namespace Verif
open Spec

theorem scopeScan_listed (ip : List UInt8) : ∀ (as : List (Option (List UInt8) × Nat)), (∀ a ∈ as, a.1.isSome = true) → ∀ buf,
    scopeScan ip as buf = some (v6Scope (as.filterMap (fun a => a.1.map fun t => ⟨t, a.2⟩)) ip)
  | [], _, _ => rfl
  | (none, ix) :: as, h, _ => by cases h (none, ix) (by simp)
  | (some t, ix) :: as, h, buf => by
    have ih := scopeScan_listed ip as (fun a ha => h a (by simp [ha])) (some t)
    unfold v6Scope at ih ⊢
    simp only [scopeScan, Option.some_or, List.filterMap_cons, Option.map_some, List.find?_cons]
    by_cases ht : t = ip
    · simp [ht]
    · simp only [ht, if_false, decide_false]
      exact ih

theorem scopeIdV6_listed {lib : V6Lib} (h : Listed lib) (junk : V6Junk) (ip : List UInt8) :
    scopeIdV6 lib junk ip = some (v6Scope (listed lib) ip) := by
  obtain ⟨as, h1, h2⟩ := h
  unfold scopeIdV6
  rw [h1]
  simp only [scopeScan_listed ip as h2, listed, h1, Option.getD_some]

/-- With a library whose calls succeed, this is `Verif.Model.Open`: the scope, and whether a server joins a group and listens on all
addresses. -/
theorem udpOpenV6_plan {lib : V6Lib} (h : Listed lib) (junk : V6Junk) (server : Bool) (t : List UInt8) :
    ∃ r, udpOpenV6 lib junk server t = some r ∧ r.scope = v6SockScope (udpTextV6 lib junk) true (listed lib) t ∧
      (server = true → (r.join.isSome = true ↔ (udpV6Server (udpTextV6 lib junk) (listed lib) t).join = true)) := by
  unfold udpOpenV6 v6SockScope udpV6Server
  simp only [if_true]
  by_cases hl : v6LinkLocal (udpTextV6 lib junk t) = true
  · simp only [hl, if_true, scopeIdV6_listed h, Option.map_some]
    refine ⟨_, rfl, ?_, ?_⟩
    · split <;> rfl
    · rintro rfl; cases v6Multicast (udpTextV6 lib junk t) <;> simp
  · simp only [if_neg hl, Option.map_some]
    refine ⟨_, rfl, ?_, ?_⟩
    · split <;> rfl
    · rintro rfl; cases v6Multicast (udpTextV6 lib junk t) <;> simp

theorem isAny_v6Any : IsAny v6Any := ⟨by decide, by decide⟩

/-- C137 (part) for UDP: if the text is an IPv6 address and the interfaces can be listed, a client, or a server of an address that does
not look like a group, is opened alike whatever is in memory: on that address, if it is read back from its text, and without a group. Missing: servers of groups (`C137_violated_group`), texts that are
accepted but are no addresses (`C137_violated_address`), interfaces that cannot be listed (`C137_violated_interfaces`). -/
theorem C137_udp_partial (lib : V6Lib) (h : Listed lib) (server : Bool) (t : List UInt8) (a : List UInt8) (ha : lib.pton t = some a)
    (hm : server = true → v6Multicast (lib.ntop a) = false ∧ v6Multicast t = false) :
    SetOnly (fun junk => udpOpenV6 lib junk server t) ∧
    ∀ junk r, udpOpenV6 lib junk server t = some r → r.join = none ∧ (lib.pton (lib.ntop a) = some a → r.addr = a) ∧
      (lib.pton (lib.ntop a) = none → (lib.ntop a).length < t.length + 2 → IsAny r.addr) := by
  have hx : ∀ junk, udpTextV6 lib junk t = if (lib.ntop a).length < t.length + 2 then lib.ntop a else t := by
    intro junk; unfold udpTextV6; rw [ha]; rfl
  have hno : (server && v6Multicast (if (lib.ntop a).length < t.length + 2 then lib.ntop a else t)) = false := by
    cases server with
    | false => rfl
    | true =>
      obtain ⟨h1, h2⟩ := hm rfl
      split
      · rw [h1]; rfl
      · rw [h2]; rfl
  have hp : lib.pton (lib.ntop a) = some a →
      lib.pton (if (lib.ntop a).length < t.length + 2 then lib.ntop a else t) = some a := by
    intro h1; split
    · exact h1
    · exact ha
  have hz : lib.pton (lib.ntop a) = none → (lib.ntop a).length < t.length + 2 →
      lib.pton (if (lib.ntop a).length < t.length + 2 then lib.ntop a else t) = none := by
    intro h1 h2; rw [if_pos h2]; exact h1
  generalize (if (lib.ntop a).length < t.length + 2 then lib.ntop a else t) = x at hx hno hp hz
  have key : ∀ junk, udpOpenV6 lib junk server t = some { join := none, addr := (lib.pton x).getD v6Any, scope := if v6LinkLocal x then v6Scope (listed lib) x else 0 } := ?_
  · refine ⟨⟨_, key⟩, fun junk r hr => ?_⟩
    cases (key junk).symm.trans hr
    exact ⟨rfl, fun h1 => by simp [hp h1], fun h1 h2 => by rw [hz h1 h2]; exact isAny_v6Any⟩
  intro junk
  simp only [udpOpenV6, hx, hno, scopeIdV6_listed h]
  by_cases hl : v6LinkLocal x = true <;> simp [hl]

/-- C137 (part) for TCP: if the interfaces can be listed, or the address is not link-local, the link is opened alike, on the
address that the text means, or on any. Missing: as
above. -/
theorem C137_tcp_partial (lib : V6Lib) (t : List UInt8) (h : v6LinkLocal t = true → Listed lib) :
    SetOnly (fun junk => tcpOpenV6 lib junk t) ∧
    ∀ junk r, tcpOpenV6 lib junk t = some r → r.join = none ∧
      (∀ a, lib.pton t = some a → r.addr = a) ∧ (lib.pton t = none → IsAny r.addr) ∧ (v6LinkLocal t = false → r.scope = 0) := by
  have key : ∀ junk, tcpOpenV6 lib junk t = some { join := none, addr := (lib.pton t).getD v6Any, scope := if v6LinkLocal t then v6Scope (listed lib) t else 0 } := ?_
  · refine ⟨⟨_, key⟩, fun junk r hr => ?_⟩
    cases (key junk).symm.trans hr
    exact ⟨rfl, fun a ha => by simp [ha], fun hn => by rw [hn]; exact isAny_v6Any, fun hl => by simp [hl]⟩
  intro junk
  unfold tcpOpenV6
  by_cases hl : v6LinkLocal t = true
  · simp [hl, scopeIdV6_listed (h hl)]
  · simp [hl]

/-- C137 is false of servers of groups, all of them: whatever the library gives, the interface on which the group is joined is never
set; it can be any. (The socket itself listens on any address.) -/
theorem C137_violated_group (lib : V6Lib) (junk : V6Junk) (t : List UInt8) (r : V6Asks) (g : List UInt8) (n : Nat)
    (h : udpOpenV6 lib junk true t = some r) (hj : r.join = some (g, n)) (n' : Nat) :
    IsAny r.addr ∧ ∃ junk' r', udpOpenV6 lib junk' true t = some r' ∧ r'.join = some (g, n') := by
  have hany : IsAny r.addr := by
    unfold udpOpenV6 at h
    obtain ⟨s, _, h⟩ := Option.map_eq_some_iff.mp h
    split at h
    · subst h; exact isAny_v6Any
    · subst h; cases hj
  refine ⟨hany, { junk with groupIface := n' }, { r with join := some (g, n') }, ?_, rfl⟩
  have hx : udpTextV6 lib { junk with groupIface := n' } t = udpTextV6 lib junk t := rfl
  have hs : ∀ x, scopeIdV6 lib { junk with groupIface := n' } x = scopeIdV6 lib junk x := fun _ => rfl
  unfold udpOpenV6 at h ⊢
  simp only [hx, hs] at h ⊢
  generalize (if v6LinkLocal (udpTextV6 lib junk t) = true then scopeIdV6 lib junk (udpTextV6 lib junk t) else some 0) = sc at h ⊢
  cases sc with
  | none => cases h
  | some s =>
    simp only [Option.map_some, Option.some.injEq] at h ⊢
    by_cases hm : (true && v6Multicast (udpTextV6 lib junk t)) = true
    · simp only [hm, if_true] at h ⊢
      subst h
      simp only [Option.some.injEq, Prod.mk.injEq] at hj
      rw [hj.1]
    · simp only [if_neg hm] at h
      subst h
      cases hj

namespace Sample

/-- A text that the configuration accepts and that is no IPv6 address: nine groups. -/
def nineGroups : List UInt8 := ascii "1:2:3:4:5:6:7:8:9"

/-- A library that knows two addresses, and the interface 2 with the address fe80::1. -/
def v6lib : V6Lib :=
  { pton := fun t => if t = ascii "fe80::1" then some (0xfe :: 0x80 :: (List.replicate 13 0 ++ [1]))
      else if t = ascii "ff02::1" then some (0xff :: 0x02 :: (List.replicate 13 0 ++ [1])) else none
    ntop := fun a => if a.head? = some 0xfe then ascii "fe80::1" else ascii "ff02::1"
    ifs := some [(some (ascii "::1"), 1), (some (ascii "fe80::1"), 2)] }

def v6junk : V6Junk := { ipAddr := v6Any, groupAddr := v6Any, groupIface := 7, host := none }

end Sample

/-- C137 is false of texts that the configuration accepts although they are no addresses: a UDP client sends to whatever address was
left in memory, as far as its text is not longer. -/
theorem C137_violated_address : validIp (91 :: Sample.nineGroups ++ [93]) = true ∧
    ∀ (lib : V6Lib), lib.pton Sample.nineGroups = none → ∀ a, lib.pton (lib.ntop a) = some a →
      (lib.ntop a).length ≤ 18 → v6LinkLocal (lib.ntop a) = false →
      ∃ junk, udpOpenV6 lib junk false Sample.nineGroups = some { join := none, addr := a, scope := 0 } := by
  refine ⟨by decide +kernel, fun lib hn a ha hl hloc => ⟨{ Sample.v6junk with ipAddr := a }, ?_⟩⟩
  have hx : udpTextV6 lib { Sample.v6junk with ipAddr := a } Sample.nineGroups = lib.ntop a := by
    unfold udpTextV6
    rw [hn]
    have : Sample.nineGroups.length = 17 := by decide +kernel
    simp only [Option.getD_none, this]
    rw [if_pos (by omega)]
  unfold udpOpenV6
  simp [hx, hloc, ha]

/-- C137 is false if the interfaces cannot be listed: opening a link with a link-local address is undefined behaviour. -/
theorem C137_violated_interfaces (lib : V6Lib) (hi : lib.ifs = none) (junk : V6Junk) (t : List UInt8) (hl : v6LinkLocal t = true) :
    tcpOpenV6 lib junk t = none ∧ (∀ a server, lib.pton t = some a → lib.ntop a = t → udpOpenV6 lib junk server t = none) := by
  have hs : ∀ x, scopeIdV6 lib junk x = none := by intro x; unfold scopeIdV6; rw [hi]
  refine ⟨by simp [tcpOpenV6, hl, hs], fun a server ha hx => ?_⟩
  have : udpTextV6 lib junk t = t := by
    unfold udpTextV6; rw [ha]; simp [hx]
  simp [udpOpenV6, this, hl, hs]

/-- A client of fe80::1, with the interface of that address; a server of ff02::1 joins on interface 7, which nobody chose. -/
example : Listed Sample.v6lib ∧ Sample.v6lib.pton (ascii "fe80::1") ≠ none ∧
    v6Multicast (Sample.v6lib.ntop (0xfe :: 0x80 :: (List.replicate 13 0 ++ [1]))) = false ∧
    (udpOpenV6 Sample.v6lib Sample.v6junk false (ascii "fe80::1")).map V6Asks.scope = some 2 ∧
    (tcpOpenV6 Sample.v6lib Sample.v6junk (ascii "fe80::1")).map V6Asks.scope = some 2 ∧
    (udpOpenV6 Sample.v6lib Sample.v6junk true (ascii "ff02::1")).map V6Asks.join =
      some (some (0xff :: 0x02 :: (List.replicate 13 0 ++ [1]), 7)) ∧
    Sample.v6lib.pton (Sample.v6lib.ntop (0xfe :: 0x80 :: (List.replicate 13 0 ++ [1]))) = some (0xfe :: 0x80 :: (List.replicate 13 0 ++ [1])) ∧
    Sample.v6lib.pton Sample.nineGroups = none ∧ v6LinkLocal (ascii "fe80::1") = true := by
  refine ⟨⟨_, rfl, by decide +kernel⟩, by decide +kernel, by decide +kernel, by decide +kernel, by decide +kernel, by decide +kernel,
    by decide +kernel, by decide +kernel, by decide +kernel⟩

end Verif
