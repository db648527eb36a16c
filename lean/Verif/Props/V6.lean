import Verif.Spec.Open

/-
C98 kinds of IPv6 addresses, C99 scope of link-local addresses.
-/

namespace Verif

open Spec

theorem hexDigit_lt {b : UInt8} {n : Nat} (h : hexDigit b = some n) : n < 16 := by
  unfold hexDigit at h
  split at h
  · rename_i hb
    simp only [Bool.and_eq_true, decide_eq_true_eq, UInt8.le_iff_toNat_le] at hb
    simp only [Option.some.injEq] at h
    have : (57 : UInt8).toNat = 57 := rfl
    omega
  · split at h
    · rename_i hb
      simp only [Bool.and_eq_true, decide_eq_true_eq, UInt8.le_iff_toNat_le] at hb
      simp only [Option.some.injEq] at h
      have : (102 : UInt8).toNat = 102 := rfl
      omega
    · exact nomatch h

theorem hexDigit_inj {b c : UInt8} {n : Nat} (h : hexDigit b = some n) (h' : hexDigit c = some n) : b = c := by
  apply UInt8.toNat_inj.1
  have e48 : (48 : UInt8).toNat = 48 := rfl
  have e57 : (57 : UInt8).toNat = 57 := rfl
  have e97 : (97 : UInt8).toNat = 97 := rfl
  have e102 : (102 : UInt8).toNat = 102 := rfl
  unfold hexDigit at h h'
  simp only [Bool.and_eq_true, decide_eq_true_eq, UInt8.le_iff_toNat_le, e48, e57, e97, e102] at h h'
  split at h <;> split at h' <;> (try split at h) <;> (try split at h') <;>
    simp only [Option.some.injEq, reduceCtorEq] at h h' <;> omega

theorem hexDigit_iff {b c : UInt8} {n m : Nat} (h : hexDigit b = some n) (h' : hexDigit c = some m) : b = c ↔ n = m :=
  ⟨fun e => by subst e; simpa [h] using h', fun e => hexDigit_inj h (e ▸ h')⟩

theorem v6Text_head (g : List UInt8) (gs : List (List UInt8)) : ∃ t, v6Text (g :: gs) = g ++ t := by
  cases gs with
  | nil => exact ⟨[], by simp [v6Text]⟩
  | cons a as => exact ⟨58 :: v6Text (a :: as), rfl⟩

/-- The digits of a group of four. -/
theorem four_digits (g : List UInt8) (hg : IsGroup g) (h4 : g.length = 4) :
    ∃ a b c d na nb nc nd, g = [a, b, c, d] ∧ hexDigit a = some na ∧ hexDigit b = some nb ∧ hexDigit c = some nc ∧
      hexDigit d = some nd ∧ groupVal g = ((na * 16 + nb) * 16 + nc) * 16 + nd := by
  obtain ⟨a, b, c, d, rfl⟩ : ∃ a b c d, g = [a, b, c, d] := by
    match g, h4 with
    | [a, b, c, d], _ => exact ⟨a, b, c, d, rfl⟩
  have h := hg.2.2
  simp only [List.mem_cons, List.not_mem_nil, or_false, forall_eq_or_imp, forall_eq, Option.isSome_iff_exists] at h
  obtain ⟨⟨na, ha⟩, ⟨nb, hb⟩, ⟨nc, hc⟩, ⟨nd, hd⟩⟩ := h
  exact ⟨a, b, c, d, na, nb, nc, nd, rfl, ha, hb, hc, hd, by simp [groupVal, ha, hb, hc, hd]⟩

/-- C98 (part): if the first group is written with four digits, a UDP server whose address has the well-known multicast form
ff0x joins the group and listens on all addresses, other addresses are bound as they are.  Missing: the other
multicast addresses and shorter first groups, where it is false (`C98_violated`). -/
theorem C98_group_partial (canon : List UInt8 → List UInt8) (ifs : List IfAddr) (ip : List UInt8)
    (g : List UInt8) (gs : List (List UInt8)) (hc : canon ip = v6Text (g :: gs)) (hg : IsGroup g) (h4 : g.length = 4) :
    (udpV6Server canon ifs ip).bindAny = (udpV6Server canon ifs ip).join ∧
    ((udpV6Server canon ifs ip).join = true ↔ groupVal g / 16 = 0xff0) ∧
    ((udpV6Server canon ifs ip).join = true → IsMulticast (g :: gs)) := by
  obtain ⟨a, b, c, d, na, nb, nc, nd, rfl, ha, hb, hcc, hd, hv⟩ := four_digits g hg h4
  obtain ⟨t, ht⟩ := v6Text_head [a, b, c, d] gs
  have la := hexDigit_lt ha
  have lb := hexDigit_lt hb
  have lc := hexDigit_lt hcc
  have ld := hexDigit_lt hd
  have key : (udpV6Server canon ifs ip).join = true ↔ na = 15 ∧ nb = 15 ∧ nc = 0 := by
    rw [show (udpV6Server canon ifs ip).join = v6Multicast (canon ip) from rfl, hc, ht]
    rw [show v6Multicast ([a, b, c, d] ++ t) = ((102 : UInt8) == a && ((102 : UInt8) == b && ((48 : UInt8) == c && true)))
      from rfl]
    simp only [Bool.and_true, Bool.and_eq_true, beq_iff_eq]
    rw [hexDigit_iff (show hexDigit 102 = some 15 from rfl) ha, hexDigit_iff (show hexDigit 102 = some 15 from rfl) hb,
      hexDigit_iff (show hexDigit 48 = some 0 from rfl) hcc]
    omega
  refine ⟨rfl, ?_, fun h => ?_⟩
  · rw [key, hv]
    omega
  · have := key.1 h
    show groupVal [a, b, c, d] / 256 = 0xff
    rw [hv]
    omega

namespace Sample

/-- ff02:0:0:0:0:0:0:1 -/
def allNodes : List (List UInt8) := [ascii "ff02", [48], [48], [48], [48], [48], [48], [49]]
/-- ff15:0:0:0:0:0:0:1, a multicast address with the transient flag. -/
def transientGroup : List (List UInt8) := [ascii "ff15", [48], [48], [48], [48], [48], [48], [49]]
/-- ff0:0:0:0:0:0:0:1, a unicast address: the first group is 0x0ff0. -/
def notGroup : List (List UInt8) := [ascii "ff0", [48], [48], [48], [48], [48], [48], [49]]
/-- fe80:0:0:0:0:0:0:1 -/
def linkLocal : List (List UInt8) := [ascii "fe80", [48], [48], [48], [48], [48], [48], [49]]
/-- fc:0:0:0:0:0:0:1, a global address: the first group is 0x00fc. -/
def notLocal : List (List UInt8) := [ascii "fc", [48], [48], [48], [48], [48], [48], [49]]

end Sample

example : (udpV6Server id [] (v6Text Sample.allNodes)).join = true ∧
    (udpV6Server id [] (v6Text Sample.linkLocal)).join = false := by decide

/-- C98 is false: a server for ff15::1 does not join the group; a server for ff0::1, which is no multicast address, asks
to join a group.  Both are accepted by the validation. -/
theorem C98_violated :
    (validIp (91 :: v6Text Sample.transientGroup ++ [93]) = true ∧ IsMulticast Sample.transientGroup ∧
      ∀ ifs, (udpV6Server id ifs (v6Text Sample.transientGroup)).join = false) ∧
    (validIp (91 :: v6Text Sample.notGroup ++ [93]) = true ∧ ¬ IsMulticast Sample.notGroup ∧
      ∀ ifs, (udpV6Server id ifs (v6Text Sample.notGroup)).join = true) := by
  refine ⟨⟨by decide, by unfold IsMulticast; decide, fun ifs => ?_⟩, ⟨by decide, by unfold IsMulticast; decide, fun ifs => ?_⟩⟩
  · show v6Multicast (v6Text Sample.transientGroup) = false
    decide
  · show v6Multicast (v6Text Sample.notGroup) = true
    decide

/-
C99: scope of link-local addresses.
-/

/-- With a first group of four digits, an interface is looked up for fe80 and for fc00::/7. -/
theorem v6LinkLocal_four (g : List UInt8) (gs : List (List UInt8)) (hg : IsGroup g) (h4 : g.length = 4) :
    v6LinkLocal (v6Text (g :: gs)) = true ↔ groupVal g = 0xfe80 ∨ IsUla (g :: gs) := by
  obtain ⟨a, b, c, d, na, nb, nc, nd, rfl, ha, hb, hcc, hd, hv⟩ := four_digits g hg h4
  obtain ⟨t, ht⟩ := v6Text_head [a, b, c, d] gs
  have la := hexDigit_lt ha
  have lb := hexDigit_lt hb
  have lc := hexDigit_lt hcc
  have ld := hexDigit_lt hd
  rw [ht]
  rw [show v6LinkLocal ([a, b, c, d] ++ t) =
    (((102 : UInt8) == a && ((101 : UInt8) == b && ((56 : UInt8) == c && ((48 : UInt8) == d && true)))) ||
      ((102 : UInt8) == a && ((99 : UInt8) == b && true)) || ((102 : UInt8) == a && ((100 : UInt8) == b && true)))
    from rfl]
  simp only [Bool.and_true, Bool.or_eq_true, Bool.and_eq_true, beq_iff_eq]
  rw [hexDigit_iff (show hexDigit 102 = some 15 from rfl) ha, hexDigit_iff (show hexDigit 101 = some 14 from rfl) hb,
    hexDigit_iff (show hexDigit 56 = some 8 from rfl) hcc, hexDigit_iff (show hexDigit 48 = some 0 from rfl) hd,
    hexDigit_iff (show hexDigit 99 = some 12 from rfl) hb, hexDigit_iff (show hexDigit 100 = some 13 from rfl) hb]
  show _ ↔ groupVal [a, b, c, d] = 0xfe80 ∨ groupVal [a, b, c, d] / 512 = 0xfc00 / 512
  rw [hv]
  omega

/-- C99 (part): an endpoint whose link-local address (fe80, or fc00::/7, four digits) is an address of this host, in the form the
interfaces list has it, uses the first interface with that address; so does the socket a UDP server binds.  Missing: addresses of other hosts and other
spellings for TCP, where it is false (`C99_violated`). -/
theorem C99_own_partial (canon : List UInt8 → List UInt8) (udp : Bool) (ifs : List IfAddr) (ip : List UInt8)
    (g : List UInt8) (gs : List (List UInt8)) (ht : (if udp then canon ip else ip) = v6Text (g :: gs))
    (hg : IsGroup g) (h4 : g.length = 4) (hl : groupVal g = 0xfe80 ∨ IsUla (g :: gs))
    (pre post : List IfAddr) (a : IfAddr) (hifs : ifs = pre ++ a :: post) (ha : a.text = v6Text (g :: gs))
    (hpre : ∀ x ∈ pre, x.text ≠ v6Text (g :: gs)) :
    v6SockScope canon udp ifs ip = a.index ∧ (udp = true → (udpV6Server canon ifs ip).scope = a.index) := by
  have h1 := (v6LinkLocal_four g gs hg h4).2 hl
  have h2 : ifs.find? (fun x => decide (x.text = v6Text (g :: gs))) = some a := by
    rw [hifs, List.find?_append, List.find?_eq_none.2 (by simpa using hpre)]
    simp [ha]
  have h3 : v6SockScope canon udp ifs ip = a.index := by simp only [v6SockScope, ht, h1, if_true, v6Scope, h2]
  exact ⟨h3, fun hu => by subst hu; exact h3⟩

example : v6SockScope id true [⟨ascii "::1", 1⟩, ⟨v6Text Sample.linkLocal, 3⟩] (v6Text Sample.linkLocal) = 3 := by decide

/-- Other addresses carry no scope. -/
theorem C99_global (canon : List UInt8 → List UInt8) (udp : Bool) (ifs : List IfAddr) (ip : List UInt8)
    (g : List UInt8) (gs : List (List UInt8)) (ht : (if udp then canon ip else ip) = v6Text (g :: gs))
    (hg : IsGroup g) (h4 : g.length = 4) (h1 : ¬ IsLinkLocal (g :: gs)) (h2 : ¬ IsUla (g :: gs)) :
    v6SockScope canon udp ifs ip = 0 ∧ (udp = true → (udpV6Server canon ifs ip).scope = 0) := by
  have h3 : ¬ v6LinkLocal (v6Text (g :: gs)) = true := by
    rw [v6LinkLocal_four g gs hg h4]
    rintro (h | h)
    · exact h1 (by show groupVal g / 64 = 0xfe80 / 64; rw [h])
    · exact h2 h
  have h4 : v6SockScope canon udp ifs ip = 0 := by simp [v6SockScope, ht, h3]
  exact ⟨h4, fun hu => by subst hu; exact h4⟩

example : ¬ IsLinkLocal Sample.allNodes ∧ ¬ IsUla Sample.allNodes := by
  unfold IsLinkLocal IsUla; decide

/-- C99 is false: for a link-local address of another host no interface is found, so a client gets scope 0, with which the
kernel cannot reach a link-local address; a TCP client fails the same way for its own address in another spelling. -/
theorem C99_violated :
    (∀ canon udp ifs ip, (∀ a ∈ ifs, a.text ≠ (if udp then canon ip else ip)) → v6SockScope canon udp ifs ip = 0) ∧
    v6SockScope (fun _ => ascii "fe80::2") true [⟨ascii "fe80::1", 2⟩] (ascii "fe80::2") = 0 ∧
    v6SockScope (fun _ => ascii "fe80::1") false [⟨ascii "fe80::1", 2⟩] (ascii "fe80:0::1") = 0 ∧
    v6SockScope (fun _ => ascii "fe80::1") true [⟨ascii "fe80::1", 2⟩] (ascii "fe80:0::1") = 2 := by
  refine ⟨fun canon udp ifs ip h => ?_, by decide, by decide, by decide⟩
  simp only [v6SockScope]
  generalize (if udp = true then canon ip else ip) = t at h
  split
  · unfold v6Scope
    rw [List.find?_eq_none.2 (by simpa using h)]
  · rfl

end Verif
