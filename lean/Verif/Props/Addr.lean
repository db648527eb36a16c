import Verif.Model.Addr
import Verif.Spec.Addr
import Verif.Props.Config

/-
C62, C71, C72: endpoint addresses.
-/

namespace Verif
open Spec.Conf

/-! ### Splitting -/

theorem splitB_ne (c : UInt8) (acc s : List UInt8) : splitB c acc s ≠ [] := by
  induction s generalizing acc with
  | nil => simp [splitB]
  | cons b s ih => unfold splitB; split <;> simp_all

theorem joined_cons (c : UInt8) (x : List UInt8) {r : List (List UInt8)} (h : r ≠ []) :
    joined c (x :: r) = x ++ c :: joined c r := by
  cases r with
  | nil => exact absurd rfl h
  | cons y r => rfl

theorem joined_splitB (c : UInt8) (acc s : List UInt8) : joined c (splitB c acc s) = acc.reverse ++ s := by
  induction s generalizing acc with
  | nil => simp [splitB, joined]
  | cons b s ih =>
    by_cases hb : b = c
    · subst hb
      rw [show splitB b acc (b :: s) = acc.reverse :: splitB b [] s by simp [splitB],
        joined_cons b _ (splitB_ne _ _ _), ih]
      simp
    · rw [show splitB c acc (b :: s) = splitB c (b :: acc) s by simp [splitB, hb], ih]
      simp

theorem splitB_clean (c : UInt8) (acc s : List UInt8) (h : c ∉ acc) : ∀ p ∈ splitB c acc s, c ∉ p := by
  induction s generalizing acc with
  | nil => simpa [splitB] using h
  | cons b s ih =>
    by_cases hb : b = c
    · subst hb
      rw [show splitB b acc (b :: s) = acc.reverse :: splitB b [] s by simp [splitB]]
      intro p hp
      rcases List.mem_cons.1 hp with rfl | hp
      · simpa using h
      · exact ih [] (by simp) p hp
    · rw [show splitB c acc (b :: s) = splitB c (b :: acc) s by simp [splitB, hb]]
      refine ih _ ?_
      simp only [List.mem_cons, not_or]
      exact ⟨fun h => hb h.symm, h⟩

theorem splitB_append {c : UInt8} {x : List UInt8} (hx : c ∉ x) (acc s : List UInt8) :
    splitB c acc (x ++ s) = splitB c (x.reverse ++ acc) s := by
  induction x generalizing acc with
  | nil => rfl
  | cons a x ih =>
    simp only [List.mem_cons, not_or] at hx
    have ha : a ≠ c := fun h => hx.1 h.symm
    rw [List.cons_append, show splitB c acc (a :: (x ++ s)) = splitB c (a :: acc) (x ++ s) by simp [splitB, ha],
      ih hx.2]
    simp

theorem splitB_joined {c : UInt8} {ps : List (List UInt8)} (hne : ps ≠ []) (h : ∀ p ∈ ps, c ∉ p) :
    splitB c [] (joined c ps) = ps := by
  induction ps with
  | nil => exact absurd rfl hne
  | cons x r ih =>
    cases r with
    | nil =>
      have := splitB_append (h x (by simp)) [] []
      simpa [joined, splitB] using this
    | cons y r =>
      rw [joined_cons c x (by simp), splitB_append (h x (by simp))]
      rw [show splitB c (x.reverse ++ []) (c :: joined c (y :: r)) = x :: splitB c [] (joined c (y :: r)) by
        simp [splitB]]
      rw [ih (by simp) fun p hp => h p (by simp [hp])]

theorem digits_iff (p : List UInt8) : p.all isDigitB = true ↔ Digits p := by
  unfold Digits isDigitB
  simp only [List.all_eq_true, Bool.and_eq_true, decide_eq_true_eq, UInt8.le_iff_toNat_le]
  rfl

theorem hexDigits_iff (p : List UInt8) : p.all isHexB = true ↔ HexDigits p := by
  unfold HexDigits isHexB isDigitB
  simp only [List.all_eq_true, Bool.and_eq_true, Bool.or_eq_true, decide_eq_true_eq, UInt8.le_iff_toNat_le]
  rfl

theorem Spec.Conf.Digits.free {p : List UInt8} (h : Digits p) (c : UInt8) (hc : c.toNat < 48 ∨ 57 < c.toNat) :
    c ∉ p := by
  intro hm; have := h c hm; omega

theorem validIpv4_iff (ip : List UInt8) : validIpv4 ip = true ↔ Quad ip := by
  unfold validIpv4 Quad
  simp only [Bool.and_eq_true, beq_iff_eq, List.all_eq_true, decide_eq_true_eq]
  constructor
  · rintro ⟨h1, h2⟩
    match hs : splitB 46 [] ip, h1 with
    | [a, b, c, d], _ =>
      refine ⟨a, b, c, d, ?_, ?_⟩
      · have := joined_splitB 46 [] ip
        rw [hs] at this; simpa using this.symm
      · intro p hp
        have := h2 p (by rw [hs]; exact hp)
        exact ⟨(digits_iff p).1 (by simpa [List.all_eq_true] using this.2), this.1.1, this.1.2⟩
  · rintro ⟨a, b, c, d, rfl, h⟩
    rw [splitB_joined (by simp) fun p hp => (h p hp).1.free 46 (by decide)]
    refine ⟨rfl, ?_⟩
    intro p hp
    obtain ⟨h1, h2, h3⟩ := h p hp
    exact ⟨⟨h2, h3⟩, by simpa [List.all_eq_true] using (digits_iff p).2 h1⟩

theorem validIpv6_iff (ip : List UInt8) : validIpv6 ip = true ↔ ∃ t, ip = 91 :: (t ++ [93]) ∧ Colons t := by
  have body : ∀ t : List UInt8, (decide (2 ≤ (splitB 58 [] t).length) &&
      (splitB 58 [] t).all fun p => decide (p.length ≤ 4) && p.all isHexB) = true ↔ Colons t := by
    intro t
    unfold Colons
    rw [Bool.and_eq_true, decide_eq_true_eq]
    constructor
    · rintro ⟨h1, h2⟩
      refine ⟨_, h1, by simpa using (joined_splitB 58 [] t).symm, ?_⟩
      intro g hg
      have := List.all_eq_true.1 h2 g hg
      rw [Bool.and_eq_true, decide_eq_true_eq] at this
      exact ⟨(hexDigits_iff g).1 this.2, this.1⟩
    · rintro ⟨gs, h1, rfl, h2⟩
      have hfree : ∀ g ∈ gs, (58 : UInt8) ∉ g := by
        intro g hg hm
        have := (h2 g hg).1 58 hm
        revert this; decide
      rw [splitB_joined (by intro h; rw [h] at h1; simp at h1) hfree]
      refine ⟨h1, List.all_eq_true.2 fun g hg => ?_⟩
      rw [Bool.and_eq_true, decide_eq_true_eq]
      exact ⟨(h2 g hg).2, (hexDigits_iff g).2 (h2 g hg).1⟩
  constructor
  · intro h
    unfold validIpv6 at h
    split at h
    · next r =>
      split at h
      · next m hm =>
        refine ⟨m.reverse, ?_, (body _).1 h⟩
        have : r = (93 :: m).reverse := by rw [← hm]; simp
        rw [this]; simp
      · cases h
    · cases h
  · rintro ⟨t, rfl, ht⟩
    unfold validIpv6
    simp only [List.reverse_append, List.reverse_cons, List.reverse_nil, List.nil_append, List.cons_append,
      List.reverse_reverse]
    exact (body t).2 ht

/-! ### C62 -/

/-- C62: an accepted address is four groups of digits, handled as IPv4; or a text in brackets,
handled as IPv6, where stripping the brackets gives the text between them and stays inside the
string. -/
theorem C62_shapes (ip : List UInt8) (h : validIp ip = true) :
    (Quad ip ∧ ipIsV6 ip = false) ∨
    ∃ t, ip = 91 :: (t ++ [93]) ∧ Colons t ∧ ipIsV6 ip = true ∧ stripBrackets ip = some t := by
  unfold validIp at h
  rw [Bool.or_eq_true, validIpv4_iff, validIpv6_iff] at h
  rcases h with h | ⟨t, rfl, h⟩
  · refine Or.inl ⟨h, ?_⟩
    obtain ⟨a, b, c, d, rfl, hd⟩ := h
    have hf : ∀ p ∈ [a, b, c, d], (91 : UInt8) ∉ p := fun p hp => (hd p hp).1.free 91 (by decide)
    simp only [List.mem_cons, List.not_mem_nil, or_false, forall_eq_or_imp, forall_eq] at hf
    simp [ipIsV6, joined, hf]
  · refine Or.inr ⟨t, rfl, h, by simp [ipIsV6], ?_⟩
    simp [stripBrackets]

/-- C62: exactly these shapes are accepted. -/
theorem C62_accepted (ip : List UInt8) :
    validIp ip = true ↔ Quad ip ∨ ∃ t, ip = 91 :: (t ++ [93]) ∧ Colons t := by
  unfold validIp
  rw [Bool.or_eq_true, validIpv4_iff, validIpv6_iff]

example : validIp (ascii "192.168.7.1") = true ∧ validIp (ascii "[fe80::1]") = true ∧
    validIp (ascii "fe80::1") = false ∧ validIp (ascii "localhost") = false := by decide +kernel

/-- C62 for every endpoint read from files: opening its socket does not leave the address text. -/
theorem C62_endpoints (ss : List CfgSection) (c : Config) (hc : readConfig ss {} = .ok c) {A : Type}
    (pton : List UInt8 → Option A) (ntop : A → List UInt8) :
    (∀ o ∈ c.udp, sockAddrUdp pton ntop o.address ≠ .ub) ∧ (∀ o ∈ c.tcp, sockAddr pton o.address ≠ .ub) := by
  have key : ∀ ip, validIp ip = true → sockAddr pton ip ≠ .ub ∧ sockAddrUdp pton ntop ip ≠ .ub := by
    intro ip h
    unfold sockAddr sockAddrUdp
    rcases C62_shapes ip h with ⟨_, h1⟩ | ⟨t, _, _, h1, h2⟩
    · simp [h1]
    · rw [h1, h2]
      simp only [if_true]
      cases pton t with
      | none => simp
      | some a =>
        refine ⟨by simp, ?_⟩
        simp only
        split <;> simp
  obtain ⟨_, _, ⟨vs, e2, hv⟩, ⟨ws, e3, hw⟩⟩ := readConfig_ok hc
  refine ⟨?_, ?_⟩
  · intro o ho
    rw [e2, List.nil_append] at ho
    obtain ⟨s, _, port, hr, _⟩ := hv.each.mem_right ho
    simp only [UdpConf.valid, Bool.and_eq_true] at hr
    exact (key _ hr.1.1.2).2
  · intro o ho
    rw [e3, List.nil_append] at ho
    obtain ⟨s, _, hr, _⟩ := hw.mem_right ho
    simp only [TcpConf.valid, Bool.and_eq_true] at hr
    exact (key _ hr.1.2).1

example : (Sample.confFullRead.tcp.map fun o => sockAddr (fun t => some t) o.address) = [.v6 (ascii "::1")] := by
  decide +kernel

/-! ### C71 -/

theorem inetPart_decimal {t : List UInt8} {n : Nat} (h : Decimal t n) (hn : n ≤ 255) : inetPart t = some n := by
  have hc := numeral10_cnumber h.1 h.2
  unfold inetPart
  rw [(scanNum0_iff _ _ _).2 hc]
  simp [hn]

theorem decimal_free {t : List UInt8} {n : Nat} (h : Decimal t n) : (46 : UInt8) ∉ t ∧ (91 : UInt8) ∉ t := by
  have key := ((numeral_iff _ _ _).1 h.1).2.1
  constructor <;> intro hm <;> have := key _ hm <;> revert this <;> decide

/-- C71 for plain decimal notation of numbers up to 255: the socket address is the one written.
Missing: numbers above 255 and leading zeros, which are accepted too, see `C71_violated`. -/
theorem C71_ipv4_partial (ip : List UInt8) (a b c d : Nat) (h : Ipv4Text ip a b c d) {A : Type}
    (pton : List UInt8 → Option A) (ntop : A → List UInt8) :
    sockAddr pton ip = .v4 (a * 2 ^ 24 + b * 2 ^ 16 + c * 2 ^ 8 + d) ∧
    sockAddrUdp pton ntop ip = .v4 (a * 2 ^ 24 + b * 2 ^ 16 + c * 2 ^ 8 + d) := by
  obtain ⟨ta, tb, tc, td, rfl, ⟨ha, ha'⟩, ⟨hb, hb'⟩, ⟨hc, hc'⟩, ⟨hd, hd'⟩⟩ := h
  have h6 : ipIsV6 (joined 46 [ta, tb, tc, td]) = false := by
    simp [ipIsV6, joined, decimal_free ha, decimal_free hb, decimal_free hc, decimal_free hd]
  have hs : splitB 46 [] (joined 46 [ta, tb, tc, td]) = [ta, tb, tc, td] := by
    refine splitB_joined (by simp) ?_
    intro p hp
    simp only [List.mem_cons, List.not_mem_nil, or_false] at hp
    rcases hp with rfl | rfl | rfl | rfl
    · exact (decimal_free ha).1
    · exact (decimal_free hb).1
    · exact (decimal_free hc).1
    · exact (decimal_free hd).1
  unfold sockAddr sockAddrUdp inetAddr
  rw [h6, hs]
  simp [inetPart_decimal ha ha', inetPart_decimal hb hb', inetPart_decimal hc hc', inetPart_decimal hd hd']

theorem decimal_of {t : List UInt8} {n : Nat} (h : Numeral 10 t n) (h' : t.head? ≠ some 48 ∨ t = [48]) : Decimal t n := by
  refine ⟨h, ?_⟩
  rcases h' with h' | h'
  · right; rintro r rfl; exact h' rfl
  · exact Or.inl h'

example : Ipv4Text (ascii "192.168.7.0") 192 168 7 0 :=
  ⟨ascii "192", ascii "168", ascii "7", ascii "0", by decide,
    ⟨decimal_of ((numeral_iff _ _ _).2 (by decide +kernel)) (by decide), by decide⟩,
    ⟨decimal_of ((numeral_iff _ _ _).2 (by decide +kernel)) (by decide), by decide⟩,
    ⟨decimal_of ((numeral_iff _ _ _).2 (by decide +kernel)) (by decide), by decide⟩,
    ⟨decimal_of ((numeral_iff _ _ _).2 (by decide +kernel)) (by decide), by decide⟩⟩

/-- C71 for what is accepted: an accepted address is either in brackets or consists of exactly four
groups of one to three digits, and if these are plain decimal numbers up to 255, the socket address
has these four.  Missing: the other groups of digits, see `C71_violated`. -/
theorem C71_accepted_partial (ip : List UInt8) (h : validIp ip = true) (h6 : ip.head? ≠ some 91) :
    ∃ ta tb tc td, ip = joined 46 [ta, tb, tc, td] ∧ (∀ p ∈ [ta, tb, tc, td], Digits p ∧ 1 ≤ p.length ∧ p.length ≤ 3) ∧
      ∀ a b c d, Decimal ta a → Decimal tb b → Decimal tc c → Decimal td d → a ≤ 255 → b ≤ 255 → c ≤ 255 → d ≤ 255 →
        ∀ {A : Type} (pton : List UInt8 → Option A) (ntop : A → List UInt8),
          sockAddr pton ip = .v4 (a * 2 ^ 24 + b * 2 ^ 16 + c * 2 ^ 8 + d) ∧
          sockAddrUdp pton ntop ip = .v4 (a * 2 ^ 24 + b * 2 ^ 16 + c * 2 ^ 8 + d) := by
  unfold validIp at h
  rw [Bool.or_eq_true, validIpv4_iff, validIpv6_iff] at h
  rcases h with ⟨ta, tb, tc, td, h1, h2⟩ | ⟨t, rfl, _⟩
  · refine ⟨ta, tb, tc, td, h1, h2, ?_⟩
    intro a b c d ha hb hc hd ha' hb' hc' hd' A pton ntop
    exact C71_ipv4_partial ip a b c d ⟨ta, tb, tc, td, h1, ⟨ha, ha'⟩, ⟨hb, hb'⟩, ⟨hc, hc'⟩, ⟨hd, hd'⟩⟩ pton ntop
  · exact absurd rfl h6

example : validIp (ascii "192.168.7.0") = true ∧ (ascii "192.168.7.0").head? ≠ some 91 := by decide +kernel

/-- C71 is false: an accepted text with a number above 255 becomes the broadcast address
255.255.255.255, and one with leading zeros is read as octal: 010.0.0.1 becomes 8.0.0.1. -/
theorem C71_violated : ∃ f c, (parseConf [] f).2 = true ∧ readConfig (parseConf [] f).1 {} = .ok c ∧
    c.udp.map (fun o => (o.address, sockAddrUdp (A := Unit) (fun _ => none) (fun _ => []) o.address)) =
      [(ascii "010.0.0.1", .v4 (8 * 2 ^ 24 + 1)),
       (ascii "10.0.0.256", .v4 (255 * 2 ^ 24 + 255 * 2 ^ 16 + 255 * 2 ^ 8 + 255))] := by
  let f := ascii "[UdpEndpoint a]\nMode=Normal\nAddress=10.0.0.256\nPort=1\n[UdpEndpoint b]\nMode=Normal\nAddress=010.0.0.1\nPort=1\n"
  exact ⟨f, { udp := [{ name := ascii "b", address := ascii "010.0.0.1", port := 1, mode := .client },
      { name := ascii "a", address := ascii "10.0.0.256", port := 1, mode := .client }] },
    by decide +kernel, by decide +kernel, by decide +kernel⟩

/-! ### C72 -/

/-- C72 for well-formed text: the address between the brackets is used, by TCP and by UDP.  Missing: accepted text that
is no IPv6 address, see `C72_violated`. -/
theorem C72_ipv6_partial {A : Type} (pton : List UInt8 → Option A) (ntop : A → List UInt8)
    (hp : ∀ t, Ipv6Text t → (pton t).isSome = true) (hn : ∀ a, pton (ntop a) = some a)
    (t : List UInt8) (h : Ipv6Text t) : ∃ a, pton t = some a ∧ sockAddr pton (91 :: (t ++ [93])) = .v6 a ∧
      sockAddrUdp pton ntop (91 :: (t ++ [93])) = .v6 a := by
  obtain ⟨a, ha⟩ := Option.isSome_iff_exists.1 (hp t h)
  refine ⟨a, ha, ?_, ?_⟩
  · simp [sockAddr, ipIsV6, stripBrackets, ha]
  · have : pton (if (ntop a).length < (91 :: (t ++ [93])).length then ntop a else t) = some a := by
      split
      · exact hn a
      · exact ha
    unfold sockAddrUdp
    rw [show ipIsV6 (91 :: (t ++ [93])) = true by simp [ipIsV6],
      show stripBrackets (91 :: (t ++ [93])) = some t by simp [stripBrackets]]
    simp only [if_true, ha, this]

/-- Functions of `C72_ipv6_partial`: addresses are texts, every text is one. -/
example : (∀ t, Ipv6Text t → ((fun x => some x : List UInt8 → Option (List UInt8)) t).isSome = true) ∧
    ∀ a : List UInt8, (fun x => some x : List UInt8 → Option (List UInt8)) (id a) = some a := ⟨fun _ _ => rfl, fun _ => rfl⟩

example : Ipv6Text (ascii "fe80::1") ∧ validIp (ascii "[fe80::1]") = true := by
  refine ⟨Or.inr ⟨[ascii "fe80"], [ascii "1"], by decide, ?_, by decide⟩, by decide +kernel⟩
  intro g hg
  simp only [List.cons_append, List.nil_append, List.mem_cons, List.not_mem_nil, or_false] at hg
  rcases hg with rfl | rfl <;> exact ⟨by decide, (hexDigits_iff _).1 (by decide), by decide⟩

theorem joined8_length {gs : List (List UInt8)} (h : ∀ g ∈ gs, Group6 g) (hne : gs ≠ []) :
    2 * gs.length ≤ (joined 58 gs).length + 1 := by
  induction gs with
  | nil => exact absurd rfl hne
  | cons x r ih =>
    have hx : 1 ≤ x.length := by
      have := (h x (by simp)).1
      cases x with
      | nil => exact absurd rfl this
      | cons _ _ => simp
    cases r with
    | nil => simp [joined]; omega
    | cons y r =>
      have := ih (fun g hg => h g (by simp [hg])) (by simp)
      rw [joined_cons 58 x (by simp)]
      simp only [List.length_cons, List.length_append] at this ⊢
      omega

/-- C72 is false: seven groups without `::` are accepted, though they are no IPv6 address; whatever
`inet_pton` does for addresses, the socket address of TCP is then left unset and that of UDP depends on a variable without
value. -/
theorem C72_violated : ∃ t, validIp (91 :: (t ++ [93])) = true ∧ ¬ Ipv6Text t ∧
    ∀ {A : Type} (pton : List UInt8 → Option A), (∀ t, ¬ Ipv6Text t → pton t = none) →
      sockAddr pton (91 :: (t ++ [93])) = .v6Unset ∧ ∀ ntop, sockAddrUdp pton ntop (91 :: (t ++ [93])) = .uninit := by
  have hno : ¬ Ipv6Text (ascii "1:2:3:4:5:6:7") := by
    rintro (⟨gs, h1, h2, h3⟩ | ⟨l, r, _, _, h3⟩)
    · have := joined8_length h2 (by intro h; rw [h] at h1; cases h1)
      rw [← h3, h1] at this
      revert this; decide
    · have hg : ∀ i, i < 13 → ¬ ((ascii "1:2:3:4:5:6:7")[i]? = some 58 ∧ (ascii "1:2:3:4:5:6:7")[i + 1]? = some 58) := by
        decide
      have hlen : (joined 58 l).length < 13 := by
        have := congrArg List.length h3
        rw [show (ascii "1:2:3:4:5:6:7").length = 13 by decide] at this
        simp at this; omega
      refine hg _ hlen ?_
      rw [h3]
      constructor
      · simp
      · rw [List.getElem?_append_right (by omega)]; simp
  refine ⟨ascii "1:2:3:4:5:6:7", by decide +kernel, hno, ?_⟩
  intro A pton hp
  simp [sockAddr, sockAddrUdp, ipIsV6, stripBrackets, hp _ hno]

end Verif
