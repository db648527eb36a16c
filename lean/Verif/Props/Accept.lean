import Verif.Props.Start
import Verif.Props.CliWords
import Verif.Props.Addr
import Verif.Spec.Accept

/-
C128: what is written as documented is accepted.
-/

namespace Verif
open Spec.Conf

/-! ### Values -/

theorem goodNumber_ul {lo hi : Nat} {v : Option (List UInt8)} (h : GoodNumber lo hi v) (hh : hi ≤ 2 ^ 64) (d : Nat) :
    ∃ x, Given v parseUl d x ∧ ((v = none ∧ x = d) ∨ lo ≤ x ∧ x < hi) := by
  cases v with
  | none => exact ⟨d, rfl, .inl ⟨rfl, rfl⟩⟩
  | some t =>
    obtain ⟨n, h1, h2, h3⟩ := h t rfl
    exact ⟨n, parseUl_decimal h1 (by omega), .inr ⟨h2, h3⟩⟩

theorem goodNumber_int {lo hi : Nat} {v : Option (List UInt8)} (h : GoodNumber lo hi v) (hh : hi ≤ 2 ^ 31) (d : Int) :
    ∃ x, Given v parseI d x := by
  cases v with
  | none => exact ⟨d, rfl⟩
  | some t =>
    obtain ⟨n, h1, _, h3⟩ := h t rfl
    exact ⟨n, parseI_decimal h1 (by omega)⟩

theorem goodNumber_fcu {v : Option (List UInt8)} (h : GoodNumber 1 256 v) (d : Int) : ∃ x, Given v parseFcuId d x := by
  cases v with
  | none => exact ⟨d, rfl⟩
  | some t =>
    obtain ⟨n, h1, h2, h3⟩ := h t rfl
    refine ⟨n, ?_⟩
    show parseFcuId t = _
    unfold parseFcuId
    rw [parseI_decimal h1 (by omega)]
    simp only
    rw [if_neg (by omega)]

theorem same_nul {t w : List UInt8} (h : Same t w) (hw : (0 : UInt8) ∉ w) : (0 : UInt8) ∉ t := by
  induction w generalizing t with
  | nil => rw [same_nil.1 h]; simp
  | cons a w ih =>
    simp only [List.mem_cons, not_or] at hw
    have ha : a ≠ 0 := fun e => hw.1 e.symm
    cases t with
    | nil => cases h.1
    | cons b t =>
      rw [same_cons ha] at h
      simp only [List.mem_cons, not_or]
      refine ⟨?_, ih h.2 hw.2⟩
      rintro rfl
      exact ha ((lower_zero a).1 (h.1.symm.trans ((lower_zero 0).2 rfl)))

theorem ncase {t : List UInt8} {a b : List UInt8} (h : Same t a) (hab : ¬ Same a b) : memCaseEq t b = false :=
  memCaseEq_false.2 fun h' => hab (h.symm.trans h')

theorem digit_same {t : List UInt8} {d : UInt8} (h : Same t [d]) (hd : d = 48 ∨ d = 49) : t = [d] := by
  have hn := same_nul h (w := [d]) (by rcases hd with rfl | rfl <;> decide)
  match t, h with
  | [], h => cases h.1
  | [b], h =>
    have hb : b ≠ 0 := by rintro rfl; simp at hn
    have h0 : d ≠ 0 := by rcases hd with rfl | rfl <;> decide
    have := ((same_cons h0).1 h).1
    have hl : lower d = d := by rcases hd with rfl | rfl <;> decide
    rw [hl] at this
    unfold lower at this
    split at this
    · next hr =>
      exfalso
      have e := congrArg UInt8.toNat this
      have : (UInt8.ofNat (b.toNat + 32)).toNat = b.toNat + 32 := by
        rw [UInt8.toNat_ofNat']; omega
      rw [this] at e
      rcases hd with rfl | rfl
      · have : (48 : UInt8).toNat = 48 := rfl
        omega
      · have : (49 : UInt8).toNat = 49 := rfl
        omega
    · rw [this]
  | _ :: _ :: _, h => cases h.1

theorem goodWord_switch {v : Option (List UInt8)} (h : GoodWord switchWords v) (d : Bool) : ∃ x, Given v parseBool d x := by
  cases v with
  | none => exact ⟨d, rfl⟩
  | some t =>
    obtain ⟨w, hw, hs⟩ := h t rfl
    simp only [switchWords, List.mem_cons, List.not_mem_nil, or_false] at hw
    rcases hw with rfl | rfl | rfl | rfl
    · exact ⟨true, (C59_bool t true).2 (.inl ⟨hs.symm, rfl⟩)⟩
    · refine ⟨false, (C59_bool t false).2 (.inr (.inl ⟨?_, hs.symm, rfl⟩))⟩
      intro h'
      exact absurd (h'.trans hs) (by decide)
    · rw [digit_same hs (.inl rfl)]; exact ⟨false, (by decide : parseBool [48] = some false)⟩
    · rw [digit_same hs (.inr rfl)]; exact ⟨true, (by decide : parseBool [49] = some true)⟩

theorem levelWord {t : List UInt8} (h : ∃ w ∈ levelWords, Same t (ascii w)) : ∃ x, logLevel t = some x := by
  obtain ⟨w, hw, hs⟩ := h
  unfold logLevel
  simp only [levelWords, List.mem_cons, List.not_mem_nil, or_false] at hw
  rcases hw with rfl | rfl | rfl | rfl | rfl
  · rw [if_pos ((memCaseEq_iff _ _).2 hs)]; exact ⟨_, rfl⟩
  · rw [ncase hs (by decide), (memCaseEq_iff _ _).2 hs]; exact ⟨_, rfl⟩
  · rw [ncase hs (by decide), ncase hs (by decide), (memCaseEq_iff _ _).2 hs]; exact ⟨_, rfl⟩
  · rw [ncase hs (by decide), ncase hs (by decide), ncase hs (by decide), (memCaseEq_iff _ _).2 hs]; exact ⟨_, rfl⟩
  · rw [ncase hs (by decide), ncase hs (by decide), ncase hs (by decide), ncase hs (by decide), (memCaseEq_iff _ _).2 hs]
    exact ⟨_, rfl⟩

theorem goodWord_level {v : Option (List UInt8)} (h : GoodWord levelWords v) (d : LogLevel) :
    ∃ x, Given v parseLogLevel d x := by
  cases v with
  | none => exact ⟨d, rfl⟩
  | some t =>
    obtain ⟨w, hw, hs⟩ := h t rfl
    have hall : ∀ w ∈ levelWords, (0 : UInt8) ∉ ascii w ∧ (ascii w).length ≤ 10 := by decide
    have h0 := same_nul hs (hall w hw).1
    have hl : t.length ≤ 10 := hs.1 ▸ (hall w hw).2
    obtain ⟨x, hx⟩ := levelWord ⟨w, hw, hs⟩
    refine ⟨x, ?_⟩
    show parseLogLevel t = _
    unfold parseLogLevel
    rw [if_neg (by omega), cstrB_id h0, hx]

theorem goodWord_logMode {v : Option (List UInt8)} (h : GoodWord ["always", "while-armed"] v) (d : LogMode) :
    ∃ x, Given v parseLogMode d x := by
  cases v with
  | none => exact ⟨d, rfl⟩
  | some t =>
    obtain ⟨w, hw, hs⟩ := h t rfl
    have hall : ∀ w ∈ ["always", "while-armed"], (0 : UInt8) ∉ ascii w ∧ (ascii w).length ≤ 20 := by decide
    have h0 := same_nul hs (hall w hw).1
    have hl : t.length ≤ 20 := hs.1 ▸ (hall w hw).2
    simp only [List.mem_cons, List.not_mem_nil, or_false] at hw
    have he : ∃ x, parseLogMode t = some x := by
      unfold parseLogMode
      rw [if_neg (by omega), cstrB_id h0]
      rcases hw with rfl | rfl
      · rw [if_pos ((memCaseEq_iff _ _).2 hs)]; exact ⟨_, rfl⟩
      · rw [ncase hs (by decide), (memCaseEq_iff _ _).2 hs]; exact ⟨_, rfl⟩
    exact he

theorem goodWord_dialect {v : Option (List UInt8)} (h : GoodWord ["auto", "common", "ardupilotmega"] v) (d : Dialect) :
    ∃ x, Given v parseDialect d x := by
  cases v with
  | none => exact ⟨d, rfl⟩
  | some t =>
    obtain ⟨w, hw, hs⟩ := h t rfl
    simp only [List.mem_cons, List.not_mem_nil, or_false] at hw
    have he : ∃ x, parseDialect t = some x := by
      unfold parseDialect
      rcases hw with rfl | rfl | rfl
      · rw [if_pos ((memCaseEq_iff _ _).2 hs)]; exact ⟨_, rfl⟩
      · rw [ncase hs (by decide), (memCaseEq_iff _ _).2 hs]; exact ⟨_, rfl⟩
      · rw [ncase hs (by decide), ncase hs (by decide), (memCaseEq_iff _ _).2 hs]; exact ⟨_, rfl⟩
    exact he

theorem goodWord_udpMode {t : List UInt8} (h : GoodWord ["normal", "server", "eavesdropping"] (some t)) :
    ∃ m, parseUdpMode t = some m ∧ (m = .client ∨ m = .server) ∧ (Same t (ascii "normal") → m = .client) := by
  obtain ⟨w, hw, hs⟩ := h t rfl
  simp only [List.mem_cons, List.not_mem_nil, or_false] at hw
  unfold parseUdpMode
  rcases hw with rfl | rfl | rfl
  · rw [if_pos ((memCaseEq_iff _ _).2 hs)]; exact ⟨_, rfl, .inl rfl, fun _ => rfl⟩
  · rw [ncase hs (by decide), ncase hs (by decide), (memCaseEq_iff _ _).2 hs]
    exact ⟨_, rfl, .inr rfl, fun h' => absurd (hs.symm.trans h') (by decide)⟩
  · rw [ncase hs (by decide), (memCaseEq_iff _ _).2 hs]
    exact ⟨_, rfl, .inr rfl, fun h' => absurd (hs.symm.trans h') (by decide)⟩

theorem goodAddress_valid {t : List UInt8} (h : GoodAddress t) : validIp t = true ∧ t ≠ [] := by
  have hv := (C62_accepted t).2 h
  refine ⟨hv, ?_⟩
  rintro rfl
  exact absurd hv (by decide)

/-! ### Sections -/

theorem ex_u32s {α : Type} {find : List UInt8 → Option (List UInt8)} {k : String} {get : α → List Nat}
    {set : List Nat → α → α} {os : List (Opt α)} (h : ∀ a, ∃ b, extract find os a = some b) (a : α) :
    ∃ b, extract find (optU32s k get set :: os) a = some b := by
  simp only [extract, optU32s]
  cases find (ascii k) with
  | none => exact h a
  | some v => exact h _

theorem ex_str {α : Type} {find : List UInt8 → Option (List UInt8)} {k : String} {req : Bool} {set : List UInt8 → α → α}
    {os : List (Opt α)} (hr : req = true → ∃ t, find (ascii k) = some t) (h : ∀ a, ∃ b, extract find os a = some b) (a : α) :
    ∃ b, extract find (optStr k req set :: os) a = some b := by
  simp only [extract, optStr]
  cases hf : find (ascii k) with
  | none =>
    have hq : req = false := by
      cases req with
      | false => rfl
      | true => obtain ⟨t, ht⟩ := hr rfl; rw [hf] at ht; cases ht
    subst hq
    exact h a
  | some v => exact h _

theorem ex_val {α β : Type} {find : List UInt8 → Option (List UInt8)} {k : String} {req : Bool}
    {parse : List UInt8 → Option β} {set : β → α → α} {os : List (Opt α)}
    (hr : req = true → ∃ t, find (ascii k) = some t) (hp : ∀ t, find (ascii k) = some t → ∃ x, parse t = some x)
    (h : ∀ a, ∃ b, extract find os a = some b) (a : α) : ∃ b, extract find (optVal k req parse set :: os) a = some b := by
  simp only [extract, optVal]
  cases hf : find (ascii k) with
  | none =>
    have hq : req = false := by
      cases req with
      | false => rfl
      | true => obtain ⟨t, ht⟩ := hr rfl; rw [hf] at ht; cases ht
    subst hq
    exact h a
  | some v =>
    obtain ⟨x, hx⟩ := hp v hf
    simp only [hx, Option.map_some]
    exact h _

theorem ex_nil {α : Type} {find : List UInt8 → Option (List UInt8)} (a : α) : ∃ b, extract find [] a = some b := ⟨a, rfl⟩

theorem ex_mid {α : Type} {find : List UInt8 → Option (List UInt8)} {as bs : List (Opt α)}
    {get : α → Filters} {set : Filters → α → α} (h1 : ∀ b, set (get b) b = b)
    (h2 : ∀ a b, get (set a b) = a) (h3 : ∀ a a' b, set a (set a' b) = set a b)
    (ha : ∀ a, ∃ b, extract find as a = some b) (hb : ∀ a, ∃ b, extract find bs a = some b) (a : α) :
    ∃ o, extract find (as ++ filterOpts.map (Opt.lift get set) ++ bs) a = some o := by
  obtain ⟨b, hb1⟩ := ha a
  obtain ⟨o, ho⟩ := hb (set (filtersOf find (get b)) b)
  exact ⟨o, (extract_mid h1 h2 h3).2 ⟨b, hb1, ho⟩⟩

theorem given_some {β : Type} {v : Option (List UInt8)} {parse : List UInt8 → Option β} {d : β}
    (h : ∃ x, Given v parse d x) (t : List UInt8) (ht : v = some t) : ∃ x, parse t = some x := by
  subst ht; exact h

theorem uart_accepted {find : List UInt8 → Option (List UInt8)} {val : String → Option (List UInt8)}
    (hval : ∀ k, val k = find (ascii k)) (hk : ∀ k k', Same k k' → find k = find k')
    (hne : ∀ k t, find k = some t → t ≠ []) (h : GoodUart val) (name : List UInt8) :
    ∃ o : UartConf, extract find uartOpts { name } = some o ∧ o.device ≠ [] := by
  obtain ⟨t, ht⟩ := h.device
  rw [hval, hk _ (ascii "device") (by decide)] at ht
  have hf := h.flow
  rw [hval] at hf
  have : ∃ o, extract find uartOpts ({ name } : UartConf) = some o :=
    ex_mid (by intros; rfl) (by intros; rfl) (by intros; rfl)
      (ex_u32s (ex_str (fun _ => ⟨t, ht⟩) (ex_val (by simp) (given_some (goodWord_switch hf false)) ex_nil)))
      (ex_str (by simp) ex_nil) _
  obtain ⟨o, ho⟩ := this
  exact ⟨o, ho, hne _ _ (extract_uart ho).2.1⟩

theorem udp_accepted {find : List UInt8 → Option (List UInt8)} {val : String → Option (List UInt8)}
    (hval : ∀ k, val k = find (ascii k)) (hk : ∀ k k', Same k k' → find k = find k') (h : GoodUdp val) (name : List UInt8) :
    ∃ o : UdpConf, extract find udpOpts { name, port := ulongMax } = some o ∧ validIp o.address = true ∧ o.address ≠ [] ∧
      (o.mode = .client ∨ o.mode = .server) ∧
      (1 ≤ o.port ∧ o.port < 65536 ∨ o.port = ulongMax ∧ o.mode = .client) := by
  obtain ⟨t, ht, ha⟩ := h.address
  rw [hval, hk _ (ascii "address") (by decide)] at ht
  obtain ⟨m, hm⟩ := h.mode
  have hw := h.modeWord
  rw [hm] at hw
  obtain ⟨md, hmd, hcs, hnorm⟩ := goodWord_udpMode hw
  have hm' := hm
  rw [hval, hk _ (ascii "mode") (by decide)] at hm'
  have hp := h.port
  have e : val "Port" = find (ascii "port") := by rw [hval, hk _ (ascii "port") (by decide)]
  rw [e] at hp
  obtain ⟨p, hp1, hp2⟩ := goodNumber_ul hp (by decide) ulongMax
  have : ∃ o, extract find udpOpts ({ name, port := ulongMax } : UdpConf) = some o :=
    ex_mid (by intros; rfl) (by intros; rfl) (by intros; rfl)
      (ex_str (fun _ => ⟨t, ht⟩) (ex_val (fun _ => ⟨m, hm'⟩)
        (fun t' ht' => by rw [hm'] at ht'; cases ht'; exact ⟨md, hmd⟩)
        (ex_val (by simp) (given_some ⟨p, hp1⟩) (ex_u32s ex_nil))))
      (ex_str (by simp) ex_nil) _
  obtain ⟨o, ho⟩ := this
  obtain ⟨_, e1, ⟨m', e2, e3⟩, e4, _, _⟩ := extract_udp ho
  rw [ht] at e1; cases e1
  rw [hm'] at e2; cases e2
  rw [hmd] at e3
  have e3 : md = o.mode := Option.some.inj e3
  have e5 : o.port = p := by
    cases hfind : find (ascii "port") with
    | none => rw [hfind] at e4 hp1; exact (show o.port = ulongMax from e4).trans (show p = ulongMax from hp1).symm
    | some u =>
      rw [hfind] at e4 hp1
      exact Option.some.inj ((show parseUl u = some o.port from e4).symm.trans (show parseUl u = some p from hp1))
  refine ⟨o, ho, (goodAddress_valid ha).1, (goodAddress_valid ha).2, by rw [← e3]; exact hcs, ?_⟩
  rw [e5, ← e3]
  rcases hp2 with ⟨hn, rfl⟩ | hp2
  · right
    refine ⟨rfl, ?_⟩
    rcases h.portGiven with h1 | ⟨u, h1⟩
    · obtain ⟨w, hw, hs⟩ := h1 m hm
      simp only [List.mem_cons, List.not_mem_nil, or_false] at hw
      subst hw
      exact hnorm hs
    · rw [e, hn] at h1; cases h1
  · exact .inl hp2

theorem tcp_accepted {find : List UInt8 → Option (List UInt8)} {val : String → Option (List UInt8)}
    (hval : ∀ k, val k = find (ascii k)) (hk : ∀ k k', Same k k' → find k = find k') (h : GoodTcp val) (name : List UInt8) :
    ∃ o : TcpConf, extract find tcpOpts { name, port := ulongMax } = some o ∧ validIp o.address = true ∧ o.address ≠ [] ∧
      1 ≤ o.port ∧ o.port < 65536 := by
  obtain ⟨t, ht, ha⟩ := h.address
  rw [hval, hk _ (ascii "address") (by decide)] at ht
  obtain ⟨u, hu⟩ := h.portGiven
  obtain ⟨n, hn, hn1, hn2⟩ := h.port u hu
  rw [hval, hk _ (ascii "port") (by decide)] at hu
  have hr := h.retry
  rw [hval] at hr
  have hn' : parseUl u = some n := parseUl_decimal hn (by omega)
  have : ∃ o, extract find tcpOpts ({ name, port := ulongMax } : TcpConf) = some o :=
    ex_mid (by intros; rfl) (by intros; rfl) (by intros; rfl)
      (ex_str (fun _ => ⟨t, ht⟩) (ex_val (fun _ => ⟨u, hu⟩)
        (fun t' ht' => by rw [hu] at ht'; cases ht'; exact ⟨n, hn'⟩)
        (ex_val (by simp) (given_some (goodNumber_int hr (by decide) 5)) ex_nil)))
      (ex_str (by simp) ex_nil) _
  obtain ⟨o, ho⟩ := this
  obtain ⟨_, e1, ⟨m', e2, e3⟩, _⟩ := extract_tcp ho
  rw [ht] at e1; cases e1
  rw [hu] at e2; cases e2
  rw [hn'] at e3
  have e3 : n = o.port := Option.some.inj e3
  exact ⟨o, ho, (goodAddress_valid ha).1, (goodAddress_valid ha).2, by omega, by omega⟩

theorem extractNamed_eq {α : Type} {ss : List CfgSection} {name : List UInt8} {os : List (Opt α)} (a : α)
    (hr : ∀ o ∈ os, o.required = false) :
    extractNamed ss name os a = extract (fun k => confValue ss name k) os a := by
  cases h : extractNamed ss name os a with
  | some a' => exact (extractNamed_value h hr).symm
  | none =>
    unfold extractNamed at h
    cases hs : (findSection name ss).bind fun k => sectionAt k ss with
    | none =>
      rw [hs] at h
      simp only at h
      split at h
      · next hx =>
        simp only [List.any_eq_true] at hx
        obtain ⟨o, ho, h1⟩ := hx
        rw [hr o ho] at h1; cases h1
      · cases h
    | some s =>
      rw [hs] at h
      have hv : (fun k => confValue ss name k) = fun k => (findConfig k s.configs).map (·.value) := by
        funext k
        unfold confValue
        cases hf : findSection name ss with
        | none => rw [hf] at hs; cases hs
        | some i => rw [hf] at hs; simp only [Option.bind_some] at hs; simp [hs]
      rw [hv]
      exact h.symm

theorem general_accepted {find : List UInt8 → Option (List UInt8)} {val : String → Option (List UInt8)}
    (hval : ∀ k, val k = find (ascii k)) (h : GoodGeneral val) (c : Config) (l : LogConf) :
    (∃ c', extract find globalOpts c = some c') ∧ ∃ l', extract find logOpts l = some l' := by
  have e : val = fun k => find (ascii k) := funext hval
  subst e
  have ul : ∀ {v : Option (List UInt8)}, GoodNumber 0 (2 ^ 64) v → ∀ t, v = some t → ∃ x, parseUl t = some x := by
    intro v hv
    obtain ⟨x, hx, _⟩ := goodNumber_ul hv (by decide) 0
    exact given_some ⟨x, hx⟩
  have sw : ∀ {v : Option (List UInt8)}, GoodWord switchWords v → ∀ t, v = some t → ∃ x, parseBool t = some x :=
    fun hv => given_some (goodWord_switch hv false)
  exact ⟨ex_val (by simp) (ul h.tcpPort) (ex_val (by simp) (sw h.stats) (ex_val (by simp)
      (given_some (goodWord_level h.level .info)) (ex_val (by simp) (ul h.dedup) (ex_val (by simp) (ul h.sniffer) ex_nil)))) c,
    ex_str (by simp) (ex_val (by simp) (given_some (goodWord_logMode h.mode .always)) (ex_val (by simp)
      (given_some (goodWord_dialect h.dialect .auto)) (ex_val (by simp) (ul h.minFree) (ex_val (by simp) (ul h.maxFiles)
      (ex_val (by simp) (given_some (goodNumber_fcu h.fcuId 0)) (ex_val (by simp) (sw h.telemetry) ex_nil)))))) l⟩

theorem foldBody_some {body : CfgSection → Config → Option Config} {L : List CfgSection}
    (h : ∀ s ∈ L, ∀ c, ∃ c', body s c = some c') (c : Config) : ∃ c', foldBody body L c = some c' := by
  induction L generalizing c with
  | nil => exact ⟨c, rfl⟩
  | cons s L ih =>
    obtain ⟨c1, h1⟩ := h s (by simp) c
    obtain ⟨c2, h2⟩ := ih (fun s hs => h s (by simp [hs])) c1
    exact ⟨c2, by simp [foldBody, h1, h2]⟩

/-- C128 for files: whatever the files declare, if it is as documented, the configuration is accepted.  Missing: section
names of 100 bytes (C57), and upper case digits of IPv6 addresses, see `C128_violated`. -/
theorem C128_files_partial (files : List (List UInt8)) (ds : List Decl) (h : FilesRead files ds) (hg : GoodSections ds) :
    ∃ c, readConfig (parseConfs [] files) {} = .ok c := by
  have ok := parseConfs_ok h
  generalize parseConfs [] files = ss at ok
  have hk : ∀ s : CfgSection, ∀ k k', Same k k' → findIn s k = findIn s k' := fun s k k' h => optValue_key h
  have hty : ∀ {pre type : List UInt8}, 0 ∉ pre → Same pre type → ∀ {s : CfgSection},
      s ∈ selected pre ss → s ∈ ss ∧ Declared ds s.name ∧ Typed type s.name (s.name.drop pre.length) := by
    intro pre type hp hs s hm
    obtain ⟨h1, name, h2⟩ := (selected_mem hp).1 hm
    refine ⟨h1, (ok.declared _).1 ⟨s, h1, Same.rfl' _⟩, ?_⟩
    rw [h2.drop]
    obtain ⟨x, h3, h4⟩ := h2
    exact ⟨x, h3, h4.trans hs⟩
  have hshort : ∀ s ∈ ss, s.name.length < 100 := by
    intro s hs
    obtain ⟨n, h1, h2⟩ := (ok.declared s.name).1 ⟨s, hs, Same.rfl' _⟩
    rw [← h2.1]; exact hg.short n h1
  have hlast : ∀ {s : CfgSection}, s ∈ ss → ∀ k, lastSet ds s.name (ascii k) = findIn s (ascii k) :=
    fun h1 k => (find_lastSet ok.ok ok.values h1 _).symm
  obtain ⟨⟨c1, h1⟩, hl⟩ := general_accepted (find := fun k => confValue ss (ascii "General") k)
    (fun k => (ok.values _ _).symm) hg.general {} ({} : LogConf)
  have h1' : extractNamed ss (ascii "General") globalOpts {} = some c1 := by
    rw [extractNamed_eq _ (by decide)]; exact h1
  obtain ⟨_, l, h2⟩ := general_accepted (find := fun k => confValue ss (ascii "General") k)
    (fun k => (ok.values _ _).symm) hg.general {} c1.log
  have h2' : extractNamed ss (ascii "General") logOpts c1.log = some l := by
    rw [extractNamed_eq _ (by decide)]; exact h2
  unfold readConfig
  rw [h1']
  simp only
  rw [h2']
  simp only
  have hu : ∀ s ∈ selected uartPrefix ss, ∀ c, ∃ c', uartSection s c = some c' := by
    intro s hs c
    obtain ⟨m, hd, ht⟩ := hty uartPrefix_nul (type := ascii "UartEndpoint ") (by decide) hs
    have hne : ∀ k t, findIn s k = some t → t ≠ [] := by
      intro k t hf
      unfold findIn at hf
      rw [Option.map_eq_some_iff] at hf
      obtain ⟨o, ho, rfl⟩ := hf
      have hmem : o ∈ s.configs := by
        have : ∀ cs : List CfgOpt, findConfig k cs = some o → o ∈ cs := by
          intro cs
          induction cs with
          | nil => intro h; cases h
          | cons x cs ih =>
            intro h
            rw [findConfig_cons] at h
            split at h
            · cases h; simp
            · exact List.mem_cons_of_mem _ (ih h)
        exact this _ ho
      obtain ⟨⟨b, r, e, _⟩, _⟩ := ((ok.ok.opts s m).2 o hmem).2
      rw [e]; simp
    obtain ⟨o, h3, h4⟩ := uart_accepted (hlast m) (hk s) hne (hg.uart _ _ hd ht) (s.name.drop uartPrefix.length)
    unfold uartSection
    rw [show extractIter s uartOpts { name := s.name.drop uartPrefix.length } = some o from h3]
    simp only
    by_cases hb : o.baud = []
    · rw [if_pos hb]
      simp [UartConf.valid, h4]
    · rw [if_neg hb]
      simp [UartConf.valid, h4, hb]
  have hv : ∀ s ∈ selected udpPrefix ss, ∀ c, ∃ c', udpSection s c = some c' := by
    intro s hs c
    obtain ⟨m, hd, ht⟩ := hty udpPrefix_nul (type := ascii "UdpEndpoint ") (by decide) hs
    obtain ⟨o, h3, h4, h5, h6, h7⟩ := udp_accepted (hlast m) (hk s) (hg.udp _ _ hd ht) (s.name.drop udpPrefix.length)
    unfold udpSection
    rw [show extractIter s udpOpts { name := s.name.drop udpPrefix.length, port := ulongMax } = some o from h3]
    simp only
    have hmode : (o.mode == UdpConfMode.client || o.mode == UdpConfMode.server) = true := by
      rcases h6 with e | e <;> rw [e] <;> rfl
    rcases h7 with h7 | h7
    · rw [if_neg (c := o.mode = .client ∧ o.port = ulongMax) (by rintro ⟨_, e⟩; unfold ulongMax at e; omega)]
      have : (o.port == 0 || o.port == ulongMax) = false := by
        unfold ulongMax; simp; omega
      simp [UdpConf.valid, h4, h5, hmode, this]
    · rw [if_pos (c := o.mode = .client ∧ o.port = ulongMax) ⟨h7.2, h7.1⟩]
      have hn : (findNextUdpPort o.address c.udp == 0 || findNextUdpPort o.address c.udp == ulongMax) = false := by
        rcases findNextUdpPort_eq o.address c.udp with ⟨e, _⟩ | ⟨e, _⟩ <;> rw [e] <;> decide
      simp [UdpConf.valid, h4, h5, hmode, hn]
  have hw : ∀ s ∈ selected tcpPrefix ss, ∀ c, ∃ c', tcpSection s c = some c' := by
    intro s hs c
    obtain ⟨m, hd, ht⟩ := hty tcpPrefix_nul (type := ascii "TcpEndpoint ") (by decide) hs
    obtain ⟨o, h3, h4, h5, h6⟩ := tcp_accepted (hlast m) (hk s) (hg.tcp _ _ hd ht) (s.name.drop tcpPrefix.length)
    unfold tcpSection
    rw [show extractIter s tcpOpts { name := s.name.drop tcpPrefix.length, port := ulongMax } = some o from h3]
    simp only
    have : (o.port == 0 || o.port == ulongMax) = false := by
      unfold ulongMax; simp; omega
    simp [TcpConf.valid, h4, h5, this]
  rw [forSections_short _ (Nat.le_refl _) hshort]
  obtain ⟨c3, h3⟩ := foldBody_some hu { c1 with log := l }
  rw [h3]
  simp only [ConfRes.bind]
  rw [forSections_short _ (Nat.le_refl _) hshort]
  obtain ⟨c4, h4⟩ := foldBody_some hv c3
  rw [h4]
  simp only
  rw [forSections_short _ (Nat.le_refl _) hshort]
  obtain ⟨c5, h5⟩ := foldBody_some hw c4
  rw [h5]
  exact ⟨c5, rfl⟩

/-! ### The command line -/

theorem decimal_no_colon {num : List UInt8} {n : Nat} (hd : Decimal num n) : (58 : UInt8) ∉ num := by
  intro hm
  exact absurd (((numeral_iff _ _ _).1 hd.1).2.1 _ hm) (by decide)

theorem split_address {addr num : List UInt8} {n : Nat} (hd : Decimal num n) (hn : n < 2 ^ 64) :
    splitOnLastColon (addr ++ 58 :: num) = some (addr, n, num) := by
  rw [split_colon _ _ (decimal_no_colon hd), safeAtoul_decimal hd hn]; rfl

theorem quad_no_colon {t : List UInt8} (h : Quad t) : (58 : UInt8) ∉ t := by
  obtain ⟨a, b, c, d, rfl, h⟩ := h
  have hx : ∀ p ∈ [a, b, c, d], (58 : UInt8) ∉ p := by
    intro p hp hm
    have := (h p hp).1 58 hm
    revert this; decide
  simp only [joined, List.mem_append, List.mem_cons, not_or]
  exact ⟨hx a (by simp), by decide, hx b (by simp), by decide, hx c (by simp), by decide, hx d (by simp)⟩

theorem option_accepted {isChr : List UInt8 → Bool} {w : CliWord} (hw : w.Ok) (h : w.Good isChr) {e : OptEvent}
    (he : w.asks = some e) (c : Config) : ∃ c', argvOption c e = some c' := by
  cases w with
  | plain t => cases he
  | switch o long =>
    cases he
    have : o.1 = 114 ∨ o.1 = 118 ∨ o.1 = 121 ∨ o.1 = 84 := by
      rcases hw with h | ⟨rfl, _⟩
      · simp only [switches, List.mem_cons, List.not_mem_nil, or_false] at h
        rcases h with rfl | rfl | rfl <;> simp
      · simp
    rcases this with e | e | e | e <;> rw [e] <;> exact ⟨_, rfl⟩
  | option o arg f =>
    cases he
    obtain ⟨h1, h2, h3, h4, h5⟩ := h
    have ho := hw.1
    simp only [withArg, List.mem_cons, List.not_mem_nil, or_false] at ho
    have hport : ∀ n : Nat, 1 ≤ n → n < 65536 → (n == 0 || n == ulongMax) = false := by
      intro n _ _; unfold ulongMax; simp; omega
    rcases ho with rfl | rfl | rfl | rfl | rfl | rfl | rfl | rfl
    · rcases h1 rfl with ⟨addr, num, n, rfl, ha, hd, hn1, hn2⟩ | hq
      · simp only [argvOption]
        rw [split_address hd (by omega)]
        have hne : n ≠ ulongMax := by unfold ulongMax; omega
        simp [UdpConf.valid, goodAddress_valid ha, hport n hn1 hn2, hne]
      · simp only [argvOption]
        rw [C66_no_colon _ (quad_no_colon hq)]
        have hn : (findNextUdpPort [] c.udp == 0 || findNextUdpPort [] c.udp == ulongMax) = false := by
          rcases findNextUdpPort_eq [] c.udp with ⟨e, _⟩ | ⟨e, _⟩ <;> rw [e] <;> decide
        have hne : ¬ ((2 : Nat) ^ 64 - 1 ≠ ulongMax) := by decide
        simp only [if_neg hne]
        simp [UdpConf.valid, goodAddress_valid (Or.inl hq), hn]
    · obtain ⟨addr, num, n, rfl, ha, hd, hn1, hn2⟩ := h2 rfl
      simp only [argvOption]
      rw [split_address hd (by omega)]
      have hne : n ≠ ulongMax := by unfold ulongMax; omega
      simp [TcpConf.valid, goodAddress_valid ha, hport n hn1 hn2, hne]
    · obtain ⟨n, hd, _, hn⟩ := h3 rfl arg rfl
      simp only [argvOption]
      rw [safeAtoul_decimal hd hn]; exact ⟨_, rfl⟩
    · exact ⟨_, rfl⟩
    · exact ⟨_, rfl⟩
    · exact ⟨_, rfl⟩
    · obtain ⟨x, hx⟩ := levelWord (h4 rfl arg rfl)
      simp only [argvOption]
      rw [hx]; exact ⟨_, rfl⟩
    · obtain ⟨n, hd, hn1, hn2⟩ := h5 rfl arg rfl
      simp only [argvOption]
      have e : ((atoiC arg) % 65536).toNat = n := by rw [atoiC_decimal hd (by omega)]; omega
      rw [e, if_neg (by omega)]; exact ⟨_, rfl⟩

theorem plain_accepted {isChr : List UInt8 → Bool} {t : List UInt8} (h : (CliWord.plain t).Good isChr) (c : Config) :
    ∃ c', argvPlain isChr c t = some c' := by
  rcases h with ⟨h1, h2⟩ | ⟨dev, num, n, rfl, h1, hd, hn⟩ | ⟨addr, num, n, rfl, h1, ha, hd, hn1, hn2⟩
  · unfold argvPlain
    rw [C66_no_colon _ h2]
    simp [h1]
  · unfold argvPlain
    rw [split_address hd (by omega)]
    simp [h1]
  · unfold argvPlain
    rw [split_address hd (by omega)]
    have hne : n ≠ ulongMax := by unfold ulongMax; omega
    have : (n == 0 || n == ulongMax) = false := by simp [hne]; omega
    simp [h1, UdpConf.valid, goodAddress_valid ha, this, hne]

/-- C128 for the command line: words as in the help text are accepted, in any order and number.  Missing: an IPv6
address without port and the letter `-T`, see `C128_violated`; upper case digits of IPv6 addresses. -/
theorem C128_words_partial (isChr : List UInt8 → Bool) (ws : List CliWord) (hok : ∀ w ∈ ws, w.Ok) (hg : ∀ w ∈ ws, w.Good isChr)
    (c : Config) : ∃ c', parseArgv isChr (ws.flatMap (·.args)) c = some c' := by
  unfold parseArgv
  rw [C73_words ws hok]
  simp only
  have h1 : ∀ es : List OptEvent, (∀ e ∈ es, ∃ w ∈ ws, w.asks = some e) → ∀ c, ∃ c', argvOptions c es = some c' := by
    intro es
    induction es with
    | nil => intro _ c; exact ⟨c, rfl⟩
    | cons e es ih =>
      intro h c
      obtain ⟨w, hw, he⟩ := h e (by simp)
      obtain ⟨c1, h1⟩ := option_accepted (hok w hw) (hg w hw) he c
      obtain ⟨c2, h2⟩ := ih (fun e he => h e (by simp [he])) c1
      exact ⟨c2, by simp [argvOptions, h1, h2]⟩
  have h2 : ∀ ts : List (List UInt8), (∀ t ∈ ts, CliWord.plain t ∈ ws) → ∀ c, ∃ c', argvPlains isChr c ts = some c' := by
    intro ts
    induction ts with
    | nil => intro _ c; exact ⟨c, rfl⟩
    | cons t ts ih =>
      intro h c
      obtain ⟨c1, h1⟩ := plain_accepted (hg _ (h t (by simp))) c
      obtain ⟨c2, h2⟩ := ih (fun e he => h e (by simp [he])) c1
      exact ⟨c2, by simp [argvPlains, h1, h2]⟩
  obtain ⟨c1, e1⟩ := h1 (ws.filterMap (·.asks)) (by intro e he; simpa [List.mem_filterMap] using he) c
  obtain ⟨c2, e2⟩ := h2 (ws.filterMap (·.text)) (by
    intro t ht
    obtain ⟨w, hw, he⟩ := List.mem_filterMap.1 ht
    cases w with
    | plain x => cases he; exact hw
    | switch _ _ => cases he
    | option _ _ _ => cases he) c1
  exact ⟨c2, by rw [e1]; exact e2⟩

/-! ### The program -/

theorem contents_exist : ∀ (fs : List (List UInt8 × FileState)), (∀ f ∈ fs, ∃ b, f.2 = .content b) → ∃ cs, Contents fs cs
  | [], _ => ⟨[], rfl⟩
  | f :: fs, h => by
    obtain ⟨b, hb⟩ := h f (by simp)
    obtain ⟨cs, hc⟩ := contents_exist fs fun f hf => h f (by simp [hf])
    exact ⟨b :: cs, by unfold Contents at hc ⊢; simp [hb, hc]⟩

theorem readConfFiles_accepts {h : Host} {argv : List (List UInt8)} (hf : FilesReadable h argv)
    (hgood : ∀ files, FilesUsed h argv files → ∀ f ∈ files, GoodFile f) :
    ∃ files, FilesUsed h argv files ∧
      readConfFiles (h.file (confFileOf h argv)) (confDirOf h argv) (h.dir (confDirOf h argv)) = .ok (parseConfs [] files) := by
  have hmain : ∃ ms, MainContent (h.file (confFileOf h argv)) ms := by
    have := hf.main
    cases hm : h.file (confFileOf h argv) with
    | missing => exact ⟨[], .inl ⟨rfl, rfl⟩⟩
    | unreadable => exact absurd hm this
    | content b => exact ⟨[b], .inr ⟨b, rfl, rfl⟩⟩
  obtain ⟨ms, hms⟩ := hmain
  cases hd : h.dir (confDirOf h argv) with
  | none =>
    have hu : FilesUsed h argv ms := ⟨ms, [], hms, .inl ⟨hd, rfl⟩, by simp⟩
    refine ⟨ms, hu, ?_⟩
    have := (main_spec _ (parseConfs [] ms)).2 ⟨ms, hms, hgood ms hu, rfl⟩
    unfold readConfFiles
    rw [this]
    rfl
  | some es =>
    obtain ⟨_, order, h1, h2, h3⟩ := C64_files_partial (h.file (confFileOf h argv)) (confDirOf h argv) es
      (hf.count es hd) (hf.names es hd)
    obtain ⟨cs, hcs⟩ := contents_exist order fun f hf' => hf.content es hd f (h1.subset hf')
    have hu : FilesUsed h argv (ms ++ cs) := ⟨ms, cs, hms, .inr ⟨es, order, hd, h1, h2, hcs⟩, rfl⟩
    exact ⟨ms ++ cs, hu, (h3 _).2 ⟨ms, cs, hms, hcs, hgood _ hu, rfl⟩⟩

/-- C128: a program start whose files and command line are written as documented enters the main loop, unless the
system refuses to open a serial port or a UDP socket.  Missing: as for `C128_files_partial` and `C128_words_partial`. -/
theorem C128_runs_partial (h : Host) (ws : List CliWord) (hf : FilesReadable h (ws.flatMap (·.args)))
    (hgood : ∀ files, FilesUsed h (ws.flatMap (·.args)) files → (∀ f ∈ files, GoodFile f) ∧
      ∀ ds, FilesRead files ds → GoodSections ds)
    (hok : ∀ w ∈ ws, w.Ok) (hw : ∀ w ∈ ws, w.Good h.isChr) (h0 : h.isChr [] = false) (hep : h.epoll = true)
    (ho : ∀ k, h.opens k = true) : ∃ r, mainStart h (ws.flatMap (·.args)) = .runs r := by
  obtain ⟨files, hu, hr⟩ := readConfFiles_accepts hf fun files hu => (hgood files hu).1
  obtain ⟨ds, hds⟩ := filesRead_exists files
  obtain ⟨c0, h1⟩ := C128_files_partial files ds hds ((hgood files hu).2 ds hds)
  obtain ⟨c, h2⟩ := C128_words_partial h.isChr ws hok hw c0
  have hval := parseArgv_valid h0 (readConfig_valid h1) h2
  rw [mainStart_eq]
  have hv : (lastArg 86 (getopt (ws.flatMap (·.args))).1).isSome = false := by
    rw [C73_words ws hok]
    have : ∀ es : List OptEvent, (∀ e ∈ es, argOf 86 e = none) → lastArg 86 es = none := by
      intro es
      induction es with
      | nil => intro _; rfl
      | cons e es ih =>
        intro h
        simp only [lastArg]
        rw [ih fun e he => h e (by simp [he]), h e (by simp)]
        rfl
    rw [this]
    · rfl
    · intro e he
      obtain ⟨w, hw, he⟩ := List.mem_filterMap.1 he
      have hs : ∀ o ∈ switches, o.1 ≠ 86 := by decide +kernel
      have ha : ∀ o ∈ withArg, o.1 ≠ 86 := by decide +kernel
      cases w with
      | plain x => cases he
      | switch o _ =>
        cases he
        rcases hok _ hw with h | ⟨rfl, _⟩
        · simp [argOf, hs o h]
        · rfl
      | option o _ _ => cases he; simp [argOf, ha o (hok _ hw).1]
  rw [hv]
  simp only [Bool.false_eq_true, if_false]
  have hc : mainConfig (h.file (confFileOf h (ws.flatMap (·.args)))) (confDirOf h (ws.flatMap (·.args)))
      (h.dir (confDirOf h (ws.flatMap (·.args)))) h.isChr (ws.flatMap (·.args)) = .ok c := by
    unfold mainConfig
    rw [hr]
    simp only [ConfRes.bind, h1, h2]
  rw [hc, hep]
  simp only [Bool.not_true, Bool.false_eq_true, if_false]
  cases ha : addEndpoints h c with
  | some r => exact ⟨r, rfl⟩
  | none =>
    have := (addEndpoints_iff h c hval).2 fun k _ => ho k
    rw [ha] at this; cases this

/-! ### An example -/

/-- A configuration file. -/
def Sample.acceptConf : List UInt8 := ascii
  "[General]\nLogSystemId = 255\nDebugLogLevel = Trace\nReportStats=1\n[UdpEndpoint gcs]\nMode = Normal\nAddress = 10.0.0.1\nGroup=x\n"

/-- A host with this file. -/
def Sample.acceptHost : Host :=
  { file := fun _ => .content Sample.acceptConf, isChr := fun d => d == ascii "/dev/ttyS0" }

/-- The words `--endpoint=[::1]:14550 -v /dev/ttyS0:57600 -s 255 0.0.0.0:10000 -e 10.1.1.1`. -/
def Sample.acceptWords : List CliWord :=
  [.option (101, "endpoint") (ascii "[::1]:14550") .longJoined, .switch (118, "verbose") false,
   .plain (ascii "/dev/ttyS0:57600"), .option (115, "sniffer-sysid") (ascii "255") .short, .plain (ascii "0.0.0.0:10000"),
   .option (101, "endpoint") (ascii "10.1.1.1") .short]

theorem decimal_sample (t : List UInt8) (n : Nat)
    (h : (t ≠ [] ∧ (∀ b ∈ t, (digitIn 10 b).isSome) ∧ n = numVal 10 0 t) ∧ (t = [48] ∨ t.head? ≠ some 48)) : Decimal t n := by
  refine ⟨(numeral_iff 10 t n).2 h.1, h.2.imp id ?_⟩
  rintro h1 r rfl
  simp at h1

attribute [local irreducible] Sample.acceptConf in
theorem Sample.accept_sections (ds : List Decl) (h : FilesRead [Sample.acceptConf] ds) : GoodSections ds := by
  have ok := parseConfs_ok h
  have hnames : ∀ s ∈ parseConfs [] [Sample.acceptConf], s.name = ascii "General" ∨ s.name = ascii "UdpEndpoint gcs" := by
    decide +kernel
  have hsec : ∀ sec, Declared ds sec → Same (ascii "General") sec ∨ Same (ascii "UdpEndpoint gcs") sec := by
    intro sec hd
    obtain ⟨s, hs, hn⟩ := (ok.declared sec).2 hd
    rcases hnames s hs with e | e <;> rw [e] at hn
    · exact .inl hn
    · exact .inr hn
  have hv : ∀ sec sec', Same sec sec' → ∀ key, lastSet ds sec' key = confValue (parseConfs [] [Sample.acceptConf]) sec key := by
    intro sec sec' hs key
    rw [← ok.values]; exact (confValue_same hs).symm
  have hg := hv _ _ (Same.rfl' (ascii "General"))
  have none_number : ∀ lo hi, GoodNumber lo hi none := by intro lo hi t ht; cases ht
  have none_word : ∀ ws, GoodWord ws none := by intro ws t ht; cases ht
  have htyped : ∀ (pre : List UInt8) sec name, 0 ∉ pre → Typed pre sec name →
      (Same (ascii "General") sec → fnPrefix pre (cstrB (ascii "General")) = true) ∧
      (Same (ascii "UdpEndpoint gcs") sec → fnPrefix pre (cstrB (ascii "UdpEndpoint gcs")) = true) := by
    intro pre sec name hp ht
    constructor
    · intro hs
      obtain ⟨n, h1, _⟩ := ht.congr hp hs.symm
      exact (fnPrefix_iff hp _).2 ⟨n, h1⟩
    · intro hs
      obtain ⟨n, h1, _⟩ := ht.congr hp hs.symm
      exact (fnPrefix_iff hp _).2 ⟨n, h1⟩
  have hlow : ∀ {type pre : List UInt8}, Same type pre → ∀ {sec name}, Typed type sec name → Typed pre sec name := by
    rintro type pre hs sec name ⟨x, h1, h2⟩
    exact ⟨x, h1, h2.trans hs⟩
  refine ⟨?_, ?_, ?_, ?_, ?_⟩
  · intro n hn
    rcases hsec n ⟨n, hn, Same.rfl' _⟩ with hs | hs <;> rw [← hs.1] <;> decide
  · refine ⟨?_, ?_, ?_, ?_, ?_, ?_, ?_, ?_, ?_, ?_, ?_⟩
    all_goals rw [hg]
    · rw [show confValue (parseConfs [] [Sample.acceptConf]) (ascii "General") (ascii "TcpServerPort") = none by decide +kernel]
      exact none_number _ _
    · rw [show confValue (parseConfs [] [Sample.acceptConf]) (ascii "General") (ascii "ReportStats") = some (ascii "1") by
        decide +kernel]
      rintro t ⟨⟩
      exact ⟨"1", by decide, Same.rfl' _⟩
    · rw [show confValue (parseConfs [] [Sample.acceptConf]) (ascii "General") (ascii "DebugLogLevel") = some (ascii "Trace") by
        decide +kernel]
      rintro t ⟨⟩
      exact ⟨"trace", by decide, by decide⟩
    · rw [show confValue (parseConfs [] [Sample.acceptConf]) (ascii "General") (ascii "DeduplicationPeriod") = none by decide +kernel]
      exact none_number _ _
    · rw [show confValue (parseConfs [] [Sample.acceptConf]) (ascii "General") (ascii "SnifferSysid") = none by decide +kernel]
      exact none_number _ _
    · rw [show confValue (parseConfs [] [Sample.acceptConf]) (ascii "General") (ascii "LogMode") = none by decide +kernel]
      exact none_word _
    · rw [show confValue (parseConfs [] [Sample.acceptConf]) (ascii "General") (ascii "MavlinkDialect") = none by decide +kernel]
      exact none_word _
    · rw [show confValue (parseConfs [] [Sample.acceptConf]) (ascii "General") (ascii "MinFreeSpace") = none by decide +kernel]
      exact none_number _ _
    · rw [show confValue (parseConfs [] [Sample.acceptConf]) (ascii "General") (ascii "MaxLogFiles") = none by decide +kernel]
      exact none_number _ _
    · rw [show confValue (parseConfs [] [Sample.acceptConf]) (ascii "General") (ascii "LogSystemId") = some (ascii "255") by
        decide +kernel]
      rintro t ⟨⟩
      exact ⟨255, decimal_sample _ _ (by decide +kernel), by decide, by decide⟩
    · rw [show confValue (parseConfs [] [Sample.acceptConf]) (ascii "General") (ascii "LogTelemetry") = none by decide +kernel]
      exact none_word _
  · intro sec name hd ht
    exfalso
    have := htyped (ascii "uartendpoint ") sec name (by decide) (hlow (by decide) ht)
    rcases hsec sec hd with hs | hs
    · exact absurd (this.1 hs) (by decide +kernel)
    · exact absurd (this.2 hs) (by decide +kernel)
  · intro sec name hd ht
    have := htyped (ascii "udpendpoint ") sec name (by decide) (hlow (by decide) ht)
    rcases hsec sec hd with hs | hs
    · exact absurd (this.1 hs) (by decide +kernel)
    · have hu := hv _ _ hs
      refine ⟨⟨ascii "10.0.0.1", ?_, .inl ((validIpv4_iff _).1 (by decide +kernel))⟩, ⟨ascii "Normal", ?_⟩, ?_, ?_, .inl ?_⟩
      all_goals rw [hu]
      · decide +kernel
      · decide +kernel
      · rw [show confValue (parseConfs [] [Sample.acceptConf]) (ascii "UdpEndpoint gcs") (ascii "Mode") = some (ascii "Normal") by
          decide +kernel]
        rintro t ⟨⟩
        exact ⟨"normal", by decide, by decide⟩
      · rw [show confValue (parseConfs [] [Sample.acceptConf]) (ascii "UdpEndpoint gcs") (ascii "Port") = none by decide +kernel]
        exact none_number _ _
      · rw [show confValue (parseConfs [] [Sample.acceptConf]) (ascii "UdpEndpoint gcs") (ascii "Mode") = some (ascii "Normal") by
          decide +kernel]
        rintro t ⟨⟩
        exact ⟨"normal", by decide, by decide⟩
  · intro sec name hd ht
    exfalso
    have := htyped (ascii "tcpendpoint ") sec name (by decide) (hlow (by decide) ht)
    rcases hsec sec hd with hs | hs
    · exact absurd (this.1 hs) (by decide +kernel)
    · exact absurd (this.2 hs) (by decide +kernel)

theorem Sample.acceptWords_ok : ∀ w ∈ Sample.acceptWords, w.Ok := by
  simp [Sample.acceptWords, CliWord.Ok, switches, withArg]; decide +kernel

theorem Sample.acceptWords_good : ∀ w ∈ Sample.acceptWords, w.Good Sample.acceptHost.isChr := by
  have h4 : ∀ t, validIpv4 t = true → GoodAddress t := fun t h => .inl ((validIpv4_iff t).1 h)
  have h6 : ∀ t, validIp t = true → GoodAddress t := fun t h => (C62_accepted t).1 h
  intro w hw
  simp only [Sample.acceptWords, List.mem_cons, List.not_mem_nil, or_false] at hw
  rcases hw with rfl | rfl | rfl | rfl | rfl | rfl
  · refine ⟨fun _ => .inl ⟨ascii "[::1]", ascii "14550", 14550, by decide +kernel, h6 _ (by decide +kernel),
      decimal_sample _ _ (by decide +kernel), by decide, by decide⟩, ?_, ?_, ?_, ?_⟩ <;> (intro h; exact absurd h (by decide))
  · trivial
  · exact .inr (.inl ⟨ascii "/dev/ttyS0", ascii "57600", 57600, by decide +kernel, by decide +kernel,
      decimal_sample _ _ (by decide +kernel), by decide⟩)
  · refine ⟨?_, ?_, ?_, ?_, fun _ => ?_⟩
    · intro h; exact absurd h (by decide)
    · intro h; exact absurd h (by decide)
    · intro h; exact absurd h (by decide)
    · intro h; exact absurd h (by decide)
    · rintro t ⟨⟩
      exact ⟨255, decimal_sample _ _ (by decide +kernel), by decide, by decide⟩
  · exact .inr (.inr ⟨ascii "0.0.0.0", ascii "10000", 10000, by decide +kernel, by decide +kernel, h4 _ (by decide +kernel),
      decimal_sample _ _ (by decide +kernel), by decide, by decide⟩)
  · refine ⟨fun _ => .inr ((validIpv4_iff _).1 (by decide +kernel)), ?_, ?_, ?_, ?_⟩ <;> (intro h; exact absurd h (by decide))

attribute [local irreducible] Sample.acceptConf in
/-- The hypotheses of `C128_runs_partial` (and of `C128_files_partial`, `C128_words_partial`) are met. -/
example : ∃ r, mainStart Sample.acceptHost (Sample.acceptWords.flatMap (·.args)) = .runs r := by
  have hfiles : ∀ files, FilesUsed Sample.acceptHost (Sample.acceptWords.flatMap (·.args)) files → files = [Sample.acceptConf] := by
    rintro files ⟨ms, cs, h1, h2, rfl⟩
    rcases h2 with ⟨_, rfl⟩ | ⟨es, _, h2, _⟩
    · rcases h1 with ⟨h1, _⟩ | ⟨c, h1, rfl⟩
      · cases h1
      · cases h1; rfl
    · cases h2
  refine C128_runs_partial Sample.acceptHost Sample.acceptWords ⟨by simp [Sample.acceptHost], ?_, ?_, ?_⟩ ?_
    Sample.acceptWords_ok Sample.acceptWords_good (by decide +kernel) rfl (fun _ => rfl)
  · intro es h; cases h
  · intro es h; cases h
  · intro es h; cases h
  · intro files hu
    rw [hfiles files hu]
    refine ⟨?_, Sample.accept_sections⟩
    intro f hf
    rw [List.mem_singleton.1 hf]
    exact (parseConf_good ConfOk.nil _).1 (by decide +kernel)

example : ∃ c, readConfig (parseConfs [] [Sample.acceptConf]) {} = .ok c := by
  obtain ⟨ds, h⟩ := filesRead_exists [Sample.acceptConf]
  exact C128_files_partial _ ds h (Sample.accept_sections ds h)

example : ∃ c, parseArgv Sample.acceptHost.isChr (Sample.acceptWords.flatMap (·.args)) {} = some c :=
  C128_words_partial _ _ Sample.acceptWords_ok Sample.acceptWords_good _

/-- C128 is false: `-e [::1]` (the port is optional according to the help text), `-T` with nothing behind it, and an
IPv6 address in upper case are refused. -/
theorem C128_violated :
    (∀ isChr c, parseArgv isChr [ascii "-e", ascii "[::1]"] c = none) ∧
    (∀ isChr c, parseArgv isChr [ascii "-T"] c = none) ∧
    (∃ f, GoodFile f ∧ f = ascii "[TcpEndpoint t]\nAddress=[FE80::1]\nPort=5760\n" ∧ readConfig (parseConfs [] [f]) {} = .err) := by
  refine ⟨?_, ?_, _, ?_, rfl, ?_⟩
  · intro isChr c
    have e : getopt [ascii "-e", ascii "[::1]"] = ([.opt 101 (ascii "[::1]")], []) := by decide +kernel
    have e2 : splitOnLastColon (ascii "[::1]") = none := by decide +kernel
    unfold parseArgv
    rw [e]
    simp only [argvOptions, argvOption]
    rw [e2]
    rfl
  · intro isChr c
    have e : getopt [ascii "-T"] = ([.bad], []) := by decide +kernel
    unfold parseArgv
    rw [e]
    rfl
  · exact (parseConf_good ConfOk.nil _).1 (by decide +kernel)
  · decide +kernel

end Verif
