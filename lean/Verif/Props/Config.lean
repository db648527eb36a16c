import Verif.Lemmas.Config

/-
C58, C61, C63, C69: from configuration files to endpoints.
-/

namespace Verif
open Spec.Conf

namespace Sample

/-- A configuration with endpoints of all three types. -/
def confFull : List UInt8 := ascii
  "[General]\nTcpServerPort=0\n[UartEndpoint fc]\nDevice=/dev/ttyS0\nBaud=57600,921600\n[UdpEndpoint gcs]\nMode=Normal\nAddress=10.0.0.1\nAllowMsgIdOut=0, 30\n[tcpendpoint GCS]\nAddress=[::1]\nPort=5790\nRetryTimeout=0\nGroup=g\n"

/-- The configuration it stands for. -/
def confFullRead : Config :=
  { tcpPort := 0
    uart := [{ name := ascii "fc", device := ascii "/dev/ttyS0", baud := [57600, 921600] }]
    udp := [{ name := ascii "gcs", address := ascii "10.0.0.1", port := 14550, mode := .client,
              filters := { allowOutMsg := [0, 30] } }]
    tcp := [{ name := ascii "GCS", address := ascii "[::1]", port := 5790, retry := 0, group := ascii "g" }] }

theorem confFull_ok : readConfig (parseConfs [] [confFull]) {} = .ok confFullRead := by decide +kernel

end Sample

theorem uartPrefix_nul : 0 ∉ uartPrefix := by decide
theorem udpPrefix_nul : 0 ∉ udpPrefix := by decide
theorem tcpPrefix_nul : 0 ∉ tcpPrefix := by decide

/-! ### C58 -/

/-- C58 for section names below 100 bytes: whatever files were read, iterating a pattern ends without
leaving the buffer and visits exactly one section for each declared section of the type, with the rest
of the name as endpoint name.  Missing: names of 100 bytes, see `C58_violated`. -/
theorem C58_iterate_partial (files : List (List UInt8)) (ds : List Decl) (h : FilesRead files ds)
    (hn : ∀ n, Decl.section n ∈ ds → n.length < 100) (type : List UInt8) (ht : 0 ∉ type) :
    ∃ vs, visitSections type (parseConfs [] files).length (parseConfs [] files) = some vs ∧
      OneEach type ds (vs.map fun s => s.name.drop type.length) := by
  have ok := parseConfs_ok h
  refine ⟨_, visitSections_short (Nat.le_refl _) ?_, selected_oneEach ht ok.ok ok.declared⟩
  intro s hs
  obtain ⟨n, h1, h2⟩ := (ok.declared s.name).1 ⟨s, hs, Same.rfl' _⟩
  rw [← h2.1]; exact hn n h1

theorem Spec.Conf.EachTo.names {β : Type} {R : CfgSection → β → Prop} {f : β → List UInt8} {pre : List UInt8}
    (hR : ∀ s o, R s o → f o = s.name.drop pre.length) {L : List CfgSection} {us : List β}
    (h : EachTo R L us) : us.map f = L.map fun s => s.name.drop pre.length := by
  induction h with
  | nil => rfl
  | cons h _ ih => rw [List.map_cons, List.map_cons, ih, hR _ _ h]

theorem UartFrom.name {s : CfgSection} {o : UartConf} (h : UartFrom s o) :
    o.name = s.name.drop uartPrefix.length := by
  obtain ⟨_, o', h1, rfl⟩ := h
  have := (extract_uart h1).1
  split <;> exact this

theorem UdpFrom.name {port : List UInt8 → Nat} {s : CfgSection} {o : UdpConf} (h : UdpFrom port s o) :
    o.name = s.name.drop udpPrefix.length := by
  obtain ⟨_, o', h1, rfl⟩ := h
  have := (extract_udp h1).1
  split <;> exact this

/-- C58: if the configuration is read successfully, there is exactly one endpoint for each section of
its type, with its name. -/
theorem C58_endpoints_partial (files : List (List UInt8)) (ds : List Decl) (h : FilesRead files ds) (c : Config)
    (hc : readConfig (parseConfs [] files) {} = .ok c) :
    OneEach (ascii "UartEndpoint ") ds (c.uart.map (·.name)) ∧
    OneEach (ascii "UdpEndpoint ") ds (c.udp.map (·.name)) ∧
    OneEach (ascii "TcpEndpoint ") ds (c.tcp.map (·.name)) := by
  have ok := parseConfs_ok h
  obtain ⟨_, ⟨us, e1, hu⟩, ⟨vs, e2, hv⟩, ⟨ws, e3, hw⟩⟩ := readConfig_ok hc
  have conv : ∀ {t t' : List UInt8} {ns : List (List UInt8)}, Same t t' → OneEach t ds ns → OneEach t' ds ns := by
    intro t t' ns hs hone
    have hT : ∀ sec name, Typed t sec name ↔ Typed t' sec name := by
      intro sec name
      exact ⟨fun ⟨x, h1, h2⟩ => ⟨x, h1, h2.trans hs⟩, fun ⟨x, h1, h2⟩ => ⟨x, h1, h2.trans hs.symm⟩⟩
    refine ⟨fun sec name h1 h2 => hone.all sec name h1 ((hT _ _).2 h2), ?_, hone.distinct⟩
    intro n hn
    obtain ⟨sec, h1, h2⟩ := hone.only n hn
    exact ⟨sec, h1, (hT _ _).1 h2⟩
  refine ⟨conv (show Same uartPrefix _ by decide) ?_, conv (show Same udpPrefix _ by decide) ?_,
    conv (show Same tcpPrefix _ by decide) ?_⟩
  · rw [e1, List.nil_append, EachTo.names (fun _ _ h => h.name) hu]
    exact selected_oneEach uartPrefix_nul ok.ok ok.declared
  · rw [e2, List.nil_append, EachTo.names (fun _ _ ⟨_, h⟩ => h.name) hv.each]
    exact selected_oneEach udpPrefix_nul ok.ok ok.declared
  · rw [e3, List.nil_append, EachTo.names (fun _ _ h => (extract_tcp h.2).1) hw]
    exact selected_oneEach tcpPrefix_nul ok.ok ok.declared

example : Sample.confFullRead.uart.map (·.name) = [ascii "fc"] ∧ Sample.confFullRead.tcp.map (·.name) = [ascii "GCS"] ∧
    (∃ ds, FilesRead [Sample.confFull] ds) :=
  ⟨rfl, rfl, filesRead_exists _⟩

/-- C58 is false: with a section name of 100 bytes reading the configuration has undefined
behaviour. -/
theorem C58_violated : ∃ f, (parseConf [] f).2 = true ∧ readConfig (parseConf [] f).1 {} = .ub :=
  ⟨ascii "[udpendpoint " ++ List.replicate 88 97 ++ ascii "]\nMode=Normal\nAddress=1.2.3.4\n",
    by decide +kernel, by decide +kernel⟩

/-! ### C69 -/

theorem Spec.Conf.EachTo.mem_right {α β : Type} {R : α → β → Prop} {L : List α} {us : List β} (h : EachTo R L us)
    {o : β} (ho : o ∈ us) : ∃ s ∈ L, R s o := by
  induction h with
  | nil => cases ho
  | cons h _ ih =>
    rcases List.mem_cons.1 ho with rfl | ho
    · exact ⟨_, by simp, h⟩
    · obtain ⟨s, hs, hr⟩ := ih ho
      exact ⟨s, by simp [hs], hr⟩

/-- C69: every endpoint of a configuration that is read successfully belongs to a section of its
type and name, and has the values that the last settings in this section give. -/
theorem C69_options (files : List (List UInt8)) (ds : List Decl) (h : FilesRead files ds) (c : Config)
    (hc : readConfig (parseConfs [] files) {} = .ok c) :
    (∀ o ∈ c.uart, ∃ sec, Declared ds sec ∧ Typed (ascii "UartEndpoint ") sec o.name ∧
      UartAsked (fun k => lastSet ds sec (ascii k)) o) ∧
    (∀ o ∈ c.udp, ∃ sec, Declared ds sec ∧ Typed (ascii "UdpEndpoint ") sec o.name ∧
      UdpAsked (fun k => lastSet ds sec (ascii k)) o) ∧
    (∀ o ∈ c.tcp, ∃ sec, Declared ds sec ∧ Typed (ascii "TcpEndpoint ") sec o.name ∧
      TcpAsked (fun k => lastSet ds sec (ascii k)) o) := by
  have ok := parseConfs_ok h
  have hk : ∀ s : CfgSection, ∀ k k', Same k k' → findIn s k = findIn s k' := fun s k k' h => optValue_key h
  have hty : ∀ {pre type : List UInt8}, 0 ∉ pre → Same pre type → ∀ {s : CfgSection},
      s ∈ selected pre (parseConfs [] files) →
      s ∈ parseConfs [] files ∧ Typed type s.name (s.name.drop pre.length) := by
    intro pre type hp hs s hm
    obtain ⟨h1, name, h2⟩ := (selected_mem hp).1 hm
    refine ⟨h1, ?_⟩
    rw [h2.drop]
    obtain ⟨x, h3, h4⟩ := h2
    exact ⟨x, h3, h4.trans hs⟩
  obtain ⟨_, ⟨us, e1, hu⟩, ⟨vs, e2, hv⟩, ⟨ws, e3, hw⟩⟩ := readConfig_ok hc
  refine ⟨?_, ?_, ?_⟩
  · intro o ho
    rw [e1, List.nil_append] at ho
    obtain ⟨s, hs, hr⟩ := hu.mem_right ho
    obtain ⟨h1, h2⟩ := hty uartPrefix_nul (type := ascii "UartEndpoint ") (by decide) hs
    have hn := hr.name
    obtain ⟨_, o', h3, h4⟩ := hr
    refine ⟨s.name, (ok.declared _).1 ⟨s, h1, Same.rfl' _⟩, hn ▸ h2, ?_⟩
    exact (uartAsked (fun k => (find_lastSet ok.ok ok.values h1 _).symm) (hk s) h3 h4).1
  · intro o ho
    rw [e2, List.nil_append] at ho
    obtain ⟨s, hs, port, hr⟩ := hv.each.mem_right ho
    obtain ⟨h1, h2⟩ := hty udpPrefix_nul (type := ascii "UdpEndpoint ") (by decide) hs
    have hn := hr.name
    obtain ⟨_, o', h3, h4⟩ := hr
    refine ⟨s.name, (ok.declared _).1 ⟨s, h1, Same.rfl' _⟩, hn ▸ h2, ?_⟩
    exact (udpAsked (fun k => (find_lastSet ok.ok ok.values h1 _).symm) (hk s) h3 h4).1
  · intro o ho
    rw [e3, List.nil_append] at ho
    obtain ⟨s, hs, hr⟩ := hw.mem_right ho
    obtain ⟨h1, h2⟩ := hty tcpPrefix_nul (type := ascii "TcpEndpoint ") (by decide) hs
    have hn := (extract_tcp hr.2).1
    refine ⟨s.name, (ok.declared _).1 ⟨s, h1, Same.rfl' _⟩, hn ▸ h2, ?_⟩
    exact (tcpAsked (fun k => (find_lastSet ok.ok ok.values h1 _).symm) (hk s) hr.2).1

example : readConfig (parseConfs [] [Sample.confFull]) {} = .ok Sample.confFullRead ∧
    Sample.confFullRead.udp.map (·.filters.allowOutMsg) = [[0, 30]] := ⟨Sample.confFull_ok, rfl⟩

/-! ### C61 -/

/-- The first port from 14550 on that no endpoint with the address uses. -/
def Spec.Conf.FirstFree (ip : List UInt8) (cs : List UdpConf) (p : Nat) : Prop :=
  14550 ≤ p ∧ (∀ c ∈ cs, c.address = ip → c.port ≠ p) ∧
    ∀ q, 14550 ≤ q → q < p → ∃ c ∈ cs, c.address = ip ∧ c.port = q

theorem findNextUdpPort_eq (ip : List UInt8) (cs : List UdpConf) :
    (findNextUdpPort ip cs = 14550 ∧ ∀ c ∈ cs, c.address = ip → c.port ≠ 14550) ∨
    (findNextUdpPort ip cs = 14551 ∧ ∃ c ∈ cs, c.address = ip ∧ c.port = 14550) := by
  induction cs with
  | nil => exact Or.inl ⟨rfl, by simp⟩
  | cons c cs ih =>
    by_cases h : ip = c.address ∧ c.port = 14550
    · exact Or.inr ⟨by simp [findNextUdpPort, h], c, by simp, h.1.symm, h.2⟩
    · have e : findNextUdpPort ip (c :: cs) = findNextUdpPort ip cs := by simp only [findNextUdpPort, if_neg h]
      rw [e]
      rcases ih with ⟨h1, h2⟩ | ⟨h1, d, h2, h3⟩
      · refine Or.inl ⟨h1, ?_⟩
        intro d hd ha hp
        rcases List.mem_cons.1 hd with rfl | hd
        · exact h ⟨ha.symm, hp⟩
        · exact h2 d hd ha hp
      · exact Or.inr ⟨h1, d, by simp [h2], h3⟩

/-- C61 as long as 14551 is free: the port is the first free one.  Missing: 14550 and 14551 both in
use, see `C61_violated`. -/
theorem C61_port_partial (ip : List UInt8) (cs : List UdpConf)
    (h : (∀ c ∈ cs, c.address = ip → c.port ≠ 14550) ∨ ∀ c ∈ cs, c.address = ip → c.port ≠ 14551) :
    FirstFree ip cs (findNextUdpPort ip cs) := by
  rcases findNextUdpPort_eq ip cs with ⟨e, h1⟩ | ⟨e, c, h1, h2, h3⟩
  · rw [e]; exact ⟨Nat.le_refl _, h1, fun q h2 h3 => by omega⟩
  · rw [e]
    refine ⟨by decide, ?_, ?_⟩
    · rcases h with h | h
      · exact absurd h3 (h c h1 h2)
      · exact h
    · intro q h4 h5
      exact ⟨c, h1, h2, by omega⟩

example : FirstFree (ascii "10.0.0.1") Sample.confFullRead.udp 14551 :=
  C61_port_partial (ascii "10.0.0.1") Sample.confFullRead.udp (Or.inr (by decide))

/-- C61 holds for the endpoints of files when at most two ask for an automatic port of the same
address: the port of each endpoint that leaves it open is chosen by `findNextUdpPort` from the
endpoints before it. -/
theorem C61_files_partial (files : List (List UInt8)) (ds : List Decl) (h : FilesRead files ds) (c : Config)
    (hc : readConfig (parseConfs [] files) {} = .ok c) (pre : List UdpConf) (o : UdpConf) (post : List UdpConf)
    (e : c.udp = pre ++ o :: post) :
    ∃ sec, Declared ds sec ∧ Typed (ascii "UdpEndpoint ") sec o.name ∧
      (lastSet ds sec (ascii "Port") = none → o.mode = .client →
        (∀ d ∈ pre, d.address = o.address → d.port ≠ 14551) → FirstFree o.address pre o.port) := by
  have ok := parseConfs_ok h
  obtain ⟨_, _, ⟨vs, e2, hv⟩, _⟩ := readConfig_ok hc
  rw [e2, List.nil_append] at e
  subst e
  have key : ∀ {prev L us}, UdpsFrom prev L us → ∀ p o q, us = p ++ o :: q →
      ∃ s ∈ L, UdpFrom (fun a => findNextUdpPort a (prev ++ p)) s o := by
    intro prev L us hU
    induction hU with
    | nil => intro p o q he; cases p <;> cases he
    | @cons prev s o' L us h1 _ ih =>
      intro p o q he
      cases p with
      | nil =>
        cases he
        exact ⟨s, by simp, by simpa using h1⟩
      | cons x p =>
        simp only [List.cons_append, List.cons.injEq] at he
        obtain ⟨rfl, he⟩ := he
        obtain ⟨t, ht, h2⟩ := ih p o q he
        exact ⟨t, by simp [ht], by simpa using h2⟩
  obtain ⟨s, hs, hr⟩ := key hv pre o post rfl
  obtain ⟨h1, name, h2⟩ := (selected_mem udpPrefix_nul).1 hs
  have hn : o.name = name := hr.name.trans h2.drop
  refine ⟨s.name, (ok.declared _).1 ⟨s, h1, Same.rfl' _⟩, ?_, ?_⟩
  · obtain ⟨x, h3, h4⟩ := h2
    rw [hn]
    exact ⟨x, h3, h4.trans (by decide)⟩
  · intro hp hm hfree
    obtain ⟨_, o', h3, h4⟩ := hr
    have h5 := (extract_udp h3).2.2.2.1
    have h6 : findIn s (ascii "port") = none := by
      rw [← hp, ← find_lastSet ok.ok ok.values h1]
      exact optValue_key (by decide)
    rw [h6] at h5
    have h7 : o'.port = ulongMax := h5
    have hm' : o'.mode = .client := by
      rw [h4] at hm; split at hm <;> exact hm
    rw [if_pos ⟨hm', h7⟩] at h4
    have ha : o.address = o'.address := by rw [h4]
    have hport : o.port = findNextUdpPort o.address pre := by
      rw [ha]
      conv => lhs; rw [h4]
      simp
    rw [hport]
    exact C61_port_partial _ _ (Or.inr hfree)

/-- C61 is false: of three clients of one address without ports, two get port 14551. -/
theorem C61_violated : ∃ f c, (parseConf [] f).2 = true ∧ readConfig (parseConf [] f).1 {} = .ok c ∧
    c.udp.map (fun o => (o.address, o.port)) =
      [(ascii "10.0.0.1", 14550), (ascii "10.0.0.1", 14551), (ascii "10.0.0.1", 14551)] := by
  let f := ascii "[UdpEndpoint a]\nMode=Normal\nAddress=10.0.0.1\n[UdpEndpoint b]\nMode=Normal\nAddress=10.0.0.1\n[UdpEndpoint c]\nMode=Normal\nAddress=10.0.0.1\n"
  let e (n : String) (p : Nat) : UdpConf := { name := ascii n, address := ascii "10.0.0.1", port := p, mode := .client }
  exact ⟨f, { udp := [e "c" 14550, e "b" 14551, e "a" 14551] }, by decide +kernel, by decide +kernel, by decide +kernel⟩

/-! ### C63 -/

/-- `htons(port)` as a number (endpoint.cpp:1151, 1205, 1575, 1601): the argument is converted to 16
bits. -/
def sinPort (port : Nat) : Nat := port % 65536

/-- C63 without the upper bound: an endpoint read from files has an address of an accepted shape and a
port other than 0 and 2^64-1; the port of the socket is the configured one if this is below 65536.
Missing: the upper bound, see `C63_violated`. -/
theorem C63_port_partial (ss : List CfgSection) (c : Config) (hc : readConfig ss {} = .ok c) :
    (∀ o ∈ c.udp, o.port ≠ 0 ∧ o.port ≠ 2 ^ 64 - 1 ∧ (o.port < 65536 → sinPort o.port = o.port) ∧
      (o.mode = .client ∨ o.mode = .server)) ∧
    (∀ o ∈ c.tcp, o.port ≠ 0 ∧ o.port ≠ 2 ^ 64 - 1 ∧ (o.port < 65536 → sinPort o.port = o.port)) ∧
    (∀ o ∈ c.uart, o.device ≠ [] ∧ o.baud ≠ []) := by
  obtain ⟨_, ⟨us, e1, hu⟩, ⟨vs, e2, hv⟩, ⟨ws, e3, hw⟩⟩ := readConfig_ok hc
  refine ⟨?_, ?_, ?_⟩
  · intro o ho
    rw [e2, List.nil_append] at ho
    obtain ⟨s, _, port, hr, _⟩ := hv.each.mem_right ho
    simp only [UdpConf.valid, ulongMax, Bool.and_eq_true, Bool.not_eq_true', Bool.or_eq_false_iff, beq_eq_false_iff_ne,
      Bool.or_eq_true, beq_iff_eq] at hr
    exact ⟨hr.1.2.1, hr.1.2.2, fun h => Nat.mod_eq_of_lt h, hr.2⟩
  · intro o ho
    rw [e3, List.nil_append] at ho
    obtain ⟨s, _, hr, _⟩ := hw.mem_right ho
    simp only [TcpConf.valid, ulongMax, Bool.and_eq_true, Bool.not_eq_true', Bool.or_eq_false_iff, beq_eq_false_iff_ne] at hr
    exact ⟨hr.2.1, hr.2.2, fun h => Nat.mod_eq_of_lt h⟩
  · intro o ho
    rw [e1, List.nil_append] at ho
    obtain ⟨s, _, hr, _⟩ := hu.mem_right ho
    simp only [UartConf.valid, Bool.and_eq_true, bne_iff_ne] at hr
    exact ⟨hr.2, hr.1⟩

example : readConfig (parseConfs [] [Sample.confFull]) {} = .ok Sample.confFullRead ∧
    Sample.confFullRead.udp.length = 1 ∧ Sample.confFullRead.tcp.length = 1 := ⟨Sample.confFull_ok, rfl, rfl⟩

/-- C63 is false: port 65536 is accepted and becomes port 0; 70000 becomes 4464. -/
theorem C63_violated : ∃ f c, (parseConf [] f).2 = true ∧ readConfig (parseConf [] f).1 {} = .ok c ∧
    c.udp.map (fun o => (o.port, sinPort o.port)) = [(65536, 0)] ∧
    c.tcp.map (fun o => (o.port, sinPort o.port)) = [(70000, 4464)] := by
  let f := ascii "[UdpEndpoint a]\nMode=Server\nAddress=10.0.0.1\nPort=65536\n[TcpEndpoint b]\nAddress=10.0.0.1\nPort=70000\n"
  exact ⟨f, { udp := [{ name := ascii "a", address := ascii "10.0.0.1", port := 65536, mode := .server }]
              tcp := [{ name := ascii "b", address := ascii "10.0.0.1", port := 70000 }] },
    by decide +kernel, by decide +kernel, by decide +kernel, by decide +kernel⟩

end Verif
