import Verif.Props.Start
import Verif.Props.Accept
import Verif.Props.ConfNum

/- Property C59 for whole configurations: numbers that cannot be read are refused. -/

namespace Verif
open Spec Spec.Conf

/-- A number of C below 2^64, up to the end of the string. -/
def Spec.Conf.UnsignedText (t : List UInt8) : Prop := ∃ neg n, CNumber (t.takeWhile (· != 0)) neg n ∧ n < 2 ^ 64

/-- A number of C in the range of `int`. -/
def Spec.Conf.SignedText (t : List UInt8) : Prop :=
  ∃ neg n, CNumber (t.takeWhile (· != 0)) neg n ∧ - 2 ^ 31 ≤ (if neg then - (n : Int) else n) ∧ (if neg then - (n : Int) else n) < 2 ^ 31

theorem parseUl_text {t : List UInt8} {v : Nat} (h : parseUl t = some v) : UnsignedText t := by
  obtain ⟨neg, n, h1, h2, _⟩ := (C59_unsigned_partial t v).1 h
  exact ⟨neg, n, h1, h2⟩

theorem parseI_text {t : List UInt8} {v : Int} (h : parseI t = some v) : SignedText t := by
  obtain ⟨neg, n, h1, h2, h3, h4⟩ := (C59_int t v).1 h
  exact ⟨neg, n, h1, h2 ▸ h3, h2 ▸ h4⟩

/-- All options that are given were parsed. -/
theorem extract_parsed {α : Type} {find : List UInt8 → Option (List UInt8)} {o : Opt α} {v : List UInt8} (hv : find o.key = some v) :
    ∀ {os : List (Opt α)} {a b : α}, extract find os a = some b → o ∈ os → ∃ a' b', o.parse v a' = some b'
  | [], _, _, _, hm => by cases hm
  | o' :: os, a, b, h, hm => by
    simp only [extract] at h
    rcases List.mem_cons.1 hm with rfl | hm
    · rw [hv] at h
      cases hp : o.parse v a with
      | none => simp only [hp] at h; cases h
      | some b' => exact ⟨a, b', hp⟩
    · split at h
      · split at h
        · cases h
        · exact extract_parsed hv h hm
      · split at h
        · cases h
        · exact extract_parsed hv h hm

theorem optVal_parsed {α β : Type} {key : String} {req : Bool} {parse : List UInt8 → Option β} {set : β → α → α}
    {find : List UInt8 → Option (List UInt8)} {v : List UInt8} {os : List (Opt α)} {a b : α} (h : extract find os a = some b)
    (hm : optVal key req parse set ∈ os) (hv : find (ascii key) = some v) : ∃ x, parse v = some x := by
  obtain ⟨a', b', hp⟩ := extract_parsed (o := optVal key req parse set) hv h hm
  simp only [optVal, Option.map_eq_some_iff] at hp
  obtain ⟨x, hx, _⟩ := hp
  exact ⟨x, hx⟩

theorem Spec.Conf.EachTo.mem_left {α β : Type} {R : α → β → Prop} {L : List α} {us : List β} (h : EachTo R L us)
    {s : α} (hs : s ∈ L) : ∃ o ∈ us, R s o := by
  induction h with
  | nil => cases hs
  | cons h _ ih =>
    rcases List.mem_cons.1 hs with rfl | hs
    · exact ⟨_, by simp, h⟩
    · obtain ⟨o, ho, hr⟩ := ih hs
      exact ⟨o, by simp [ho], hr⟩

/-- **C59** (part) for configurations: if the files are read successfully, the last text given for every numeric option is a number that fits. So
any other text makes reading fail, whatever else the files say. Leading zeros and negative numbers for unsigned options are among the numbers,
see `C59_violated`. -/
theorem C59_refused_partial (files : List (List UInt8)) (ds : List Decl) (h : FilesRead files ds) (c : Config)
    (hc : readConfig (parseConfs [] files) {} = .ok c) :
    (∀ sec name, Declared ds sec → Typed (ascii "UdpEndpoint ") sec name →
      ∀ t, lastSet ds sec (ascii "Port") = some t → UnsignedText t) ∧
    (∀ sec name, Declared ds sec → Typed (ascii "TcpEndpoint ") sec name →
      (∀ t, lastSet ds sec (ascii "Port") = some t → UnsignedText t) ∧
      ∀ t, lastSet ds sec (ascii "RetryTimeout") = some t → SignedText t) ∧
    (∀ k ∈ ["TcpServerPort", "DeduplicationPeriod", "SnifferSysid", "MinFreeSpace", "MaxLogFiles"],
      ∀ t, lastSet ds (ascii "General") (ascii k) = some t → UnsignedText t) ∧
    ∀ t, lastSet ds (ascii "General") (ascii "LogSystemId") = some t → SignedText t := by
  have ok := parseConfs_ok h
  have hk : ∀ s : CfgSection, ∀ k k', Same k k' → findIn s k = findIn s k' := fun s k k' h => optValue_key h
  have pick : ∀ {pre type : List UInt8}, 0 ∉ pre → Same type pre → ∀ {sec name : List UInt8}, Declared ds sec → Typed type sec name →
      ∃ s ∈ selected pre (parseConfs [] files), ∀ key, findIn s key = lastSet ds sec key := by
    intro pre type hp hs sec name hd ⟨x, h1, h2⟩
    obtain ⟨s, hm, hn⟩ := (ok.declared sec).2 hd
    have ht : Typed pre sec name := ⟨x, h1, h2.trans hs⟩
    obtain ⟨name', h3, _⟩ := ht.congr hp hn.symm
    refine ⟨s, (selected_mem hp).2 ⟨hm, name', h3⟩, fun key => ?_⟩
    rw [← lastSet_same hn]
    exact find_lastSet ok.ok ok.values hm key
  obtain ⟨_, _, ⟨vs, _, hv⟩, ⟨ws, _, hw⟩⟩ := readConfig_ok hc
  have gen : ∃ c1 c2 l, extract (fun k => confValue (parseConfs [] files) (ascii "General") k) globalOpts {} = some c1 ∧
      extract (fun k => confValue (parseConfs [] files) (ascii "General") k) logOpts c2 = some l := by
    unfold readConfig at hc
    cases h1 : extractNamed (parseConfs [] files) (ascii "General") globalOpts {} with
    | none => rw [h1] at hc; cases hc
    | some c1 =>
      rw [h1] at hc
      simp only at hc
      cases h2 : extractNamed (parseConfs [] files) (ascii "General") logOpts c1.log with
      | none => rw [h2] at hc; cases hc
      | some l =>
        rw [extractNamed_eq _ (by decide)] at h1 h2
        exact ⟨c1, _, l, h1, h2⟩
  obtain ⟨c1, c2, l, h1, h2⟩ := gen
  refine ⟨?_, ?_, ?_, ?_⟩
  · intro sec name hd ht t hl
    obtain ⟨s, hs, hf⟩ := pick udpPrefix_nul (show Same (ascii "UdpEndpoint ") udpPrefix by decide) hd ht
    obtain ⟨_, _, _, _, o', h3, _⟩ := hv.each.mem_left hs
    obtain ⟨x, hx⟩ := optVal_parsed (key := "port") (req := false) (parse := parseUl) (set := fun p c => { c with port := p }) h3 (by simp [udpOpts])
      (by rw [hk s _ (ascii "Port") (by decide), hf]; exact hl)
    exact parseUl_text hx
  · intro sec name hd ht
    obtain ⟨s, hs, hf⟩ := pick tcpPrefix_nul (show Same (ascii "TcpEndpoint ") tcpPrefix by decide) hd ht
    obtain ⟨_, _, _, h3⟩ := hw.mem_left hs
    constructor
    · intro t hl
      obtain ⟨x, hx⟩ := optVal_parsed (key := "port") (req := true) (parse := parseUl) (set := fun p c => { c with port := p }) h3
        (by simp [tcpOpts]) (by rw [hk s _ (ascii "Port") (by decide), hf]; exact hl)
      exact parseUl_text hx
    · intro t hl
      obtain ⟨x, hx⟩ := optVal_parsed (key := "RetryTimeout") (req := false) (parse := parseI) (set := fun r c => { c with retry := r }) h3
        (by simp [tcpOpts]) (by rw [hf]; exact hl)
      exact parseI_text hx
  · intro k hmem t hl
    rw [← C54_last_wins files ds h] at hl
    simp only [List.mem_cons, List.not_mem_nil, or_false] at hmem
    rcases hmem with rfl | rfl | rfl | rfl | rfl
    · obtain ⟨x, hx⟩ := optVal_parsed (req := false) (parse := parseUl) (set := fun p c => { c with tcpPort := p }) h1 (by simp [globalOpts]) hl
      exact parseUl_text hx
    · obtain ⟨x, hx⟩ := optVal_parsed (req := false) (parse := parseUl) (set := fun p c => { c with dedupMs := p }) h1 (by simp [globalOpts]) hl
      exact parseUl_text hx
    · obtain ⟨x, hx⟩ := optVal_parsed (req := false) (parse := parseUl) (set := fun p c => { c with sniffer := p }) h1 (by simp [globalOpts]) hl
      exact parseUl_text hx
    · obtain ⟨x, hx⟩ := optVal_parsed (req := false) (parse := parseUl) (set := fun p c => { c with minFree := p }) h2 (by simp [logOpts]) hl
      exact parseUl_text hx
    · obtain ⟨x, hx⟩ := optVal_parsed (req := false) (parse := parseUl) (set := fun p c => { c with maxFiles := p }) h2 (by simp [logOpts]) hl
      exact parseUl_text hx
  · intro t hl
    rw [← C54_last_wins files ds h] at hl
    obtain ⟨x, hx⟩ := optVal_parsed (req := false) (parse := parseFcuId) (set := fun i c => { c with fcuId := i }) h2 (by simp [logOpts]) hl
    unfold parseFcuId at hx
    cases hi : parseI t with
    | none => rw [hi] at hx; cases hx
    | some i => exact parseI_text hi

/-- The sample configuration is read and sets ports; with a letter in a port a file is refused. -/
example : readConfig (parseConfs [] [Sample.confFull]) {} = .ok Sample.confFullRead ∧ (∃ ds, FilesRead [Sample.confFull] ds) ∧
    readConfig (parseConfs [] [ascii "[TcpEndpoint a]\nAddress=1.2.3.4\nPort=57x\n"]) {} = .err ∧
    readConfig (parseConfs [] [ascii "[General]\nDeduplicationPeriod=5ms\n"]) {} = .err := by
  refine ⟨Sample.confFull_ok, filesRead_exists _, by decide +kernel, by decide +kernel⟩

/-- What a switch takes: `true` or `false` in any case, or a number of C in the range of `int`. -/
def Spec.Conf.SwitchText (t : List UInt8) : Prop := Same (ascii "true") t ∨ Same (ascii "false") t ∨ SignedText t

theorem parseBool_text {t : List UInt8} {v : Bool} (h : parseBool t = some v) : SwitchText t := by
  rcases (C59_bool t v).1 h with h | h | ⟨_, _, i, hi, _⟩
  · exact .inl h.1
  · exact .inr (.inl h.2.1)
  · exact .inr (.inr (parseI_text hi))

/-- C59 for the switches of whole files: if the files are accepted, then what they set last for ReportStats, LogTelemetry and the
FlowControl of every serial endpoint is one of the texts a switch takes; files with another text are refused. -/
theorem C59_refused_switches (files : List (List UInt8)) (ds : List Decl) (h : FilesRead files ds) (c : Config)
    (hc : readConfig (parseConfs [] files) {} = .ok c) :
    (∀ sec name, Declared ds sec → Typed (ascii "UartEndpoint ") sec name →
      ∀ t, lastSet ds sec (ascii "FlowControl") = some t → SwitchText t) ∧
    ∀ k ∈ ["ReportStats", "LogTelemetry"], ∀ t, lastSet ds (ascii "General") (ascii k) = some t → SwitchText t := by
  have ok := parseConfs_ok h
  constructor
  · intro sec name hd ⟨x, h1, h2⟩ t hl
    obtain ⟨_, ⟨us, _, hu⟩, _⟩ := readConfig_ok hc
    obtain ⟨s, hm, hn⟩ := (ok.declared sec).2 hd
    have ht : Typed uartPrefix sec name := ⟨x, h1, h2.trans (show Same (ascii "UartEndpoint ") uartPrefix by decide)⟩
    obtain ⟨name', h3, _⟩ := ht.congr uartPrefix_nul hn.symm
    obtain ⟨_, _, _, o', h4, _⟩ := hu.mem_left ((selected_mem uartPrefix_nul).2 ⟨hm, name', h3⟩)
    rw [← lastSet_same hn, ← find_lastSet ok.ok ok.values hm] at hl
    obtain ⟨b, hb⟩ := optVal_parsed (req := false) (parse := parseBool) (set := fun b c => { c with flow := b }) h4
      (by simp [uartOpts]) hl
    exact parseBool_text hb
  · intro k hmem t hl
    rw [← C54_last_wins files ds h] at hl
    unfold readConfig at hc
    cases h1 : extractNamed (parseConfs [] files) (ascii "General") globalOpts {} with
    | none => rw [h1] at hc; cases hc
    | some c1 =>
      rw [h1] at hc
      simp only at hc
      cases h2 : extractNamed (parseConfs [] files) (ascii "General") logOpts c1.log with
      | none => rw [h2] at hc; cases hc
      | some l =>
        rw [extractNamed_eq _ (by decide)] at h1 h2
        simp only [List.mem_cons, List.not_mem_nil, or_false] at hmem
        rcases hmem with rfl | rfl
        · obtain ⟨b, hb⟩ := optVal_parsed (req := false) (parse := parseBool) (set := fun b c => { c with stats := b }) h1
            (by simp [globalOpts]) hl
          exact parseBool_text hb
        · obtain ⟨b, hb⟩ := optVal_parsed (req := false) (parse := parseBool) (set := fun b c => { c with telemetry := b }) h2
            (by simp [logOpts]) hl
          exact parseBool_text hb

/-- The three switches set in a file that is accepted; `yes` and `on` are refused. -/
example : (∃ c, readConfig (parseConfs [] [ascii "[General]\nReportStats=TRUE\nLogTelemetry=0\n[UartEndpoint a]\nDevice=/dev/x\nFlowControl=1\n"]) {} = .ok c ∧
      c.stats = true ∧ c.log.telemetry = false ∧ c.uart.map (·.flow) = [true]) ∧
    readConfig (parseConfs [] [ascii "[General]\nReportStats=yes\n"]) {} = .err ∧
    readConfig (parseConfs [] [ascii "[UartEndpoint a]\nDevice=/dev/x\nFlowControl=on\n"]) {} = .err := by
  refine ⟨?_, by decide +kernel, by decide +kernel⟩
  cases h : readConfig (parseConfs [] [ascii "[General]\nReportStats=TRUE\nLogTelemetry=0\n[UartEndpoint a]\nDevice=/dev/x\nFlowControl=1\n"]) {} with
  | ok c =>
    have : (match readConfig (parseConfs [] [ascii "[General]\nReportStats=TRUE\nLogTelemetry=0\n[UartEndpoint a]\nDevice=/dev/x\nFlowControl=1\n"]) {} with
      | .ok c => c.stats && !c.log.telemetry && c.uart.map (·.flow) == [true]
      | _ => false) = true := by decide +kernel
    rw [h] at this
    simp at this
    exact ⟨c, rfl, by simp [this]⟩
  | _ =>
    have : (match readConfig (parseConfs [] [ascii "[General]\nReportStats=TRUE\nLogTelemetry=0\n[UartEndpoint a]\nDevice=/dev/x\nFlowControl=1\n"]) {} with
      | .ok c => true
      | _ => false) = true := by decide +kernel
    rw [h] at this
    cases this

end Verif
