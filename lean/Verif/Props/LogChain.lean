/-
C132: log requests of several routers on the way to the autopilot.
-/
import Verif.Props.LogCall
import Verif.Props.NoLog
import Verif.Props.Complete
import Verif.Props.UdpRouter

namespace Verif

open Verif.Spec

variable {σ : Type}

/-! ### Specification -/

/-- Some component of system `t` was heard on link `j` or its group. -/
def Spec.SystemBehind (eps : List Ep) (as : List Arrival) (j : Nat) (t : UInt8) : Prop :=
  ∃ a ∈ as, a.passed = true ∧ a.msg.srcSys = t ∧ Peer eps a.ep j

/-- The log endpoint of another router (address 2/0) was heard on link `j` or its group. -/
def Spec.LoggerBehind (eps : List Ep) (as : List Arrival) (j : Nat) : Prop :=
  ∃ a ∈ as, a.passed = true ∧ a.msg.srcSys = 2 ∧ a.msg.srcComp = 0 ∧ Peer eps a.ep j

/-! ### C132 -/

/-- **C132**, partial: a router with any configuration and any history. While its log waits for the stream of system `t`, every
tick of the start timer writes the request once to every link behind which `t` was heard and no log endpoint of another router was.
Missing: links behind which another one was heard (`C132_violated`). -/
theorem C132_request_partial (env : Env LogSt) (le : Nat → LogEnv) (now : Nat → UInt64) (eps : List Ep) (hc : ConfigOk eps)
    (logs : Nat → LogSt) (evs : List RouterEv) (w : World LogSt) (as : List Arrival)
    (hrun : runRouter (env.withLogs le now) (start eps logs) evs = some (w, as))
    (i : Nat) (e : Ep) (he : w.eps[i]? = some e) (hk : e.kind = .log) (l : Logger) (hl : (w.logs i).logger = some l)
    (hnt : ∀ b, l ≠ .tlog b) (b : LogBase) (hb : l.base = some b) (hst : b.startTimer = true) (t : UInt8) (ht : b.target = some t)
    (j : Nat) (hj : j ∈ w.active) (x : Ep) (hx : w.eps[j]? = some x) (hxk : x.kind ≠ .log)
    (hf : ∀ g, LogRequest t g → outOk x.filters g)
    (hsys : SystemBehind eps as j t) (hno : ¬ LoggerBehind eps as j) :
    ∃ g new, LogRequest t g ∧ (logCall (env.withLogs le now) w i .start).out = w.out ++ new ∧
      new.filter (fun s => s.ep == j) = [{ ep := j, bytes := g.data, gen := true }] := by
  obtain ⟨w', as', hr, hh⟩ := C13_learned_is_history (env.withLogs le now) eps hc logs evs
  rw [hrun] at hr
  simp only [Option.some.injEq, Prod.mk.injEq] at hr
  obtain ⟨rfl, rfl⟩ := hr
  obtain ⟨g, new, h1, h2, h3, _⟩ := C80_reaches env le now w (reached_run evs (.start hc) hrun) i e he hk l hl hnt b hb hst t ht j x hx
  refine ⟨g, new, h1, h2, h3 hj ?_ ?_ (hf g h1)⟩
  · obtain ⟨a, ha, hp, hs, hpe⟩ := hsys
    exact ⟨a.msg.srcComp.toNat, a.msg.srcComp.toNat_lt, (hh j x hx t a.msg.srcComp).mpr (.inr ⟨a, ha, hp, hs, rfl, hpe⟩)⟩
  · intro hk2
    rcases (hh j x hx 2 0).mp hk2 with ⟨h, _⟩ | ⟨a, ha, hp, hs, hcc, hpe⟩
    · exact hxk h
    · exact hno ⟨a, ha, hp, hs, hcc, hpe⟩

theorem mem_expected_split (sniffer : Nat) (eps : List Ep) (j : Nat) (past l r : List Arrival) (a : Arrival) (hp : a.passed = true)
    (hw : Wanted sniffer eps j (past ++ l ++ [a]) a.msg) : a ∈ expected sniffer eps j past (l ++ a :: r) := by
  rw [expected_append]
  apply List.mem_append_right
  unfold expected
  rw [if_pos ⟨hp, hw⟩]
  simp

/-- **C132**, partial: a router on the way, whether it logs itself or not. A request of another router's log for system `t` that
arrives and is let in is written, as it is, to every other link behind which `t` was heard and no log endpoint was.
Missing: as above. -/
theorem C132_passed_on_partial (env : Env LogSt) (le : Nat → LogEnv) (now : Nat → UInt64) (htb : TableOk env.tbl)
    (eps : List Ep) (hc : ConfigOk eps) (logs : Nat → LogSt)
    (evs1 evs2 : List RouterEv) (w1 w2 : World LogSt) (as1 as2 : List Arrival)
    (h1 : runRouter (env.withLogs le now) (start eps logs) evs1 = some (w1, as1))
    (h2 : runRouter (env.withLogs le now) w1 evs2 = some (w2, as2))
    (t : UInt8) (j : Nat) (hl : LinkAt eps j) (hk : ∀ e, eps[j]? = some e → e.kind ≠ .log) (hj : j ∈ w1.active)
    (hgone : ∀ gone, RouterEv.hangups gone ∈ evs2 → j ∉ gone)
    (hsys : SystemBehind eps as1 j t) (hno : ¬ LoggerBehind eps (as1 ++ as2) j)
    (hf : ∀ g e, LogRequest t g → eps[j]? = some e → outOk e.filters g)
    (a : Arrival) (ha : a ∈ as2) (hp : a.passed = true) (hr : LogRequest t a.msg) :
    a.msg.data ∈ (writesTo j w1 w2).map Sent.bytes := by
  rw [C88_links (env.withLogs le now) htb eps hc logs evs1 evs2 w1 w2 as1 as2 h1 h2 j hl hj hgone]
  apply List.mem_map_of_mem
  obtain ⟨l, r, rfl⟩ := List.append_of_mem ha
  apply mem_expected_split _ _ _ _ _ _ _ hp
  refine ⟨?_, fun e he => hf _ e hr he, .inr (.inl ⟨by rw [hr.target.2]; decide, ?_⟩)⟩
  · rintro (⟨e, he, hke, _⟩ | ⟨x, hx, hpx, hs, hcc, hpe⟩)
    · exact hk e he hke
    · rw [hr.src.1] at hs
      rw [hr.src.2] at hcc
      refine hno ⟨x, ?_, hpx, UInt8.toNat_inj.mp hs, UInt8.toNat_inj.mp hcc, hpe⟩
      simp only [List.mem_append, List.mem_cons, List.mem_singleton] at hx ⊢
      rcases hx with (h | h) | h
      · exact .inl h
      · exact .inr (.inl h)
      · exact .inr (.inr (.inl (by simpa using h)))
  · obtain ⟨x, hx, hpx, hs, hpe⟩ := hsys
    refine ⟨x.msg.srcComp.toNat, .inr ⟨x, ?_, hpx, ?_, rfl, hpe⟩⟩
    · simp [hx]
    · rw [hr.target.1, hs]; simp

theorem logTimer_src (le : Nat → LogEnv) (i : Nat) (c : LogCall) (s : LogSt) :
    ∀ g ∈ (logTimer le i c s).2, g.srcSys = 2 ∧ g.srcComp = 0 := by
  intro g hg
  unfold logTimer at hg
  split at hg
  · cases hg
  · split at hg
    · cases hg
    · unfold Logger.sent at hg
      split at hg
      · cases hg
      · obtain ⟨o, _, rfl⟩ := List.mem_map.mp hg
        exact ⟨rfl, rfl⟩

/-- Exactly so: once a log endpoint of another router was heard on link `j`, nothing the timers of the own log endpoints send is ever
written to `j` again. -/
theorem C132_cut_off (env : Env LogSt) (le : Nat → LogEnv) (now : Nat → UInt64) (eps : List Ep) (hc : ConfigOk eps)
    (logs : Nat → LogSt) (evs : List RouterEv) (w : World LogSt) (as : List Arrival)
    (hrun : runRouter (env.withLogs le now) (start eps logs) evs = some (w, as)) (j : Nat) (hj : j < w.eps.length)
    (hlog : LoggerBehind eps as j) (later : List RouterEv) (w' : World LogSt) (as' : List Arrival)
    (hlater : runRouter (env.withLogs le now) w later = some (w', as')) (i : Nat) (c : LogCall) :
    ∃ new, (logCall (env.withLogs le now) w' i c).out = w'.out ++ new ∧ ∀ s ∈ new, s.ep ≠ j := by
  have hrw := reached_run evs (.start hc) hrun
  have hrw' := reached_run later hrw hlater
  by_cases hlg : ∃ e, w'.eps[i]? = some e ∧ e.kind = .log
  · obtain ⟨e, he, hk⟩ := hlg
    refine ⟨_, C80_routed env le now w' hrw' i e he hk c, ?_⟩
    intro s hs
    obtain ⟨g, hg, hs⟩ := List.mem_flatMap.mp hs
    obtain ⟨x, hx, rfl⟩ := List.mem_map.mp hs
    have hgets : Gets env.sniffer.toNat w'.eps g x := by
      have := (List.mem_filter.mp hx).2
      simpa only [decide_eq_true_eq] using this
    rintro rfl
    obtain ⟨y, hy, hnf, _⟩ := hgets
    obtain ⟨v, bs, hr, hh⟩ := C13_learned_is_history (env.withLogs le now) eps hc logs evs
    rw [hrun] at hr
    simp only [Option.some.injEq, Prod.mk.injEq] at hr
    obtain ⟨rfl, rfl⟩ := hr
    obtain ⟨v', bs', hr', hkeep⟩ := C13_never_forgotten (env.withLogs le now) w hrw later
    rw [hlater] at hr'
    simp only [Option.some.injEq, Prod.mk.injEq] at hr'
    obtain ⟨rfl, rfl⟩ := hr'
    obtain ⟨a, ha, hp, hs1, hs2, hpe⟩ := hlog
    have hxw : ∃ z, w.eps[x]? = some z := ⟨_, List.getElem?_eq_getElem hj⟩
    obtain ⟨z, hz⟩ := hxw
    obtain ⟨z', l, hz', hl', _⟩ := hkeep x z hz
    rw [hy] at hz'
    cases hz'
    have hkz := (hh x z hz 2 0).mpr (.inr ⟨a, ha, hp, hs1, hs2, hpe⟩)
    apply hnf
    obtain ⟨h1, h2⟩ := logTimer_src le i c (w'.logs i) g hg
    unfold FromHere
    rw [h1, h2]
    obtain ⟨q, hq, hq2⟩ := hkz
    exact ⟨q, by rw [hl']; exact List.mem_append_left _ hq, hq2⟩
  · refine ⟨[], ?_, fun s hs => by cases hs⟩
    rw [List.append_nil]
    unfold logCall
    cases he : w'.eps[i]? with
    | none => rfl
    | some e =>
      cases hk : e.kind with
      | log => exact absurd ⟨e, he, hk⟩ hlg
      | _ => simp [hk]

namespace Sample

/-- Heartbeat of a companion computer, 1/191. -/
def companionHb : Frame :=
  { v2 := true, seq := 3, sys := 1, comp := 191, msgid := 0, payload := [0, 0, 0, 0, 18, 8, 0, 4, 3], crcLo := 143, crcHi := 92 }

/-- The COMMAND_LONG with MAV_CMD_LOGGING_START (2510) for system 1 that `ULog` sends (src/ulog.cpp:41-57). -/
def loggingStart : Frame :=
  { v2 := true, seq := 0, sys := 2, comp := 0, msgid := 76, payload := List.replicate 28 0 ++ [0xCE, 0x09, 1], crcLo := 119, crcHi := 120 }

/-- A router with two links and the PX4 log. -/
def pairEps : List Ep := [{ kind := .udp }, { kind := .udp }, { kind := .log, learned := [sysComp 2 0] }]

theorem pairEps_ok : ConfigOk pairEps := by unfold ConfigOk; decide

def pairEnv : Env LogSt :=
  Env.withLogs
    { tbl := binTbl, hashFn := fun bs => UInt64.ofNat (bs.foldl (fun a b => a * 256 + b.toNat) 0),
      clock := fun n => n, wres := fun _ => 1, log := fun _ s m => (s, [], m.data) }
    (fun _ => { binEnv with encode := fun _ => loggingStart.encode }) (fun n => UInt64.ofNat (1000 * n))

def pairLogs : Nat → LogSt := fun _ => ⟨some (.ulog (ULog.init none .always)), 0⟩

/-- What the first router does: the autopilot is on its link 0, the other router on link 1. -/
def nearEvs : List RouterEv := [.read 0 (.got hb2.encode), .read 1 (.got companionHb.encode), .logCall 2 .start]

/-- What the second router does: the first router is on its link 0, the companion computer on link 1. The third event is the arrival
of what the first router wrote. -/
def farEvs : List RouterEv := [.read 0 (.got hb2.encode), .read 1 (.got companionHb.encode), .read 0 (.got loggingStart.encode)]

end Sample

/-- The hypotheses of `C132_request_partial` and `C132_passed_on_partial`, met by the two routers before either has heard the other's log:
the far router's request goes to the near one, which passes it on to the autopilot. -/
example : ConfigOk Sample.pairEps ∧
    (runRouter Sample.pairEnv (start Sample.pairEps Sample.pairLogs) (Sample.farEvs.take 2)).map (fun r =>
      (((logCall Sample.pairEnv r.1 2 .start).out.drop r.1.out.length).map (fun s => (s.ep, s.bytes == Sample.loggingStart.encode)),
       r.2.map (fun a => (a.ep, a.passed, a.msg.srcSys)))) = some ([(0, true), (1, true)], [(0, true, 1), (1, true, 1)]) ∧
    (runRouter Sample.pairEnv (start Sample.pairEps Sample.pairLogs)
      [.read 0 (.got Sample.hb2.encode), .read 1 (.got Sample.loggingStart.encode)]).map (fun r =>
      ((r.1.out.filter (fun s => s.ep == 0)).map (fun s => s.bytes == Sample.loggingStart.encode), r.2.map (fun a => a.msg.targetSys))) =
      some ([true], [-1, 1]) :=
  ⟨Sample.pairEps_ok, by decide +kernel, by decide +kernel⟩

/-- **C132** is false of the code: two routers in a row that both log, the autopilot 1/1 behind the first, a companion computer 1/191
behind the second. The first one's request for system 1 also goes to the second one (link 1), which from then on sends its own requests
to the companion computer only and never again to the link to the autopilot: it has seen "its" address 2/0 there. -/
theorem C132_violated :
    (∃ w as, runRouter Sample.pairEnv (start Sample.pairEps Sample.pairLogs) Sample.nearEvs = some (w, as) ∧
      { ep := 1, bytes := Sample.loggingStart.encode, gen := true } ∈ w.out) ∧
    ∃ w as, runRouter Sample.pairEnv (start Sample.pairEps Sample.pairLogs) Sample.farEvs = some (w, as) ∧
      SystemBehind Sample.pairEps as 0 1 ∧ LoggerBehind Sample.pairEps as 0 ∧
      ((logCall Sample.pairEnv w 2 .start).out.drop w.out.length).map (fun s => (s.ep, s.bytes)) = [(1, Sample.loggingStart.encode)] ∧
      ∀ later w' as', runRouter Sample.pairEnv w later = some (w', as') → ∀ i c,
        ∃ new, (logCall Sample.pairEnv w' i c).out = w'.out ++ new ∧ ∀ s ∈ new, s.ep ≠ 0 := by
  refine ⟨?_, ?_⟩
  · have e : (runRouter Sample.pairEnv (start Sample.pairEps Sample.pairLogs) Sample.nearEvs).map
        (fun r => decide ({ ep := 1, bytes := Sample.loggingStart.encode, gen := true } ∈ r.1.out)) = some true := by decide +kernel
    cases h : runRouter Sample.pairEnv (start Sample.pairEps Sample.pairLogs) Sample.nearEvs with
    | none => rw [h] at e; cases e
    | some r =>
      rw [h] at e
      exact ⟨r.1, r.2, rfl, of_decide_eq_true (Option.some.inj e)⟩
  · have e0 : (runRouter Sample.pairEnv (start Sample.pairEps Sample.pairLogs) Sample.farEvs).map
        (fun r => (r.1.eps.length, ((logCall Sample.pairEnv r.1 2 .start).out.drop r.1.out.length).map (fun s => (s.ep, s.bytes)))) =
        some (3, [(1, Sample.loggingStart.encode)]) := by decide +kernel
    have e : (runRouter Sample.pairEnv (start Sample.pairEps Sample.pairLogs) Sample.farEvs).map
        (fun r => r.2.map (fun a => ((a.ep, a.passed), (a.msg.srcSys, a.msg.srcComp)))) =
        some [((0, true), (1, 1)), ((1, true), (1, 191)), ((0, true), (2, 0))] := by decide +kernel
    cases h : runRouter Sample.pairEnv (start Sample.pairEps Sample.pairLogs) Sample.farEvs with
    | none => rw [h] at e; cases e
    | some r =>
      rw [h] at e e0
      obtain ⟨w, as⟩ := r
      simp only [Option.map_some, Option.some.injEq, Prod.mk.injEq] at e e0
      have hmem : ∀ y ∈ [(((0 : Nat), true), ((1 : UInt8), (1 : UInt8))), ((1, true), (1, 191)), ((0, true), (2, 0))],
          ∃ a ∈ as, ((a.ep, a.passed), (a.msg.srcSys, a.msg.srcComp)) = y := by
        intro y hy
        rw [← e] at hy
        exact List.mem_map.mp hy
      obtain ⟨a1, ha1, e1⟩ := hmem ((0, true), (1, 1)) (by simp)
      obtain ⟨a3, ha3, e3⟩ := hmem ((0, true), (2, 0)) (by simp)
      simp only [Prod.mk.injEq] at e1 e3
      have hlg : LoggerBehind Sample.pairEps as 0 := ⟨a3, ha3, e3.1.2, e3.2.1, e3.2.2, .inl e3.1.1⟩
      exact ⟨w, as, rfl, ⟨a1, ha1, e1.1.2, e1.2.1, .inl e1.1.1⟩, hlg, e0.2, fun later w' as' hl i c =>
        C132_cut_off _ _ _ Sample.pairEps Sample.pairEps_ok Sample.pairLogs Sample.farEvs w as h 0 (by rw [e0.1]; decide) hlg later w' as' hl i c⟩

end Verif
