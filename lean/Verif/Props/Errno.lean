/-
C133: the router and diagnostics that cannot be written.
-/
import Verif.Spec.Errno
import Verif.Props.Start
import Verif.Props.Loop
import Verif.Props.Program

namespace Verif

open Spec Spec.Conf

variable {σ : Type}

/-- Errors are always reported, so a failed diagnostic about one always leaves its own error number. -/
theorem errnoAfter_error (max : LogLevel) (res : Option Nat) (e : Nat) : errnoAfter max .error res e = res.getD e := by
  unfold errnoAfter
  rw [if_neg (show ¬ max.num < LogLevel.error.num from Nat.not_lt_zero _)]

/-! ### Start -/

/-- **C133** (part), start: with which configuration the program runs, if it does, does not depend on the fate of the diagnostics
if the chosen configuration file can be opened; or if the failed diagnostic does not leave or hide the error number of a missing
file.  Missing: the rest, where it is false (`C133_start_violated`). -/
theorem C133_start_partial (h : Host) (disk : List UInt8 → DiskFile) (argv : List (List UInt8)) (res : Option Nat)
    (hd : ∀ e d, disk (confFileOf h argv) = .openFails e → res = some d → (e = 2 ↔ d = 2)) :
    mainStartD h disk res argv = mainStartD h disk none argv := by
  unfold mainStartD
  refine C89_chosen { h with file := fun n => (disk n).state none } { h with file := fun n => (disk n).state res } argv ?_
    rfl rfl rfl rfl rfl rfl rfl
  show (disk (confFileOf h argv)).state res = (disk (confFileOf h argv)).state none
  cases hf : disk (confFileOf h argv) with
  | openFails e =>
    cases res with
    | none => rfl
    | some d =>
      have := hd e d hf rfl
      simp only [DiskFile.state, errnoAfter_error, Option.getD]
      by_cases he : e = 2
      · rw [if_pos (this.1 he), if_pos he]
      · rw [if_neg (fun x => he (this.2 x)), if_neg he]
  | mapFails => rfl
  | content b => rfl

/-- A computer without configuration files and with a serial port. -/
def Sample.hostBare : Host := { isChr := fun d => d == ascii "/dev/ttyS0" }

/-- The condition of `C133_start_partial` holds of a configuration file with a content, and of one that may not be read. -/
example : (∀ e d, (fun _ => DiskFile.content []) (confFileOf Sample.hostBare []) = .openFails e → some 9 = some d → (e = 2 ↔ d = 2)) ∧
    (∀ e d, (fun _ => DiskFile.openFails 13) (confFileOf Sample.hostBare []) = .openFails e → some 9 = some d → (e = 2 ↔ d = 2)) := by
  refine ⟨fun e d he => (by cases he), fun e d he hd => ?_⟩
  cases he; cases hd; decide

/-- **C133 is false** at the start: without any configuration file the router runs with a serial port given on the command
line, but not if the diagnostic about the missing file cannot be written, as with the standard error output closed (`EBADF`, 9). -/
theorem C133_start_violated : ∃ (h : Host) (disk : List UInt8 → DiskFile) (argv : List (List UInt8)) (r : Running),
    mainStartD h disk none argv = .runs r ∧ r.eps.length = 1 ∧ ∀ d, d ≠ 2 → mainStartD h disk (some d) argv = .exits 1 := by
  refine ⟨Sample.hostBare, fun _ => .openFails 2, [ascii "/dev/ttyS0:57600"],
    { eps := [{ kind := .uart }], sniffer := 0, dedup := 0, server := some 5760, stats := false, log := {} },
    by decide +kernel, rfl, fun d hd => ?_⟩
  have : mainStartD Sample.hostBare (fun _ => .openFails 2) (some d) [ascii "/dev/ttyS0:57600"] =
      mainStart { Sample.hostBare with file := fun _ => .unreadable } [ascii "/dev/ttyS0:57600"] := by
    unfold mainStartD
    congr
    funext n
    simp [DiskFile.state, errnoAfter_error, hd]
  rw [this]
  decide +kernel

/-! ### Writing -/

theorem ofErrno_neg (e : Nat) : (SysRes.ofErrno e).neg = -e := by
  unfold SysRes.ofErrno
  by_cases h : e = 11
  · subst h; rfl
  · rw [if_neg h]
    by_cases h' : e = 32
    · subst h'; rfl
    · rw [if_neg h']; rfl

theorem ofErrno_not_took (e n : Nat) : SysRes.ofErrno e ≠ .took n := by
  unfold SysRes.ofErrno
  split
  · intro h; cases h
  · split <;> (intro h; cases h)

/-- A failed write on a socket: the system call is made, nothing is counted, the error number is returned. -/
theorem writeLink_sockFailed {k : LinkKind} (hk : k ≠ .uart) (tx : Tx) (msg : List UInt8) {r : SysRes} (hr : ∀ n, r ≠ .took n) :
    writeLink k tx msg r =
      if tx.fdOpen = false then (tx, none, if k = .udp then -22 else 0)
      else if k = .udp ∧ tx.port = 0 then (tx, none, 0) else (tx, some msg, r.neg) := by
  cases k with
  | uart => exact absurd rfl hk
  | udp =>
    cases r with
    | took n => exact absurd rfl (hr n)
    | _ => simp only [writeLink, true_and, if_true]
  | tcp =>
    cases r with
    | took n => exact absurd rfl (hr n)
    | _ => simp [writeLink]

/-- **C133** (part), one write: what is counted and handed to the kernel does not depend on the fate of the
diagnostics. The reported result does not either if they can be written, if there is no error, or if it is one without diagnostic
(`EAGAIN`, `ECONNREFUSED`, for UDP also `ENETUNREACH`, 101).  Missing: the reported result otherwise, where it is false (`C133_clients_violated`). -/
theorem C133_write_partial (k : LinkKind) (max : LogLevel) (tx : Tx) (msg : List UInt8) (res : Option Nat) (r : SysRes) :
    (writeLink k tx msg (r.seen k max res)).1 = (writeLink k tx msg r).1 ∧
    (writeLink k tx msg (r.seen k max res)).2.1 = (writeLink k tx msg r).2.1 ∧
    (res = none ∨ k = .uart ∨ (∃ n, r = .took n) ∨ r = .eagain ∨ r = .other 111 ∨ (k = .udp ∧ r = .other 101) →
      (writeLink k tx msg (r.seen k max res)).2.2 = (writeLink k tx msg r).2.2) := by
  by_cases ht : ∃ n, r = .took n
  · obtain ⟨n, rfl⟩ := ht
    exact ⟨rfl, rfl, fun _ => rfl⟩
  · have ht' : ∀ n, r ≠ .took n := fun n h => ht ⟨n, h⟩
    have hs : r.seen k max res = if k = .uart ∨ r.errno ∈ quietErrors k then r else .ofErrno (res.getD r.errno) := by
      cases r with
      | took n => exact absurd rfl (ht' n)
      | _ => simp only [SysRes.seen, errnoAfter_error]
    by_cases hq : k = .uart ∨ r.errno ∈ quietErrors k
    · rw [hs, if_pos hq]
      exact ⟨rfl, rfl, fun _ => rfl⟩
    · have hk : k ≠ .uart := fun h => hq (.inl h)
      rw [hs, if_neg hq, writeLink_sockFailed hk tx msg (ofErrno_not_took _), writeLink_sockFailed hk tx msg ht', ofErrno_neg]
      refine ⟨?_, ?_, fun h => ?_⟩
      · split
        · rfl
        · split <;> rfl
      · split
        · rfl
        · split <;> rfl
      · have : -((res.getD r.errno : Nat) : Int) = r.neg := by
          rcases h with h | h | h | h | h | ⟨h', h⟩
          · subst h
            cases r with
            | took n => exact absurd rfl (ht' n)
            | _ => rfl
          · exact absurd h hk
          · exact absurd h ht
          · subst h; exact absurd (.inr (by cases k <;> decide)) hq
          · subst h; exact absurd (.inr (by cases k <;> decide)) hq
          · subst h h'; exact absurd (.inr (by decide)) hq
        rw [this]

/-- On a TCP link with a full socket buffer of the kernel (`ENOBUFS`, 105), a broken pipe behind the standard error output changes
the result to that of a broken connection; nothing is counted in either case. -/
example : writeLink .tcp { fdOpen := true } [1, 2] (SysRes.other 105) = ({ fdOpen := true }, some [1, 2], -105) ∧
    writeLink .tcp { fdOpen := true } [1, 2] ((SysRes.other 105).seen .tcp .info (some 32)) = ({ fdOpen := true }, some [1, 2], -32) := by
  decide

/-! ### Traffic -/

theorem sameTraffic_refl (w : World σ) : SameTraffic w w := ⟨rfl, rfl, rfl, rfl, rfl, rfl, rfl, rfl⟩

/-- Two routers keep the states alike. -/
def RouteSameRes (route route' : World σ → Msg → World σ) : Prop :=
  ∀ w w' m, SameTraffic w w' → SameTraffic (route w m) (route' w' m)

theorem foldl_routeSame_anyres {route route' : World σ → Msg → World σ} (hr : RouteSameRes route route') : ∀ (gs : List Msg) (w w' : World σ),
    SameTraffic w w' → SameTraffic (gs.foldl route w) (gs.foldl route' w')
  | [], _, _, h => h
  | g :: gs, w, w', h => foldl_routeSame_anyres hr gs _ _ (hr w w' g h)

theorem writeMsg_same_anyres (env : Env σ) (f : Nat → Int) {route route' : World σ → Msg → World σ} (hr : RouteSameRes route route')
    (gen : Bool) (w w' : World σ) (i : Nat) (m : Msg) (h : SameTraffic w w') :
    SameTraffic (writeMsg env route gen w i m).1 (writeMsg { env with wres := f } route' gen w' i m).1 ∧
    (writeMsg env route gen w i m).2 = (writeMsg { env with wres := f } route' gen w' i m).2 := by
  obtain ⟨e1, e2, e3, e4, e5, e6, e7, e8⟩ := h
  unfold writeMsg
  rw [e1]
  split
  · simp only [e3, e7]
    refine ⟨foldl_routeSame_anyres hr _ _ _ ?_, trivial⟩
    constructor <;> first | rfl | assumption
  · refine ⟨?_, rfl⟩
    constructor <;> simp only [e2, e3, e4, e5, e6, e7, e8]

theorem routeLoop_same_anyres (env : Env σ) (f : Nat → Int) {route route' : World σ → Msg → World σ} (hr : RouteSameRes route route')
    (gen : Bool) : ∀ (is : List Nat) (w w' : World σ) (m : Msg) (u : Bool), SameTraffic w w' →
    SameTraffic (routeLoop env route gen is w m u).1 (routeLoop { env with wres := f } route' gen is w' m u).1 ∧
    (routeLoop env route gen is w m u).2 = (routeLoop { env with wres := f } route' gen is w' m u).2
  | [], _, _, _, _, h => ⟨h, rfl⟩
  | i :: is, w, w', m, u, h => by
    cases he : w.eps[i]? with
    | none =>
      simp only [routeLoop, h.eps, he]
      exact routeLoop_same_anyres env f hr gen is w w' m u h
    | some e =>
      cases ha : acceptMsg env.sniffer e m with
      | accepted =>
        simp only [routeLoop, h.eps, he, ha]
        have ab := writeMsg_same_anyres env f hr gen w w' i m h
        rcases hx : writeMsg env route gen w i m with ⟨x1, x2⟩
        rcases hy : writeMsg { env with wres := f } route' gen w' i m with ⟨y1, y2⟩
        rw [hx, hy] at ab
        obtain ⟨a, b⟩ := ab
        simp only at a b
        subst b
        exact routeLoop_same_anyres env f hr gen is _ _ _ false a
      | filtered =>
        simp only [routeLoop, h.eps, he, ha]
        exact routeLoop_same_anyres env f hr gen is w w' m false h
      | rejected =>
        simp only [routeLoop, h.eps, he, ha]
        exact routeLoop_same_anyres env f hr gen is w w' m u h

theorem routeMsg_same_anyres (env : Env σ) (f : Nat → Int) : ∀ (d : Nat) (gen : Bool),
    RouteSameRes (routeMsg env d gen) (routeMsg { env with wres := f } d gen)
  | 0, _, _, _, _, h => h
  | d + 1, gen, w, w', m, h => by
    have hl := routeLoop_same_anyres env f (routeMsg_same_anyres env f d true) gen w.active w w' m true h
    simp only [routeMsg]
    rw [h.active, ← hl.2]
    split
    · exact ⟨hl.1.eps, hl.1.active, hl.1.logs, by simp only [hl.1.unknown], hl.1.dedup, hl.1.checks, hl.1.out, hl.1.reported⟩
    · exact hl.1

/-- Outcomes with the same arrivals and traffic. -/
def OutSameRes {α : Type} (x y : Option (World σ × α)) : Prop :=
  match x, y with
  | none, none => True
  | some (w, a), some (w', a') => SameTraffic w w' ∧ a' = a
  | _, _ => False

theorem handleMsg_same_anyres (env : Env σ) (f : Nat → Int) (w w' : World σ) (i : Nat) (m : Msg) (h : SameTraffic w w') :
    OutSameRes (handleMsg env w i m) (handleMsg { env with wres := f } w' i m) := by
  unfold handleMsg
  rw [h.eps]
  split
  · exact ⟨h, rfl⟩
  · simp only [h.dedup, h.checks]
    split
    · trivial
    · split
      · exact ⟨⟨rfl, h.active, h.logs, h.unknown, rfl, rfl, h.out, h.reported⟩, rfl⟩
      · split
        · exact ⟨⟨rfl, h.active, h.logs, h.unknown, rfl, rfl, h.out, h.reported⟩, rfl⟩
        · split
          · trivial
          · refine ⟨routeMsg_same_anyres env f 2 false _ _ m ?_, rfl⟩
            exact ⟨rfl, h.active, h.logs, h.unknown, rfl, rfl, h.out, h.reported⟩

theorem runMsgs_same_anyres (env : Env σ) (f : Nat → Int) (i : Nat) : ∀ (ms : List Msg) (w w' : World σ), SameTraffic w w' →
    OutSameRes (runMsgs env i w ms) (runMsgs { env with wres := f } i w' ms)
  | [], w, w', h => ⟨h, rfl⟩
  | m :: ms, w, w', h => by
    have hm := handleMsg_same_anyres env f w w' i m h
    unfold runMsgs
    revert hm
    cases handleMsg env w i m with
    | none =>
      cases handleMsg { env with wres := f } w' i m with
      | none => intro _; trivial
      | some y => intro hm; exact hm.elim
    | some x =>
      cases handleMsg { env with wres := f } w' i m with
      | none => intro hm; exact hm.elim
      | some y =>
        intro hm
        obtain ⟨h1, h2⟩ := hm
        have hr := runMsgs_same_anyres env f i ms x.1 y.1 h1
        simp only
        revert hr
        cases runMsgs env i x.1 ms with
        | none =>
          cases runMsgs { env with wres := f } i y.1 ms with
          | none => intro _; trivial
          | some y => intro hm; exact hm.elim
        | some x' =>
          cases runMsgs { env with wres := f } i y.1 ms with
          | none => intro hm; exact hm.elim
          | some y' =>
            intro hr
            exact ⟨hr.1, by rw [hr.2, h2]⟩

theorem routerStep_same_anyres (env : Env σ) (f : Nat → Int) (w w' : World σ) (ev : RouterEv) (h : SameTraffic w w') :
    OutSameRes (routerStep env w ev) (routerStep { env with wres := f } w' ev) := by
  cases ev with
  | read i io =>
    simp only [routerStep, handleRead]
    rw [h.eps]
    split
    · exact ⟨h, rfl⟩
    · exact runMsgs_same_anyres env f i _ _ _ ⟨rfl, h.active, h.logs, h.unknown, h.dedup, h.checks, h.out, h.reported⟩
  | accept =>
    exact ⟨⟨by simp only [h.eps], by simp only [h.eps, h.active], h.logs, h.unknown, h.dedup, h.checks, h.out, h.reported⟩, rfl⟩
  | hangups gone =>
    exact ⟨⟨h.eps, by simp only [h.active], h.logs, h.unknown, h.dedup, h.checks, h.out, h.reported⟩, rfl⟩
  | fd i o =>
    simp only [routerStep]
    rw [h.eps]
    split
    · exact ⟨h, rfl⟩
    · exact ⟨⟨rfl, h.active, h.logs, h.unknown, h.dedup, h.checks, h.out, h.reported⟩, rfl⟩
  | logCall i c =>
    refine ⟨?_, rfl⟩
    unfold logCall
    rw [h.eps]
    split
    · simp only [h.logs]
      refine foldl_routeSame_anyres (routeMsg_same_anyres env f 2 true) _ _ _ ?_
      constructor <;> first | rfl | simp only [h.active, h.unknown, h.dedup, h.checks, h.out, h.reported]
    · exact h
  | aggregate =>
    refine ⟨?_, rfl⟩
    unfold aggregate
    rw [h.unknown]
    split
    · exact ⟨h.eps, h.active, h.logs, rfl, h.dedup, h.checks, h.out, by simp only [h.reported]⟩
    · exact h

/-- **C133** (part), traffic: whatever results of writes the router sees - those of the kernel, or error numbers of diagnostics in
their place - if the same things happen, the same messages arrive and are accepted, the same bytes are handed to the same
endpoints in the same order, the same systems are learned, and log endpoints, de-duplication and reports are the same.  Missing: that
the same things happen, that is, that the same connections are given up: `C133_clients_partial`, `C133_clients_violated`. -/
theorem C133_traffic_partial (env : Env σ) (f : Nat → Int) : ∀ (evs : List RouterEv) (w w' : World σ), SameTraffic w w' →
    ∀ w1 as, runRouter env w evs = some (w1, as) →
      ∃ w1', runRouter { env with wres := f } w' evs = some (w1', as) ∧ SameTraffic w1 w1'
  | [], w, w', h, w1, as, hr => by
    simp only [runRouter, Option.some.injEq, Prod.mk.injEq] at hr
    obtain ⟨rfl, rfl⟩ := hr
    exact ⟨w', rfl, h⟩
  | ev :: evs, w, w', h, w1, as, hr => by
    have hs := routerStep_same_anyres env f w w' ev h
    rw [runRouter] at hr
    split at hr
    · cases hr
    · rename_i w2 as2 h2
      split at hr
      · cases hr
      · rename_i w3 as3 h3
        simp only [Option.some.injEq, Prod.mk.injEq] at hr
        obtain ⟨rfl, rfl⟩ := hr
        rw [h2] at hs
        cases hy : routerStep { env with wres := f } w' ev with
        | none => rw [hy] at hs; exact hs.elim
        | some y =>
          rw [hy] at hs
          obtain ⟨h1, hb⟩ := hs
          obtain ⟨w1', hw1', hsame⟩ := C133_traffic_partial env f evs w2 y.1 h1 w3 as3 h3
          refine ⟨w1', ?_, hsame⟩
          rw [runRouter, hy]
          simp only [hw1']
          rw [hb]

/-- The traffic of the sample router is the same if every write would have blocked; only then it asks to be woken. -/
example : ∃ w w' as, runRouter Sample.lrEnv (start Sample.lrEps Sample.lrLogs) [.read 0 (.got Sample.hostHb)] = some (w, as) ∧
    runRouter { Sample.lrEnv with wres := fun _ => -11 } (start Sample.lrEps Sample.lrLogs) [.read 0 (.got Sample.hostHb)] =
      some (w', as) ∧ SameTraffic w w' ∧ w.out.map Sent.ep = [1, 2, 3] ∧ w.pollOut = [] ∧ w'.pollOut = [1] := by
  cases h : runRouter Sample.lrEnv (start Sample.lrEps Sample.lrLogs) [.read 0 (.got Sample.hostHb)] with
  | none => exact absurd (congrArg Option.isSome h) (by decide +kernel)
  | some x =>
    obtain ⟨w', hw', hs⟩ := C133_traffic_partial Sample.lrEnv (fun _ => -11) _ _ _ (sameTraffic_refl _) x.1 x.2 h
    have h1 : (runRouter Sample.lrEnv (start Sample.lrEps Sample.lrLogs) [.read 0 (.got Sample.hostHb)]).map
        (fun x => (x.1.out.map Sent.ep, x.1.pollOut)) = some ([1, 2, 3], []) := by decide +kernel
    have h2 : (runRouter { Sample.lrEnv with wres := fun _ => -11 } (start Sample.lrEps Sample.lrLogs)
        [.read 0 (.got Sample.hostHb)]).map (fun x => x.1.pollOut) = some [1] := by decide +kernel
    rw [h] at h1
    rw [hw'] at h2
    simp only [Option.map, Option.some.injEq, Prod.mk.injEq] at h1 h2
    exact ⟨x.1, w', x.2, rfl, hw', hs, h1.1, h1.2, h2⟩

/-! ### Connections -/

theorem act_write_same_anyres (s : LoopSt) (q : Nat) (r r' : WRes) (ok : Bool) (h : r = .epipe ↔ r' = .epipe) :
    s.act (.write q r ok) = s.act (.write q r' ok) := by
  simp only [LoopSt.act, h]

theorem ofErrno_kind (e : Nat) : (SysRes.ofErrno e).kind = .epipe ↔ e = 32 := by
  unfold SysRes.ofErrno
  by_cases h : e = 11
  · subst h; decide
  · rw [if_neg h]
    by_cases h' : e = 32
    · subst h'; decide
    · rw [if_neg h']
      exact ⟨fun x => (by cases x), fun x => absurd x h'⟩

theorem seen_epipe (max : LogLevel) (r : SysRes) (res : Option Nat) (h : NoBrokenPipe r res) :
    (r.seen .tcp max none).kind = .epipe ↔ (r.seen .tcp max res).kind = .epipe := by
  rcases h with rfl | ⟨h1, h2, h3⟩
  · exact Iff.rfl
  · cases r with
    | took n => exact Iff.rfl
    | eagain => exact Iff.rfl
    | epipe => exact absurd rfl h1
    | other e =>
      have he : e ≠ 32 := fun x => h2 (by rw [x])
      simp only [SysRes.seen, errnoAfter_error]
      split
      · exact Iff.rfl
      · rw [ofErrno_kind, ofErrno_kind]
        cases res with
        | none => exact Iff.rfl
        | some d =>
          refine ⟨fun x => absurd x he, fun x => ?_⟩
          exact absurd (congrArg some x) h3

theorem acts_seen {max : LogLevel} {as as' : List Act} (h : SeenActs max as as') : ∀ s : LoopSt, s.acts as = s.acts as' := by
  induction h with
  | nil => intro s; rfl
  | same a _ ih =>
    intro s
    simp only [LoopSt.acts]
    congr 1
    funext s
    exact ih s
  | write q r res ok hr _ ih =>
    intro s
    simp only [LoopSt.acts]
    rw [act_write_same_anyres s q _ _ ok (seen_epipe max r res hr)]
    congr 1
    funext s
    exact ih s

theorem handleAll_seen {max : LogLevel} {es es' : List PollEv} (h : SeenEvs max es es') :
    ∀ s : LoopSt, s.handleAll es = s.handleAll es' := by
  induction h with
  | nil => intro s; rfl
  | listener ok _ ih =>
    intro s
    simp only [LoopSt.handleAll]
    congr 1
    funext s
    exact ih s
  | @obj p i as as' stop x c t o r es es' ha _ ih =>
    intro s
    have : ∀ s : LoopSt, s.handle (.obj p i as stop x c t o r) = s.handle (.obj p i as' stop x c t o r) := by
      intro s
      simp only [LoopSt.handle, LoopSt.handleIn, acts_seen ha]
    simp only [LoopSt.handleAll]
    rw [this]
    congr 1
    funext s
    exact ih s

/-- **C133** (part), connections: a batch of events has the same effect - the same connections are kept, given up and opened
again - whatever becomes of the diagnostics, as long as neither a failed write to a TCP endpoint nor the failed diagnostic about it
found a broken pipe.  Missing: these, where it is false (`C133_clients_violated`). -/
theorem C133_clients_partial (max : LogLevel) {es es' : List PollEv} (h : SeenEvs max es es') (s : LoopSt) :
    s.iteration es = s.iteration es' := by
  unfold LoopSt.iteration
  rw [handleAll_seen h s]

/-- **C133**, other links: for endpoints other than open TCP connections the result of a write makes no difference. -/
theorem C133_other_links (s : LoopSt) (q : Nat) (h : ∀ v rt mem, s.obj q ≠ some (.tcp true v rt mem)) (r r' : WRes) (ok : Bool) :
    s.act (.write q r ok) = s.act (.write q r' ok) := by
  simp only [LoopSt.act]
  split
  · split
    · rfl
    · rename_i v rt mem ho
      exact absurd ho (h v rt mem)
    · rfl
  · rfl

namespace Sample

/-- A router with a serial port and a client of the TCP server. -/
def diagLoop : LoopSt := ((LoopSt.configured [.plain []]).iteration [.listener true]).getD {}

/-- A message of the serial port is written to the client: the kernel answers `r`, the diagnostic about it, if any, ends with `res`. -/
def diagBatch (r : SysRes) (res : Option Nat) : List PollEv :=
  [.obj 0 true [.write 1 (r.seen .tcp .info res).kind true] .again true true true false false]

end Sample

open Sample in
/-- The batches of the theorem: a write to the client fails for want of memory (12) while the standard error output is closed (9). -/
example : SeenEvs .info (diagBatch (.other 12) none) (diagBatch (.other 12) (some 9)) ∧
    diagLoop.endpoints = [0, 1] ∧ (∀ v rt mem, diagLoop.obj 0 ≠ some (.tcp true v rt mem)) :=
  ⟨.obj 0 true .again true true true false false (.write 1 (.other 12) (some 9) true (.inr (by decide)) .nil) .nil, by decide,
   fun v rt mem h => by
     have : diagLoop.obj 0 = some (.plain []) := by decide
     rw [this] at h; cases h⟩

open Sample in
/-- **C133 is false** of connections.  A write to a client of the TCP server fails for want of buffers (`ENOBUFS`, 105), a passing
condition: the client stays connected; but if the pipe behind the standard error output is broken (`EPIPE`, 32), it is disconnected.
A write fails because the client is gone: it is removed; but if the standard error output is closed (`EBADF`, 9), it is not. -/
theorem C133_clients_violated :
    (∃ s, diagLoop.iteration (diagBatch (.other 105) none) = some s ∧ s.endpoints = [0, 1] ∧ s.obj 1 = some (.tcp true true 0 [])) ∧
    (∃ s, diagLoop.iteration (diagBatch (.other 105) (some 32)) = some s ∧ s.endpoints = [0] ∧ s.obj 1 = none) ∧
    (∃ s, diagLoop.iteration (diagBatch .epipe none) = some s ∧ s.endpoints = [0] ∧ s.obj 1 = none) ∧
    (∃ s, diagLoop.iteration (diagBatch .epipe (some 9)) = some s ∧ s.endpoints = [0, 1] ∧ s.obj 1 = some (.tcp true true 0 [])) := by
  have key : ∀ b es o, (diagLoop.iteration b).map (fun s => (s.endpoints, s.obj 1)) = some (es, o) →
      ∃ s, diagLoop.iteration b = some s ∧ s.endpoints = es ∧ s.obj 1 = o := by
    intro b es o h
    cases hb : diagLoop.iteration b with
    | none => rw [hb] at h; cases h
    | some s =>
      rw [hb] at h
      simp only [Option.map, Option.some.injEq, Prod.mk.injEq] at h
      exact ⟨s, rfl, h.1, h.2⟩
  exact ⟨key _ _ _ (by decide), key _ _ _ (by decide), key _ _ _ (by decide), key _ _ _ (by decide)⟩

end Verif
