import Verif.Model.UdpRouter
import Verif.Props.Complete
import Verif.Props.Link
import Verif.Spec.RoutingSamples

/-
C123: a message for a system behind a UDP server endpoint goes to the address that system sends from.
-/

namespace Verif

open Spec

variable {σ : Type}

/-! ### Specification -/

/-- The messages that arrived in a history. -/
def Spec.arrivals (log : List (NetEv × List Arrival)) : List Arrival := log.flatMap Prod.snd

/-- The last datagram endpoint `i` received came from `a`, if it received one. -/
def Spec.LastFrom (i : Nat) (a : Addr) (evs : List NetEv) : Prop :=
  ∃ pre now d post, evs = pre ++ .datagram i now a d :: post ∧ ∀ now' a' d', NetEv.datagram i now' a' d' ∉ post

/-- In this history system `s`, component `c` was heard on endpoint `i` in a datagram from `a`, and all datagrams `i` received since
came from `a` too. -/
def Spec.HeardFrom (i : Nat) (a : Addr) (s c : UInt8) (log : List (NetEv × List Arrival)) : Prop :=
  ∃ pre now d as post, log = pre ++ (.datagram i now a d, as) :: post ∧
    (∃ x ∈ as, x.passed = true ∧ x.ep = i ∧ x.msg.srcSys = s ∧ x.msg.srcComp = c) ∧
    ∀ now' a' d' as', (NetEv.datagram i now' a' d', as') ∈ post → a' = a

/-! ### Addresses -/

/-- Endpoint `i` is a UDP server whose datagrams go to `a`. -/
def ServerTo (i : Nat) (a : Addr) (udp : Nat → Option Udp) : Prop :=
  ∃ u, udp i = some u ∧ u.hasTimer = false ∧ u.deadline = none ∧ u.peer = a

/-- Endpoint `i` is a UDP server. -/
def ServerAt (i : Nat) (udp : Nat → Option Udp) : Prop := ∃ a, ServerTo i a udp

theorem heard_server {i : Nat} {udp : Nat → Option Udp} (h : ServerAt i udp) (ev : NetEv) : ServerAt i (ev.heard udp) := by
  obtain ⟨a, u, h1, h2, h3, h4⟩ := h
  cases ev with
  | other ev => exact ⟨a, u, h1, h2, h3, h4⟩
  | timer j now =>
    by_cases hj : i = j
    · exact ⟨a, u, by simp [NetEv.heard, hj ▸ h1, Udp.step, hj, h3], h2, h3, h4⟩
    · exact ⟨a, u, by simp [NetEv.heard, hj, h1], h2, h3, h4⟩
  | datagram j now b d =>
    by_cases hj : i = j
    · exact ⟨b, { u with peer := b }, by simp [NetEv.heard, hj ▸ h1, Udp.step, hj, h2], h2, h3, rfl⟩
    · exact ⟨a, u, by simp [NetEv.heard, hj, h1], h2, h3, h4⟩

theorem heard_to {i : Nat} {a : Addr} {udp : Nat → Option Udp} (h : ServerTo i a udp) (ev : NetEv)
    (hev : ∀ now a' d, ev = .datagram i now a' d → a' = a) : ServerTo i a (ev.heard udp) := by
  obtain ⟨u, h1, h2, h3, h4⟩ := h
  cases ev with
  | other ev => exact ⟨u, h1, h2, h3, h4⟩
  | timer j now =>
    by_cases hj : i = j
    · exact ⟨u, by simp [NetEv.heard, hj ▸ h1, Udp.step, hj, h3], h2, h3, h4⟩
    · exact ⟨u, by simp [NetEv.heard, hj, h1], h2, h3, h4⟩
  | datagram j now b d =>
    by_cases hj : i = j
    · have hb : b = a := hev now b d (by rw [hj])
      exact ⟨{ u with peer := b }, by simp [NetEv.heard, hj ▸ h1, Udp.step, hj, h2], h2, h3, hb⟩
    · exact ⟨u, by simp [NetEv.heard, hj, h1], h2, h3, h4⟩

theorem heard_from {i : Nat} {udp : Nat → Option Udp} (h : ServerAt i udp) (now : Nat) (a : Addr) (d : List UInt8) :
    ServerTo i a ((NetEv.datagram i now a d).heard udp) := by
  obtain ⟨b, u, h1, h2, h3, h4⟩ := h
  exact ⟨{ u with peer := a }, by simp [NetEv.heard, h1, Udp.step, h2], h2, h3, rfl⟩

theorem step_udp {env : Env σ} {s s' : UdpWorld σ} {ev : NetEv} {as : List Arrival} (h : s.step env ev = some (s', as)) :
    s'.udp = ev.heard s.udp := by
  unfold UdpWorld.step at h
  simp only at h
  split at h
  · cases h; rfl
  · split at h
    · cases h
    · cases h; rfl

theorem run_udp {env : Env σ} : ∀ (evs : List NetEv) {s s' : UdpWorld σ} {log : List (NetEv × List Arrival)},
    s.run env evs = some (s', log) → s'.udp = evs.foldl (fun u ev => ev.heard u) s.udp ∧ log.map Prod.fst = evs
  | [], s, s', log, h => by cases h; exact ⟨rfl, rfl⟩
  | ev :: evs, s, s', log, h => by
    unfold UdpWorld.run at h
    cases h1 : s.step env ev with
    | none => rw [h1] at h; cases h
    | some r =>
      obtain ⟨s1, as⟩ := r
      simp only [h1] at h
      cases h2 : s1.run env evs with
      | none => rw [h2] at h; cases h
      | some r2 =>
        obtain ⟨s2, l2⟩ := r2
        simp only [h2] at h
        cases h
        obtain ⟨e1, e2⟩ := run_udp evs h2
        exact ⟨by rw [e1, step_udp h1]; rfl, by rw [List.map_cons, e2]⟩

theorem foldl_server {i : Nat} : ∀ (evs : List NetEv) {udp : Nat → Option Udp}, ServerAt i udp →
    ServerAt i (evs.foldl (fun u ev => ev.heard u) udp)
  | [], _, h => h
  | ev :: evs, _, h => foldl_server evs (heard_server h ev)

theorem foldl_to {i : Nat} {a : Addr} : ∀ (evs : List NetEv) {udp : Nat → Option Udp}, ServerTo i a udp →
    (∀ now a' d, NetEv.datagram i now a' d ∈ evs → a' = a) → ServerTo i a (evs.foldl (fun u ev => ev.heard u) udp)
  | [], _, h, _ => h
  | ev :: evs, _, h, hev =>
    foldl_to evs (heard_to h ev (fun now a' d he => hev now a' d (by simp [he])))
      (fun now a' d hm => hev now a' d (List.mem_cons_of_mem _ hm))

/-- After a history with a datagram from `a`, and only such since, datagrams go to `a`. -/
theorem server_to {i : Nat} {a : Addr} {pre post : List NetEv} {now : Nat} {d : List UInt8} {udp : Nat → Option Udp}
    (h : ServerAt i udp) (hp : ∀ now a' d, NetEv.datagram i now a' d ∈ post → a' = a) :
    ServerTo i a ((pre ++ .datagram i now a d :: post).foldl (fun u ev => ev.heard u) udp) := by
  rw [List.foldl_append, List.foldl_cons]
  exact foldl_to post (heard_from (foldl_server pre h) now a d) hp

theorem opened_server (i ip port : Nat) (ok : Bool) {udp : Nat → Option Udp} (h : udp i = some (Udp.opened true ip port ok)) :
    ServerAt i udp := ⟨_, _, h, by simp [Udp.opened], by simp [Udp.opened], rfl⟩

/-- The new datagrams of a step have the destination given by the state after it. -/
theorem step_sent {env : Env σ} {s s' : UdpWorld σ} {ev : NetEv} {as : List Arrival} (h : s.step env ev = some (s', as)) :
    ∃ new, s'.sent = s.sent ++ new ∧ ∀ x ∈ new, ∃ u, s'.udp x.1.ep = some u ∧ x.2 = if u.peer.port = 0 then none else some u.peer := by
  unfold UdpWorld.step at h
  simp only at h
  split at h
  · cases h; exact ⟨[], by simp, by simp⟩
  · split at h
    · cases h
    · cases h
      refine ⟨_, rfl, fun x hx => ?_⟩
      rw [List.mem_filterMap] at hx
      obtain ⟨o, _, ho⟩ := hx
      rw [Option.map_eq_some_iff] at ho
      obtain ⟨u, hu, rfl⟩ := ho
      exact ⟨u, hu, rfl⟩

/-- **C123** (partial, addresses; also C26 inside the router): in every history of the router, what is sent through a UDP server
endpoint goes to the sender of the latest datagram received there; nothing is sent before the first one. -/
theorem C123_latest_partial (env : Env σ) (s s1 s2 : UdpWorld σ) (evs : List NetEv) (ev : NetEv)
    (log : List (NetEv × List Arrival)) (as : List Arrival) (i ip port : Nat) (ok : Bool)
    (hs : s.udp i = some (Udp.opened true ip port ok)) (h1 : s.run env evs = some (s1, log))
    (h2 : s1.step env ev = some (s2, as)) :
    ∃ new, s2.sent = s1.sent ++ new ∧ ∀ x ∈ new, x.1.ep = i →
      (∀ a, LastFrom i a (evs ++ [ev]) → x.2 = if a.port = 0 then none else some a) ∧
      ((∀ now a d, NetEv.datagram i now a d ∉ evs ++ [ev]) → x.2 = none) := by
  obtain ⟨new, e1, e2⟩ := step_sent h2
  have hu : s2.udp = (evs ++ [ev]).foldl (fun u ev => ev.heard u) s.udp := by
    rw [step_udp h2, (run_udp evs h1).1, List.foldl_append]; rfl
  refine ⟨new, e1, fun x hx hi => ?_⟩
  obtain ⟨u, f1, f2⟩ := e2 x hx
  rw [hi, hu] at f1
  constructor
  · rintro a ⟨pre, now, d, post, g1, g2⟩
    obtain ⟨u', k1, _, _, k4⟩ := server_to (i := i) (a := a) (pre := pre) (post := post) (now := now) (d := d)
      (opened_server i ip port ok hs) (fun now a' d hm => absurd hm (g2 now a' d))
    rw [← g1, f1] at k1
    cases k1
    rw [f2, k4]
  · intro hn
    have h0 : ServerTo i ⟨ip, 0⟩ s.udp := ⟨_, hs, by simp [Udp.opened], by simp [Udp.opened], by simp [Udp.opened]⟩
    obtain ⟨u', k1, _, _, k4⟩ := foldl_to (evs ++ [ev]) h0 (fun now a' d hm => absurd hm (hn now a' d))
    rw [f1] at k1
    cases k1
    rw [f2, k4]
    simp

/-! ### Replies -/

theorem step_world {env : Env σ} {s s' : UdpWorld σ} {ev : NetEv} {as : List Arrival} (h : s.step env ev = some (s', as)) :
    runRouter env s.w ev.toRouter.toList = some (s'.w, as) := by
  unfold UdpWorld.step at h
  simp only at h
  split at h
  · rename_i hn
    cases h
    rw [hn]
    rfl
  · rename_i rev hr
    split at h
    · cases h
    · rename_i w' bs hb
      cases h
      rw [hr]
      simp [runRouter, hb]

theorem runRouter_append {env : Env σ} : ∀ (xs : List RouterEv) {ys : List RouterEv} {w w1 w2 : World σ} {as bs : List Arrival},
    runRouter env w xs = some (w1, as) → runRouter env w1 ys = some (w2, bs) → runRouter env w (xs ++ ys) = some (w2, as ++ bs)
  | [], ys, w, w1, w2, as, bs, h1, h2 => by cases h1; exact h2
  | x :: xs, ys, w, w1, w2, as, bs, h1, h2 => by
    unfold runRouter at h1
    cases e1 : routerStep env w x with
    | none => rw [e1] at h1; cases h1
    | some r =>
      obtain ⟨v, cs⟩ := r
      simp only [e1] at h1
      cases e2 : runRouter env v xs with
      | none => rw [e2] at h1; cases h1
      | some r2 =>
        obtain ⟨v2, ds⟩ := r2
        simp only [e2] at h1
        cases h1
        simp only [List.cons_append, runRouter, e1, runRouter_append xs e2 h2, List.append_assoc]

theorem run_world {env : Env σ} : ∀ (evs : List NetEv) {s s' : UdpWorld σ} {log : List (NetEv × List Arrival)},
    s.run env evs = some (s', log) → runRouter env s.w (evs.flatMap (fun ev => ev.toRouter.toList)) = some (s'.w, arrivals log)
  | [], s, s', log, h => by cases h; rfl
  | ev :: evs, s, s', log, h => by
    unfold UdpWorld.run at h
    cases h1 : s.step env ev with
    | none => rw [h1] at h; cases h
    | some r =>
      obtain ⟨s1, as⟩ := r
      simp only [h1] at h
      cases h2 : s1.run env evs with
      | none => rw [h2] at h; cases h
      | some r2 =>
        obtain ⟨s2, l2⟩ := r2
        simp only [h2] at h
        cases h
        rw [List.flatMap_cons, arrivals, List.flatMap_cons]
        exact runRouter_append _ (step_world h1) (run_world evs h2)

/-- What the router is told of an event on the network: bytes that were received, by whomever they were sent; nothing of timers of UDP
clients. -/
def Spec.told : List NetEv → List RouterEv
  | [] => []
  | .datagram i _ _ d :: evs => .read i (.got d) :: told evs
  | .timer _ _ :: evs => told evs
  | .other ev :: evs => ev :: told evs

/-- **C123** (partial), what is sent: addresses and timers of UDP links only decide where datagrams go. Messages, systems learned and
what is handed to the links are as in the router that is told of the bytes only. -/
theorem C123_told_partial (env : Env σ) (s s' : UdpWorld σ) (evs : List NetEv) (log : List (NetEv × List Arrival))
    (h : s.run env evs = some (s', log)) : runRouter env s.w (told evs) = some (s'.w, arrivals log) := by
  have := run_world evs h
  have he : ∀ evs : List NetEv, evs.flatMap (fun ev => ev.toRouter.toList) = told evs := by
    intro evs
    induction evs with
    | nil => rfl
    | cons ev evs ih =>
      rw [List.flatMap_cons, ih]
      cases ev <;> rfl
  rw [he] at this
  exact this

theorem reached_run {env : Env σ} : ∀ (evs : List RouterEv) {w w' : World σ} {as : List Arrival}, Reached env w →
    runRouter env w evs = some (w', as) → Reached env w'
  | [], w, w', as, hr, h => by cases h; exact hr
  | ev :: evs, w, w', as, hr, h => by
    unfold runRouter at h
    cases e1 : routerStep env w ev with
    | none => rw [e1] at h; cases h
    | some r =>
      obtain ⟨v, cs⟩ := r
      simp only [e1] at h
      cases e2 : runRouter env v evs with
      | none => rw [e2] at h; cases h
      | some r2 =>
        obtain ⟨v2, ds⟩ := r2
        simp only [e2] at h
        cases h
        exact reached_run evs (.event hr e1) e2

theorem run_active {env : Env σ} (ht : TableOk env.tbl) (eps : List Ep) (hc : ConfigOk eps) (j : Nat) :
    ∀ (evs : List RouterEv) (past : List Arrival) {w w' : World σ} {as : List Arrival}, Reached env w → After eps past w → j ∈ w.active →
    (∀ gone, RouterEv.hangups gone ∈ evs → j ∉ gone) → runRouter env w evs = some (w', as) → j ∈ w'.active
  | [], past, w, w', as, _, _, hj, _, h => by cases h; exact hj
  | ev :: evs, past, w, w', as, hr, ha, hj, hg, h => by
    unfold runRouter at h
    cases e1 : routerStep env w ev with
    | none => rw [e1] at h; cases h
    | some r =>
      obtain ⟨v, cs⟩ := r
      simp only [e1] at h
      cases e2 : runRouter env v evs with
      | none => rw [e2] at h; cases h
      | some r2 =>
        obtain ⟨v2, ds⟩ := r2
        simp only [e2] at h
        cases h
        obtain ⟨k1, k2⟩ := routerStep_complete env (fun _ => False) eps j (fun _ _ _ _ _ hf => hf.elim) hc past w ha hj ev
          (fun gone hgo => hg gone (by simp [hgo])) e1 (arrivals_msgOk env ht w v hr ev cs e1)
        exact run_active ht eps hc j evs _ (.event hr e1) k1.after k2 (fun gone hgo => hg gone (List.mem_cons_of_mem _ hgo)) e2

theorem SeenAt.mono {eps : List Ep} {past past' : List Arrival} {j s c : Nat} (h : SeenAt eps past j s c)
    (hs : ∀ a ∈ past, a ∈ past') : SeenAt eps past' j s c := by
  rcases h with h | ⟨a, h1, h2⟩
  · exact .inl h
  · exact .inr ⟨a, hs a h1, h2⟩

theorem mem_expected {sniffer : Nat} {eps : List Ep} {j : Nat} {x : Arrival} : ∀ (as past : List Arrival), x ∈ as → x.passed = true →
    (∀ mid, (∀ a ∈ past, a ∈ mid) → (∀ a ∈ mid, a ∈ past ++ as) → Wanted sniffer eps j mid x.msg) →
    x ∈ expected sniffer eps j past as
  | [], _, hx, _, _ => absurd hx (by simp)
  | a :: as, past, hx, hp, hw => by
    simp only [expected]
    rw [List.mem_append]
    rcases List.mem_cons.mp hx with rfl | hx
    · left
      rw [if_pos ⟨hp, hw _ (fun a ha => List.mem_append_left _ ha) (fun a ha => by simp at ha ⊢; rcases ha with h | h <;> simp [h])⟩]
      simp
    · right
      exact mem_expected as _ hx hp (fun mid h1 h2 => hw mid (fun a ha => h1 a (List.mem_append_left _ ha))
        (fun b hb => by have := h2 b hb; simpa using this))

/-- **C123** (partial): if system `s/c` was heard on UDP server endpoint `i` in a datagram from `a`, and endpoint `i` received
datagrams from nowhere else since, then a message for it that the router takes from another link (and that the outgoing filters
of `i` let through) is sent to `a`; as received, if `i` stands before the log endpoints, as configured links do (`unedited_link`). Missing: several stations
on one endpoint (`C123_violated`). -/
theorem C123_reply_partial (env : Env σ) (ht : TableOk env.tbl)
    (eps : List Ep) (hc : ConfigOk eps) (logs : Nat → σ)
    (udp : Nat → Option Udp) (i ip port : Nat) (ok : Bool) (hi : i < eps.length)
    (hs : udp i = some (Udp.opened true ip port ok)) (evs : List NetEv) (ev : NetEv) (s1 s2 : UdpWorld σ)
    (log : List (NetEv × List Arrival)) (as : List Arrival)
    (h1 : UdpWorld.run env { w := start eps logs, udp := udp } evs = some (s1, log)) (h2 : s1.step env ev = some (s2, as))
    (hgone : ∀ gone, NetEv.other (.hangups gone) ∈ evs ++ [ev] → i ∉ gone)
    (a : Addr) (hport : a.port ≠ 0) (s c : UInt8) (hh : HeardFrom i a s c log)
    (hev : ∀ now a' d, ev = .datagram i now a' d → a' = a)
    (x : Arrival) (hx : x ∈ as) (hpass : x.passed = true)
    (hto : x.msg.targetSys = s.toNat ∧ (x.msg.targetComp = c.toNat ∨ x.msg.targetComp ≤ 0))
    (hother : ¬ SeenAt eps (arrivals log ++ as) i x.msg.srcSys.toNat x.msg.srcComp.toNat)
    (hout : ∀ e, eps[i]? = some e → outOk e.filters x.msg) :
    ∃ new, s2.sent = s1.sent ++ new ∧ ∃ o, (o, some a) ∈ new ∧ o.ep = i ∧ (UneditedBefore env eps i x.msg → o.bytes = x.msg.data) := by
  have hw1 := run_world evs h1
  have hw2 := step_world h2
  have hgo : ∀ (l : List NetEv), (∀ e ∈ l, e ∈ evs ++ [ev]) → ∀ gone,
      RouterEv.hangups gone ∈ l.flatMap (fun ev => ev.toRouter.toList) → i ∉ gone := by
    intro l hl gone hg
    rw [List.mem_flatMap] at hg
    obtain ⟨e, he, hr⟩ := hg
    cases e with
    | datagram => simp [NetEv.toRouter] at hr
    | timer => simp [NetEv.toRouter] at hr
    | other r =>
      simp only [NetEv.toRouter, Option.toList_some, List.mem_singleton] at hr
      exact hgone gone (by rw [hr]; exact hl _ he)
  have hact : i ∈ s1.w.active :=
    run_active ht eps hc i _ [] (.start hc) (start_after eps hc logs) (by simp [start, hi]) (hgo evs (fun e he => by simp [he])) hw1
  have hacc := C88_complete_partial env ht eps hc logs _ _ _ _ _ _ hw1 hw2 i hact
    (by have := hgo [ev] (fun e he => by simp at he; simp [he]); simpa using this)
  have hseen : SeenAt eps (arrivals log) i s.toNat c.toNat := by
    obtain ⟨pre, now, d, as0, post, g1, ⟨y, y1, y2, y3, y4, y5⟩, _⟩ := hh
    refine .inr ⟨y, ?_, y2, by rw [y4], by rw [y5], by rw [y3]; exact .inl rfl⟩
    rw [g1, arrivals, List.flatMap_append, List.flatMap_cons]
    simp [y1]
  have hex : x ∈ expected env.sniffer.toNat eps i (arrivals log) as := by
    refine mem_expected as _ hx hpass (fun mid m1 m2 => ⟨fun hsn => hother (SeenAt.mono hsn m2), hout, ?_⟩)
    have hsm : SeenAt eps mid i s.toNat c.toNat := SeenAt.mono hseen m1
    by_cases h0 : x.msg.targetSys ≤ 0
    · exact .inl h0
    · right
      have hts : x.msg.targetSys.toNat = s.toNat := by rw [hto.1]; rfl
      by_cases hc0 : x.msg.targetComp ≤ 0
      · exact .inl ⟨hc0, _, by rw [hts]; exact hsm⟩
      · right; left
        have htc : x.msg.targetComp = c.toNat := hto.2.resolve_right hc0
        exact ⟨by omega, by rw [hts, htc]; exact hsm⟩
  obtain ⟨k, hk⟩ := List.getElem?_of_mem hex
  have hkl : k < (expected env.sniffer.toNat eps i (arrivals log) as).length := (List.getElem?_eq_some_iff.mp hk).1
  rw [← hacc.1] at hkl
  have ho := List.getElem?_eq_getElem hkl
  generalize (writesTo i s1.w s2.w)[k] = o at ho
  have hom : o ∈ writesTo i s1.w s2.w := List.mem_of_getElem? ho
  unfold writesTo directSince at hom
  simp only [List.mem_filter, beq_iff_eq] at hom
  -- where it goes
  have hto : ServerTo i a s2.udp := by
    obtain ⟨pre, now, d, as0, post, g1, _, g3⟩ := hh
    obtain ⟨u1, u2⟩ := run_udp evs h1
    rw [g1, List.map_append, List.map_cons] at u2
    have := server_to (i := i) (a := a) (pre := pre.map Prod.fst) (post := post.map Prod.fst) (now := now) (d := d)
      (opened_server i ip port ok hs) (fun now a' d hm => by
        rw [List.mem_map] at hm
        obtain ⟨⟨e, bs⟩, hm, rfl⟩ := hm
        exact g3 now a' d bs hm)
    rw [u2] at this
    rw [step_udp h2]
    exact heard_to (by rw [u1]; exact this) ev hev
  obtain ⟨u, u1, _, _, u4⟩ := hto
  have hsent : ∃ new, s2.sent = s1.sent ++ new ∧ (o, some a) ∈ new := by
    unfold UdpWorld.step at h2
    simp only at h2
    split at h2
    · cases h2; simp at hx
    · split at h2
      · cases h2
      · cases h2
        refine ⟨_, rfl, ?_⟩
        rw [List.mem_filterMap]
        refine ⟨o, hom.1.1, ?_⟩
        rw [hom.2]
        have u1' : NetEv.heard s1.udp ev i = some u := u1
        rw [u1']
        simp only [Option.map_some, Udp.step, u4, if_neg hport]
  obtain ⟨new, n1, n2⟩ := hsent
  exact ⟨new, n1, o, n2, hom.2, hacc.2 k o x ho hk⟩

/-! ### Two stations on one endpoint -/

/-- The claim in full, of a router with endpoints `eps` and a UDP server at `i`: what is sent through `i` because of a message for
system `s`, component `c` goes to the address from which `s/c` was last heard there. -/
def Spec.GoesToSystem (env : Env σ) (eps : List Ep) (logs : Nat → σ) (udp : Nat → Option Udp) (i : Nat) : Prop :=
  ∀ (evs : List NetEv) (ev : NetEv) (s1 s2 : UdpWorld σ) (log : List (NetEv × List Arrival)) (x : Arrival) (a : Addr) (s c : UInt8)
    (pre post : List (NetEv × List Arrival)) (now : Nat) (d : List UInt8) (as : List Arrival),
    UdpWorld.run env { w := start eps logs, udp := udp } evs = some (s1, log) → s1.step env ev = some (s2, [x]) →
    x.passed = true → x.msg.targetSys = s.toNat → x.msg.targetComp = c.toNat →
    log = pre ++ (.datagram i now a d, as) :: post →
    (∃ y ∈ as, y.passed = true ∧ y.msg.srcSys = s ∧ y.msg.srcComp = c) →
    (∀ e ∈ post, ∀ y ∈ e.2, ¬ (y.ep = i ∧ y.msg.srcSys = s ∧ y.msg.srcComp = c)) →
    ∀ o ∈ s2.sent.drop s1.sent.length, o.1.ep = i → o.2 = some a

namespace Sample

/-- A valid COMMAND_LONG from 42/200 to 1/1. -/
def cmdTo1 : Frame :=
  { v2 := true, seq := 8, sys := 42, comp := 200, msgid := 76, payload := List.replicate 30 0 ++ [1, 1], crcLo := 11, crcHi := 200 }

/-- A ground station on a serial port and a UDP server. -/
def epsUdp : List Ep := [{ kind := .uart }, { kind := .udp }]

/-- The UDP server, open on port 14550. -/
def udpServer : Nat → Option Udp := fun j => if j = 1 then some (Udp.opened true 0 14550 true) else none

def addrA : Addr := ⟨1, 14550⟩
def addrB : Addr := ⟨2, 14550⟩

/-- The heartbeat of 1/1 from `addrA`. -/
def hears : NetEv := .datagram 1 0 addrA hb2.encode

/-- The command to 1/1 on the serial port. -/
def asks : NetEv := .other (.read 0 (.got cmdTo1.encode))

/-- The router at the start. -/
def udpWorld : UdpWorld Nat := { w := start epsUdp (fun _ => 0), udp := udpServer }

theorem tbl_ok : TableOk tbl := by
  intro id e h
  unfold tbl at h
  split at h
  · cases h; subst id; rfl
  · split at h
    · cases h; subst id; rfl
    · cases h

end Sample

/-- Where a command to 1/1 goes: before anything was heard, after the heartbeat from `addrA`, after another datagram of `addrB`. -/
example :
    [[Sample.asks], [Sample.hears, Sample.asks], [Sample.hears, .datagram 1 5 Sample.addrA [1], .timer 1 9, Sample.asks],
     [.datagram 1 5 Sample.addrB [], Sample.hears, Sample.asks]].map (fun evs =>
        (Sample.udpWorld.run Sample.envQuiet evs).map (fun r => r.1.sent.map (fun x => (x.1.ep, x.2)))) =
    [some [], some [(1, some Sample.addrA)], some [(1, some Sample.addrA)], some [(1, some Sample.addrA)]] := by
  decide +kernel

/-- The timer in between makes no difference to the router. -/
example : told [Sample.hears, .timer 1 9, Sample.asks] = told [Sample.hears, Sample.asks] ∧
    (Sample.udpWorld.run Sample.envQuiet [Sample.hears, .timer 1 9, Sample.asks]).map (fun r => r.1.w.out) =
      (runRouter Sample.envQuiet Sample.udpWorld.w (told [Sample.hears, Sample.asks])).map (fun r => r.1.out) ∧
    (Sample.udpWorld.run Sample.envQuiet [Sample.hears, .timer 1 9, Sample.asks]).map (fun r => r.1.w.out.length) = some 2 := by
  decide +kernel

/-- Step and run give a result at all in the sample histories; used to name the states. -/
theorem Sample.two_steps (evs : List NetEv) (ev : NetEv)
    (h : ((Sample.udpWorld.run Sample.envQuiet evs).bind (fun r => r.1.step Sample.envQuiet ev)).isSome = true) :
    ∃ s1 log s2 as, Sample.udpWorld.run Sample.envQuiet evs = some (s1, log) ∧ s1.step Sample.envQuiet ev = some (s2, as) := by
  cases h1 : Sample.udpWorld.run Sample.envQuiet evs with
  | none => rw [h1] at h; cases h
  | some r =>
    rw [h1] at h
    cases h2 : r.1.step Sample.envQuiet ev with
    | none => rw [Option.bind_some, h2] at h; cases h
    | some q => exact ⟨r.1, r.2, q.1, q.2, rfl, h2⟩

/-- **C123** is false of the code: an empty datagram from elsewhere is enough, the command then goes to its sender although system
1/1 was heard from `addrA` only. -/
theorem C123_violated : ¬ GoesToSystem Sample.envQuiet Sample.epsUdp (fun _ => 0) Sample.udpServer 1 := by
  intro h
  obtain ⟨s1, log, s2, as, h1, h2⟩ := Sample.two_steps [Sample.hears, .datagram 1 5 Sample.addrB []] Sample.asks (by decide +kernel)
  have hlog : (Sample.udpWorld.run Sample.envQuiet [Sample.hears, .datagram 1 5 Sample.addrB []]).map (fun r => r.2) =
      some [(Sample.hears, [⟨1, (Sample.hb2.toMsg Sample.tbl).1, true⟩]), (.datagram 1 5 Sample.addrB [], [])] := by decide +kernel
  have hnew : ((Sample.udpWorld.run Sample.envQuiet [Sample.hears, .datagram 1 5 Sample.addrB []]).bind
      (fun r => (r.1.step Sample.envQuiet Sample.asks).map (fun q => (q.2, (q.1.sent.drop r.1.sent.length).map (fun o => (o.1.ep, o.2)))))) =
      some ([⟨0, (Sample.cmdTo1.toMsg Sample.tbl).1, true⟩], [(1, some Sample.addrB)]) := by decide +kernel
  rw [h1] at hlog hnew
  simp only [Option.map_some, Option.bind_some, h2, Option.some.injEq, Prod.mk.injEq] at hlog hnew
  obtain ⟨rfl, hnew⟩ := hnew
  cases hd : s2.sent.drop s1.sent.length with
  | nil => rw [hd] at hnew; cases hnew
  | cons o os =>
    rw [hd] at hnew
    simp only [List.map_cons, List.cons.injEq, Prod.mk.injEq] at hnew
    have := h _ _ _ _ _ _ Sample.addrA 1 1 [] [(.datagram 1 5 Sample.addrB [], [])] 0 Sample.hb2.encode _ h1 h2 rfl
      (by decide +kernel) (by decide +kernel) (by rw [hlog]; rfl) ⟨_, List.mem_singleton.mpr rfl, rfl, by decide +kernel, by decide +kernel⟩
      (by simp) o (by rw [hd]; simp) hnew.1.1
    rw [hnew.1.2] at this
    exact absurd this (by decide)

/-- The hypotheses of `C123_reply_partial` are met: heartbeat, another datagram of the same sender, command. -/
example : ∃ s1 log s2 as new, Sample.udpWorld.run Sample.envQuiet [Sample.hears, .datagram 1 5 Sample.addrA [1]] = some (s1, log) ∧
    s1.step Sample.envQuiet Sample.asks = some (s2, as) ∧ s2.sent = s1.sent ++ new ∧
    ∃ o, (o, some Sample.addrA) ∈ new ∧ o.ep = 1 ∧ o.bytes = Sample.cmdTo1.encode := by
  obtain ⟨s1, log, s2, as, h1, h2⟩ := Sample.two_steps [Sample.hears, .datagram 1 5 Sample.addrA [1]] Sample.asks (by decide +kernel)
  have hlog : (Sample.udpWorld.run Sample.envQuiet [Sample.hears, .datagram 1 5 Sample.addrA [1]]).map (fun r => r.2) =
      some [(Sample.hears, [⟨1, (Sample.hb2.toMsg Sample.tbl).1, true⟩]), (.datagram 1 5 Sample.addrA [1], [])] := by decide +kernel
  have hnew : ((Sample.udpWorld.run Sample.envQuiet [Sample.hears, .datagram 1 5 Sample.addrA [1]]).bind
      (fun r => (r.1.step Sample.envQuiet Sample.asks).map (fun q => q.2))) =
      some [⟨0, (Sample.cmdTo1.toMsg Sample.tbl).1, true⟩] := by decide +kernel
  rw [h1] at hlog hnew
  simp only [Option.map_some, Option.bind_some, h2, Option.some.injEq] at hlog hnew
  subst hlog hnew
  obtain ⟨new, n1, o, n2, n3, n4⟩ := C123_reply_partial Sample.envQuiet Sample.tbl_ok Sample.epsUdp
    (by intro e he; simp [Sample.epsUdp] at he; rcases he with rfl | rfl <;> simp) (fun _ => 0) Sample.udpServer 1 0 14550 true
    (by decide) rfl _ _ _ _ _ _ h1 h2 (by simp [Sample.hears, Sample.asks]) Sample.addrA (by decide) 1 1
    ⟨[], 0, Sample.hb2.encode, _, _, rfl, ⟨_, List.mem_singleton.mpr rfl, rfl, rfl, by decide +kernel, by decide +kernel⟩,
      by intro now' a' d' as' hm; simp at hm; exact hm.1.2.1⟩
    (by simp [Sample.asks]) _ (List.mem_singleton.mpr rfl) rfl (by decide +kernel)
    (by
      rintro (⟨e, he, hl, _⟩ | ⟨b, hb, hp, hsys, hcomp, hep⟩)
      · simp [Sample.epsUdp] at he; subst he; cases hl
      · simp [arrivals] at hb
        rcases hb with rfl | rfl
        · exact absurd hsys (by decide +kernel)
        · rcases hep with hep | ⟨e, e', g1, g2, g3, _⟩
          · exact absurd hep (by decide)
          · simp [Sample.epsUdp] at g1 g2; subst g1 g2; simp at g3)
    (by intro e he; simp [Sample.epsUdp] at he; subst he; simp [outOk, passes])
  exact ⟨s1, _, s2, _, new, h1, h2, n1, o, n2, n3, by rw [n4 (fun _ _ _ _ => rfl)]; decide +kernel⟩

end Verif
