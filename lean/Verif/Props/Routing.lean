import Verif.Lemmas.Router
import Verif.Lemmas.RxRun
import Verif.Props.Rx
import Verif.Spec.RoutingSamples

/- Properties C03 (routing half) and C11 – C21: routing, learning, filters. -/

namespace Verif

open Spec

variable {σ : Type}

theorem reached_inv {env : Env σ} {w : World σ} (h : Reached env w) : RouterInv w := by
  induction h with
  | start hc => exact start_inv _ hc _
  | event _ hs ih =>
    obtain ⟨w', as, h1, h2, _⟩ := routerStep_spec env _ ih _
    rw [h1] at hs; cases hs; exact h2
  | message _ hs ih =>
    obtain ⟨w', b, h1, h2, _⟩ := handleMsg_spec env _ ih _ _
    rw [h1] at hs; cases hs; exact h2

theorem Kept.direct {w w' : World σ} {new} (k : Kept w w' new) :
    directSince w w' = new.filter (fun s => !s.gen) := by
  unfold directSince
  rw [k.out, List.drop_left]

theorem decision_gets (sniffer : UInt16) (eps : List Ep) (m : Msg) (hm : MsgOk m)
    (i : Nat) : decisionAt sniffer eps m i = some .accepted ↔ Gets sniffer.toNat eps m i := by
  unfold decisionAt Gets
  rw [Option.map_eq_some_iff]
  constructor
  · rintro ⟨e, he, ha⟩; exact ⟨e, he, (acceptMsg_accepted sniffer e m hm).mp ha⟩
  · rintro ⟨e, he, ha⟩; exact ⟨e, he, (acceptMsg_accepted sniffer e m hm).mpr ha⟩

/-! ### Messages in range -/

theorem readMsg_delivers {tbl : MsgTable} {fd : Bool} {rx rx' : Rx} {io : SysRead} {m : Msg} {k : Bool}
    (h : readMsg tbl fd rx io = (rx', .msg m k)) : Delivers tbl m.data m k := by
  have key : ∀ p st rx', parseBuf tbl p st = (rx', .msg m k) → Delivers tbl m.data m k := by
    intro p st rx' hp
    cases hf : firstFrame p with
    | none =>
      rw [(parseBuf_none tbl hf st).1] at hp; cases hp
    | some x =>
      obtain ⟨fr, rest⟩ := x
      rcases parseBuf_some tbl hf st with ⟨m', k', seq, hd, _, he⟩ | ⟨_, he⟩
      · rw [he] at hp; cases hp; rw [hd.bytes]; exact hd
      · rw [he] at hp; cases hp
  unfold readMsg at h
  split at h
  · cases h
  · split at h
    · exact key _ _ _ h
    · split at h
      · cases h
      · split at h
        · cases h
        · exact key _ _ _ h

theorem drain_delivers {tbl : MsgTable} {fd : Bool} : ∀ (n : Nat) (rx : Rx) (io : SysRead),
    ∀ x ∈ (drain tbl fd n rx io).2.1, Delivers tbl x.1.data x.1 x.2 := by
  intro n
  induction n with
  | zero => intro rx io x hx; simp [drain] at hx
  | succ n ih =>
    intro rx io x hx
    unfold drain at hx
    split at hx
    · simp at hx
    · rename_i rx' m k h
      simp only [List.mem_cons] at hx
      rcases hx with rfl | hx
      · exact readMsg_delivers h
      · exact ih _ _ _ hx

theorem delivers_msgOk {tbl : MsgTable} (ht : TableOk tbl) {fr : List UInt8} {m : Msg} {k : Bool}
    (h : Delivers tbl fr m k) : MsgOk m := by
  obtain ⟨_, hl, len, seq, sys, comp, mid, hi, _, _, _, _, hc⟩ := h
  have hmid : mid < 2 ^ 24 := by
    unfold frameInfo at hi
    split at hi
    · rename_i m0 m1 m2 _ _
      simp only [Option.some.injEq, Prod.mk.injEq] at hi
      have := m0.toNat_lt; have := m1.toNat_lt; have := m2.toNat_lt
      omega
    · rename_i m0 _ _
      simp only [Option.some.injEq, Prod.mk.injEq] at hi
      have := m0.toNat_lt
      omega
    · cases hi
  have htgt : ∀ (p : Bool) (o : Nat) (pl : List UInt8), -1 ≤ target p o pl ∧ target p o pl ≤ 255 := by
    intro p o pl
    unfold target
    cases p with
    | false => simp
    | true =>
      have := ((pl ++ List.replicate (o + 1) 0).getD o 0).toNat_lt
      simp only [if_true]
      omega
  rcases hc with ⟨_, _, h1, h2, h3⟩ | ⟨_, e, h0, _, h1, h2, h3⟩
  · exact ⟨by rw [h1]; omega, by rw [h2]; decide, by rw [h3]; decide⟩
  · exact ⟨by rw [h1, ht mid e h0]; omega, by rw [h2]; exact htgt _ _ _, by rw [h3]; exact htgt _ _ _⟩

/-! ### C11 -/

/-- **C11**: in every reachable state, for every message, no write of a received message goes to the endpoint it
arrived on nor to an endpoint of the same group. -/
theorem C11_no_echo (env : Env σ) (w w' : World σ) (hw : Reached env w) (i : Nat) (m : Msg) (b : Bool)
    (h : handleMsg env w i m = some (w', b)) :
    ∀ s ∈ directSince w w', ¬ Peer w.eps i s.ep := by
  have hinv := reached_inv hw
  obtain ⟨w1, b1, h1, _, _, _, hf, ht, _⟩ := handleMsg_spec env w hinv i m
  rw [h] at h1; cases h1
  cases b with
  | false =>
    obtain ⟨d, c, rfl⟩ := hf rfl
    intro s hs
    simp [directSince] at hs
  | true =>
    obtain ⟨h', d, l, hi, rfl⟩ := ht rfl
    obtain ⟨new, hk, hnew⟩ := routeMsg_spec env 1 { w with eps := h', dedup := d, checks := w.checks + 1 } m
    intro s hs hp
    have hd : directSince w (routeMsg env 2 false { w with eps := h', dedup := d, checks := w.checks + 1 } m) =
        new.filter (fun s => !s.gen) := hk.direct
    rw [hd] at hs
    have hmem := List.mem_map_of_mem (f := Sent.ep) hs
    rw [hnew, List.mem_filter, beq_iff_eq] at hmem
    obtain ⟨_, hacc⟩ := hmem
    obtain ⟨e, he, ha⟩ := Option.map_eq_some_iff.mp hacc
    have hk' : s.ep < w.eps.length := by
      rcases hp with rfl | ⟨_, _, _, h2, _⟩
      · exact hi
      · exact (List.getElem?_eq_some_iff.mp h2).1
    obtain ⟨e', he', hc⟩ := l.exact hinv.grouped hinv.closed hi s.ep _ (List.getElem?_eq_getElem hk')
    have hin : sysComp m.srcSys m.srcComp ∈ e'.learned := by
      rcases hc with ⟨_, _, rfl⟩ | ⟨hn | hn, rfl⟩
      · simp
      · exact absurd hp hn
      · exact hn
    have hee : e = e' := by
      rw [show h'[s.ep]? = some e from he] at he'; exact Option.some.inj he'
    subst hee
    have : acceptMsg env.sniffer e m = .rejected := by
      unfold acceptMsg
      rw [if_pos]
      rw [hasSysComp2_iff _ _ _ ⟨by omega, by have := m.srcSys.toNat_lt; omega⟩
        ⟨by omega, by have := m.srcComp.toNat_lt; omega⟩]
      exact ⟨_, hin, by rw [sysComp_toNat]; simp⟩
    rw [this] at ha; cases ha

/-- A heartbeat arriving on endpoint 1 (group "g") is written to the UART and the log, not to 1 or 2. -/
example : Reached Sample.env Sample.w0 ∧
    (handleMsg Sample.env Sample.w0 1 Sample.mHb).map (fun r => (directSince Sample.w0 r.1).map Sent.ep) =
      some [0, 3] ∧ Peer Sample.eps 1 2 :=
  ⟨Sample.w0_reached, by decide +kernel, .inr ⟨_, _, rfl, rfl, by decide, rfl⟩⟩

/-! ### C12 -/

/-- **C12**: for every router state (any endpoints, learned addresses, filters), every message from the receive
path and every sniffer setting: the message is written to exactly the endpoints named by the rule, in
endpoint order. -/
theorem C12_exact_delivery (env : Env σ) (w : World σ) (m : Msg) (hm : MsgOk m)
    (depth : Nat) :
    (directSince w (routeMsg env (depth + 1) false w m)).map Sent.ep =
      (open Classical in w.active.filter (fun i => decide (Gets env.sniffer.toNat w.eps m i))) := by
  obtain ⟨new, hk, hnew⟩ := routeMsg_spec env depth w m
  rw [hk.direct, hnew]
  apply List.filter_congr
  intro i _
  have := decision_gets env.sniffer w.eps m hm i
  by_cases hg : Gets env.sniffer.toNat w.eps m i
  · simp [hg, this.mpr hg]
  · have hn : decisionAt env.sniffer w.eps m i ≠ some .accepted := fun h => hg (this.mp h)
    simp [hg, hn]

/-- A command to 1/1 goes to the UART, where 1/1 was seen, only. -/
example : MsgOk Sample.mCmd ∧
    (directSince Sample.w1 (routeMsg Sample.env 2 false Sample.w1 Sample.mCmd)).map Sent.ep = [0] :=
  ⟨Sample.mCmd_ok, by decide +kernel⟩

/-- With the setting 298 = 256 + 42, endpoints where system 42 was seen get a message to an address nobody knows. -/
example : (directSince Sample.w2 (routeMsg { Sample.envSniff with sniffer := 298 } 2 false Sample.w2
      { Sample.mCmd with srcSys := 7, targetSys := 99 })).map Sent.ep = [1, 2] := by decide +kernel

/-- **C12** (each endpoint once): in every reachable state no endpoint gets a message twice. -/
theorem C12_once (env : Env σ) (w : World σ) (hw : Reached env w) (m : Msg) (depth : Nat) :
    ((directSince w (routeMsg env (depth + 1) false w m)).map Sent.ep).Nodup := by
  obtain ⟨new, hk, hnew⟩ := routeMsg_spec env depth w m
  rw [hk.direct, hnew]
  exact (reached_inv hw).actNodup.filter _

example : Reached Sample.env Sample.w2 ∧ Sample.w2.active = [0, 1, 2, 3] :=
  ⟨Sample.w2_reached, by decide +kernel⟩

/-- **C12** (end to end): a message taken from the receive path in a reachable state is either dropped by
de-duplication or incoming filters, and then written nowhere, or written exactly according to the rule in the
state in which its sender has been learned. -/
theorem C12_end_to_end (env : Env σ) (w w' : World σ) (hw : Reached env w)
    (i : Nat) (m : Msg) (hm : MsgOk m) (b : Bool) (h : handleMsg env w i m = some (w', b)) :
    (b = false → w'.out = w.out) ∧
    (b = true → (directSince w w').map Sent.ep =
      (open Classical in w'.active.filter (fun i => decide (Gets env.sniffer.toNat w'.eps m i)))) := by
  obtain ⟨w1, b1, h1, _, _, _, hf, ht, _⟩ := handleMsg_spec env w (reached_inv hw) i m
  rw [h] at h1; cases h1
  constructor
  · intro hb; obtain ⟨d, c, rfl⟩ := hf hb; rfl
  · intro hb
    obtain ⟨h', d, l, hi, rfl⟩ := ht hb
    obtain ⟨new, hk, _⟩ := routeMsg_spec env 1 { w with eps := h', dedup := d, checks := w.checks + 1 } m
    have := C12_exact_delivery env { w with eps := h', dedup := d, checks := w.checks + 1 } m hm 1
    rw [hk.eps, hk.active]
    exact this

/-- A passed message (written to 0) and a dropped one (`BlockMsgIdIn = 77` on the UART). -/
example : (handleMsg Sample.env Sample.w1 1 Sample.mCmd).map (fun r => ((directSince Sample.w1 r.1).map Sent.ep, r.2)) =
      some ([0], true) ∧
    (handleMsg Sample.env Sample.w1 0 { Sample.mCmd with msgId := 77 }).map Prod.snd = some false :=
  ⟨by decide +kernel, by decide +kernel⟩

/-! ### C13, C14 -/

theorem peer_start (eps : List Ep) {h' : List Ep} (x : Ext (linkGroups eps) h') (i k : Nat) :
    Peer h' i k ↔ Peer eps i k := by
  rw [x.peer, linkGroups_peer]

/-- **C13**: after any history of events, an endpoint's list contains an address iff it is the fixed address of a
log endpoint or a message from it passed de-duplication and incoming filters on the endpoint or on one of its
group. -/
theorem C13_learned_is_history (env : Env σ) (eps : List Ep) (hc : ConfigOk eps) (logs : Nat → σ)
    (evs : List RouterEv) :
    ∃ w as, runRouter env (start eps logs) evs = some (w, as) ∧
      ∀ (k : Nat) (e : Ep), w.eps[k]? = some e → ∀ s c : UInt8,
        Knows e s.toNat c.toNat ↔
          (e.kind = .log ∧ s = 2 ∧ c = 0) ∨
          ∃ a ∈ as, a.passed = true ∧ a.msg.srcSys = s ∧ a.msg.srcComp = c ∧ Peer eps a.ep k := by
  obtain ⟨w, as, h1, _, h3⟩ := runRouter_spec env evs _ (start_inv eps hc logs)
  refine ⟨w, as, h1, ?_⟩
  intro k e he s c
  have hinj : ∀ a b a' b' : UInt8, sysComp a b = sysComp a' b' ↔ a = a' ∧ b = b' := by
    intro a b a' b'
    constructor
    · intro h
      have := congrArg UInt16.toNat h
      rw [sysComp_toNat, sysComp_toNat] at this
      have := a.toNat_lt; have := b.toNat_lt; have := a'.toNat_lt; have := b'.toNat_lt
      exact ⟨UInt8.toNat_inj.mp (by omega), UInt8.toNat_inj.mp (by omega)⟩
    · rintro ⟨rfl, rfl⟩; rfl
  have hkn : Knows e s.toNat c.toNat ↔ sysComp s c ∈ e.learned := by
    rw [← hasSysComp_iff, hasSysComp_mem]
  rw [hkn, h3.iff k e he]
  have hinit : (∃ x, (linkGroups eps)[k]? = some x ∧ sysComp s c ∈ x.learned) ↔ (e.kind = .log ∧ s = 2 ∧ c = 0) := by
    rcases linkGroups_get eps k with ⟨hn, hn'⟩ | ⟨x, x', hx, hx', hk1, hg, _, hl, _⟩
    · rcases h3.ext.back he with ⟨y, hy, _⟩ | ⟨_, hk, _⟩
      · rw [show (start eps logs).eps = linkGroups eps from rfl, hn] at hy; cases hy
      · rw [hn, hk]; simp
    · have cx := hc x (List.mem_of_getElem? hx)
      obtain ⟨y, hy, hk2, _⟩ := h3.ext.each k x' hx'
      rw [he] at hy; cases hy
      rw [hx', hk2, hk1]
      simp only [Option.some.injEq, exists_eq_left', hl]
      by_cases hlog : x.kind = .log
      · rw [(cx.2.1 hlog).2, List.mem_singleton, hinj]; simp [hlog]
      · rw [cx.2.2 hlog]; simp [hlog]
  rw [show (start eps logs).eps = linkGroups eps from rfl, hinit]
  apply or_congr_right
  constructor
  · rintro ⟨a, ha, hp, hi, hpeer⟩
    have := (hinj _ _ _ _).mp hi
    exact ⟨a, ha, hp, this.1.symm, this.2.symm, (peer_start eps h3.ext _ _).mp hpeer⟩
  · rintro ⟨a, ha, hp, rfl, rfl, hpeer⟩
    exact ⟨a, ha, hp, rfl, (peer_start eps h3.ext _ _).mpr hpeer⟩

/-- Heartbeat of 1/1 read on endpoint 1: endpoints 1 and 2 know 1/1, the UART does not, the log knows 2/0. -/
example : ConfigOk Sample.eps ∧
    (runRouter Sample.env Sample.w0 [.read 1 (.got Sample.hb2.encode), .accept]).map
      (fun r => (r.1.eps.map Ep.learned, r.2.map (fun a => (a.ep, a.passed)))) =
      some ([[], [257], [257], [512], []], [(1, true)]) :=
  ⟨Sample.eps_ok, by decide +kernel⟩

/-- **C13**: what "passed" means, for every reachable state: the packet is new for the de-duplication memory and
the incoming filters let it through. -/
theorem C13_passed_iff (env : Env σ) (w w' : World σ) (hw : Reached env w) (i : Nat) (e : Ep)
    (he : w.eps[i]? = some e) (m : Msg) (hm : MsgOk m) (b : Bool) (h : handleMsg env w i m = some (w', b)) :
    b = true ↔ (∃ d, w.dedup.check env.hashFn env.dedupPeriod (env.clock w.checks) m.data = some (d, true)) ∧
      inOk e.filters m := by
  have hal : allowedIn e.filters m = true ↔ inOk e.filters m := by
    have hid : (m.msgId != uint32Max) = true := by have := hm.id; simp [uint32Max]; omega
    unfold allowedIn inOk
    rw [hid]
    simp only [Bool.true_and, Bool.not_eq_true', Bool.or_eq_false_iff, filterDrops_iff, and_assoc]
  obtain ⟨w1, b1, h1, _, _, _, _, _, hiff⟩ := handleMsg_spec env w (reached_inv hw) i m
  rw [h] at h1; cases h1
  rw [hiff]
  constructor
  · rintro ⟨e', d, he', hd, ha⟩
    rw [he] at he'; cases he'
    exact ⟨⟨d, hd⟩, hal.mp ha⟩
  · rintro ⟨⟨d, hd⟩, ha⟩
    exact ⟨e, d, he, hd, hal.mpr ha⟩

example : Sample.w1.eps[0]?.isSome ∧ ¬ inOk { blockInMsg := [77] } { Sample.mCmd with msgId := 77 } ∧
    (handleMsg Sample.env Sample.w1 0 { Sample.mCmd with msgId := 77 }).map Prod.snd = some false :=
  ⟨by decide +kernel, by unfold inOk passes; simp, by decide +kernel⟩

/-- **C13**: entries are never forgotten (the list only grows at its end) and never duplicated. -/
theorem C13_never_forgotten (env : Env σ) (w : World σ) (hw : Reached env w) (evs : List RouterEv) :
    ∃ w' as, runRouter env w evs = some (w', as) ∧
      ∀ (k : Nat) (e : Ep), w.eps[k]? = some e → ∃ e' x, w'.eps[k]? = some e' ∧
        e'.learned = e.learned ++ x ∧ e'.learned.Nodup := by
  obtain ⟨w', as, h1, h2, h3⟩ := runRouter_spec env evs w (reached_inv hw)
  refine ⟨w', as, h1, ?_⟩
  intro k e he
  obtain ⟨e', he', _, _, _, _, x, hx⟩ := h3.ext.each k e he
  exact ⟨e', x, he', hx, h2.nodup e' (List.mem_of_getElem? he')⟩

example : Reached Sample.env Sample.w2 ∧ Sample.w2.eps.map Ep.learned = [[257], [10952], [10952], [512]] :=
  ⟨Sample.w2_reached, by decide +kernel⟩

/-- **C14**: after any history, endpoints with the same non-empty group name have the same list. -/
theorem C14_group_shares (env : Env σ) (eps : List Ep) (hc : ConfigOk eps) (logs : Nat → σ)
    (evs : List RouterEv) (i j : Nat) (a b : Ep) (ha : eps[i]? = some a) (hb : eps[j]? = some b)
    (hne : a.group ≠ "") (hab : a.group = b.group) :
    ∃ w as a' b', runRouter env (start eps logs) evs = some (w, as) ∧ w.eps[i]? = some a' ∧
      w.eps[j]? = some b' ∧ a'.learned = b'.learned := by
  obtain ⟨w, as, h1, h2, h3⟩ := runRouter_spec env evs _ (start_inv eps hc logs)
  have hget : ∀ (k : Nat) (e : Ep), eps[k]? = some e → ∃ e', w.eps[k]? = some e' := by
    intro k e he
    rcases linkGroups_get eps k with ⟨_, hn⟩ | ⟨x, x', _, hx', _⟩
    · rw [hn] at he; cases he
    · obtain ⟨y, hy, _⟩ := h3.ext.each k x' hx'
      exact ⟨y, hy⟩
  obtain ⟨a', ha'⟩ := hget i a ha
  obtain ⟨b', hb'⟩ := hget j b hb
  exact ⟨w, as, a', b', h1, ha', hb', h2.same i j a' b' ha' hb'
    ((peer_start eps h3.ext i j).mpr (.inr ⟨a, b, ha, hb, hne, hab⟩))⟩

/-- Endpoints 1 and 2 are in group "g"; a message read on 2 is learned by both. -/
example : ConfigOk Sample.eps ∧
    (runRouter Sample.env Sample.w0 [.read 2 (.got Sample.hb2.encode)]).map (fun r => r.1.eps.map Ep.learned) =
      some [[], [257], [257], [512]] := ⟨Sample.eps_ok, by decide +kernel⟩

/-- **C14** (isolation): a message arriving on an endpoint changes nothing in an endpoint that is neither it nor
in its group. -/
theorem C14_isolated (env : Env σ) (w w' : World σ) (hw : Reached env w) (i k : Nat) (m : Msg) (b : Bool)
    (h : handleMsg env w i m = some (w', b)) (hp : ¬ Peer w.eps i k) : w'.eps[k]? = w.eps[k]? := by
  have hinv := reached_inv hw
  obtain ⟨w1, b1, h1, _, _, _, hf, ht, _⟩ := handleMsg_spec env w hinv i m
  rw [h] at h1; cases h1
  cases b with
  | false => obtain ⟨d, c, rfl⟩ := hf rfl; rfl
  | true =>
    obtain ⟨h', d, l, hi, rfl⟩ := ht rfl
    obtain ⟨new, hk, _⟩ := routeMsg_spec env 1 { w with eps := h', dedup := d, checks := w.checks + 1 } m
    rw [hk.eps]
    show h'[k]? = _
    cases he : w.eps[k]? with
    | none => rw [List.getElem?_eq_none_iff] at he ⊢; rw [l.grow.len]; exact he
    | some e =>
      obtain ⟨e', he', hc⟩ := l.exact hinv.grouped hinv.closed hi k e he
      rw [he']
      rcases hc with ⟨hpp, _⟩ | ⟨_, rfl⟩
      · exact absurd hpp hp
      · rfl

example : Reached Sample.env Sample.w1 ∧ ¬ Peer Sample.eps 1 0 := by
  refine ⟨Sample.w1_reached, ?_⟩
  rintro (h | ⟨e, e', h1, _, h3, h4⟩)
  · cases h
  · rename_i h2
    cases h1; cases h2
    exact absurd h4 (by decide)

/-! ### C15 -/

/-- **C15**: for every heap of endpoints and every link graph (not only the configured ones), learning an address
terminates: with recursion depth at most the number of endpoints plus one, independently of any larger bound.
Every endpoint is either untouched or had the address appended once; the starting endpoint has it; every updated
endpoint is linked from the start, and everything it links to has the address. -/
theorem C15_learning_terminates (h : List Ep) (i : Nat) (id : UInt16) :
    ∃ h', (∀ fuel, h.length + 1 ≤ fuel → addSysComp fuel h i id = some h') ∧
      h'.length = h.length ∧
      (∀ (k : Nat) (e : Ep), h[k]? = some e → ∃ e', h'[k]? = some e' ∧
        (e' = e ∨ (id ∉ e.learned ∧ e' = { e with learned := e.learned ++ [id] } ∧ Reach h i k ∧
          ∀ j ∈ e.members, j < h.length → ∃ x, h'[j]? = some x ∧ id ∈ x.learned))) ∧
      (i < h.length → ∃ e', h'[i]? = some e' ∧ id ∈ e'.learned) := by
  obtain ⟨h', h1, l⟩ := addSysComp_learned id (h.length + 1) h i (by have := lack_le_length id h; omega)
  refine ⟨h', fun fuel hf => addSysComp_mono id _ h i h' h1 fuel hf, l.grow.len, ?_, fun hi => l.self i (by simp) hi⟩
  intro k e he
  obtain ⟨e', he', hc⟩ := l.grow.each k e he
  refine ⟨e', he', ?_⟩
  rcases hc with rfl | ⟨hn, rfl⟩
  · exact .inl rfl
  · obtain ⟨⟨a, ha, r⟩, hj⟩ := l.new k e he hn ⟨_, he', by simp⟩
    rw [List.mem_singleton] at ha; subst ha
    exact .inr ⟨hn, rfl, r, hj⟩

/-- A cyclic link graph, with a self loop and a dangling member. -/
example : (addSysComp 4 [{ kind := .udp, members := [1, 0] }, { kind := .udp, members := [2, 7] },
      { kind := .udp, members := [0, 1] }] 0 257).map (fun h => h.map Ep.learned) =
    some [[257], [257], [257]] := by decide +kernel

/-! ### C16, C17, C18 -/

/-- **C16**: an endpoint answers "filtered" iff the sender was not seen there and the message does not pass the
documented outgoing filters; it accepts only messages that pass. -/
theorem C16_outgoing_filters (sniffer : UInt16) (e : Ep) (m : Msg) (hm : MsgOk m) :
    (acceptMsg sniffer e m = .filtered ↔ ¬ FromHere e m ∧ ¬ outOk e.filters m) ∧
    (acceptMsg sniffer e m = .accepted → outOk e.filters m) := by
  rw [acceptMsg_spec sniffer e m hm]
  by_cases h1 : FromHere e m <;> by_cases h2 : outOk e.filters m <;>
    by_cases h3 : Addressed e m ∨ Sniffs sniffer.toNat e <;> simp [h1, h2, h3]

/-- Endpoint 0 of the sample blocks source system 9 and nothing else. -/
example : acceptMsg 0 Sample.eps[0] { Sample.mHb with srcSys := 9 } = .filtered ∧
    acceptMsg 0 Sample.eps[0] Sample.mHb = .accepted ∧ MsgOk Sample.mHb :=
  ⟨by decide +kernel, by decide +kernel, Sample.mHb_ok⟩

/-- **C16**: filters never cause delivery: what an endpoint accepts with filters it accepts with any filters
that pass the message, in particular with none. -/
theorem C16_filters_only_restrict (sniffer : UInt16) (e : Ep) (m : Msg) (hm : MsgOk m)
    (f : Filters) (hf : outOk f m) (h : acceptMsg sniffer e m = .accepted) :
    acceptMsg sniffer { e with filters := f } m = .accepted := by
  rw [acceptMsg_accepted sniffer _ m hm] at h ⊢
  exact ⟨h.1, hf, h.2.2⟩

example : acceptMsg 0 Sample.eps[0] Sample.mHb = .accepted ∧ outOk {} Sample.mHb :=
  ⟨by decide +kernel, by simp [outOk, passes]⟩

/-- **C17**: a message that does not pass the incoming filters changes nothing but the de-duplication memory. -/
theorem C17_no_trace (env : Env σ) (w w' : World σ) (hw : Reached env w) (i : Nat) (e : Ep)
    (he : w.eps[i]? = some e) (m : Msg) (hm : MsgOk m) (hin : ¬ inOk e.filters m) (b : Bool)
    (h : handleMsg env w i m = some (w', b)) :
    b = false ∧ ∃ d c, w' = { w with dedup := d, checks := c } := by
  have hb : b = false := by
    cases b with
    | false => rfl
    | true => exact absurd ((C13_passed_iff env w w' hw i e he m hm true h).mp rfl).2 hin
  obtain ⟨w1, b1, h1, _, _, _, hf, _⟩ := handleMsg_spec env w (reached_inv hw) i m
  rw [h] at h1; cases h1
  exact ⟨hb, hf hb⟩

example : Sample.w1.eps[0]? = some { Sample.eps[0] with learned := [257] } ∧
    ¬ inOk (Sample.eps[0]).filters { Sample.mHb with msgId := 77 } ∧ MsgOk { Sample.mHb with msgId := 77 } :=
  ⟨by decide +kernel, by simp [inOk, passes, Sample.eps], ⟨by decide, Sample.mHb_ok.tsys, Sample.mHb_ok.tcomp⟩⟩

/-- **C18**: with a sniffer configured, an active endpoint that has seen the sniffer system gets every routed
message that passes its outgoing filters and whose sender was not seen on it. -/
theorem C18_sniffer_gets_all (env : Env σ) (hsn : 1 ≤ env.sniffer.toNat ∧ env.sniffer.toNat ≤ 255) (w : World σ)
    (m : Msg) (hm : MsgOk m) (depth : Nat) (i : Nat) (hi : i ∈ w.active) (e : Ep) (he : w.eps[i]? = some e)
    (hk : KnowsSys e env.sniffer.toNat) :
    i ∈ (directSince w (routeMsg env (depth + 1) false w m)).map Sent.ep ↔
      ¬ FromHere e m ∧ outOk e.filters m := by
  rw [C12_exact_delivery env w m hm depth, List.mem_filter]
  simp only [decide_eq_true_eq, hi, true_and]
  constructor
  · rintro ⟨e', he', h1, h2, _⟩
    rw [he] at he'; cases he'; exact ⟨h1, h2⟩
  · rintro ⟨h1, h2⟩
    exact ⟨e, he, h1, h2, .inr ⟨by omega, by rw [Nat.mod_eq_of_lt (by omega)]; exact hk⟩⟩

/-- With sniffer 42, seen on endpoint 1 (and, through the group, 2), a message to an address nobody knows. -/
example : (directSince Sample.w2 (routeMsg Sample.envSniff 2 false Sample.w2
      { Sample.mCmd with srcSys := 7, targetSys := 99 })).map Sent.ep = [1, 2] := by decide +kernel

/-- **C18**: without a sniffer only addressing counts. -/
theorem C18_no_sniffer (e : Ep) (m : Msg) (hm : MsgOk m) :
    acceptMsg 0 e m = .accepted ↔ ¬ FromHere e m ∧ outOk e.filters m ∧ Addressed e m := by
  rw [acceptMsg_accepted 0 e m hm]
  unfold ShouldSend Sniffs
  simp

example : acceptMsg 0 { kind := .udp, learned := [257] } Sample.mCmd = .accepted ∧ MsgOk Sample.mCmd :=
  ⟨by decide +kernel, Sample.mCmd_ok⟩

/-- The sniffer setting is masked to 8 bits when compared with learned systems: 300 acts as system 44, although no
system can have the id 300 (finding, see C74). -/
theorem C18_alias_witness :
    acceptMsg 300 { kind := .udp, learned := [sysComp 44 1] } { Sample.mCmd with targetSys := 99 } = .accepted ∧
    ¬ KnowsSys { kind := .udp, learned := [sysComp 44 1] } 300 := by
  refine ⟨by decide +kernel, ?_⟩
  rintro ⟨comp, hc, x, hx, hxx⟩
  rw [List.mem_singleton] at hx
  subst hx
  have : (sysComp 44 1).toNat = 11265 := by decide
  omega

/-! ### C19 -/

/-- Some active endpoint takes the message or filters it out. -/
def Taken (env : Env σ) (w : World σ) (m : Msg) : Prop :=
  ∃ i ∈ w.active, ∃ e, w.eps[i]? = some e ∧ acceptMsg env.sniffer e m ≠ .rejected

/-- With every endpoint rejecting, the loop does nothing. -/
theorem routeLoop_none (env : Env σ) (route : World σ → Msg → World σ) (gen : Bool) (w : World σ) (m : Msg) :
    ∀ (is : List Nat) (u : Bool), (∀ i ∈ is, ∀ e, w.eps[i]? = some e → acceptMsg env.sniffer e m = .rejected) →
    routeLoop env route gen is w m u = (w, u) := by
  intro is
  induction is with
  | nil => intro u _; rfl
  | cons i is ih =>
    intro u h
    unfold routeLoop
    cases he : w.eps[i]? with
    | none => exact ih u (fun j hj => h j (by simp [hj]))
    | some e =>
      simp only [h i (by simp) e he]
      exact ih u (fun j hj => h j (by simp [hj]))

/-- When log endpoints generate nothing, the loop leaves the counter alone. -/
theorem routeLoop_unknown (env : Env σ) (hgen : ∀ i s m, (env.log i s m).2.1 = [])
    (route : World σ → Msg → World σ) (gen : Bool) :
    ∀ (is : List Nat) (w : World σ) (m : Msg) (u : Bool), (routeLoop env route gen is w m u).1.unknown = w.unknown := by
  intro is
  induction is with
  | nil => intro w m u; rfl
  | cons i is ih =>
    intro w m u
    unfold routeLoop
    split
    · exact ih _ _ _
    · split
      · rw [ih]
        unfold writeMsg
        split
        · cases hq : env.log i (w.logs i) m with
          | mk s rest =>
            have := hgen i (w.logs i) m
            rw [hq] at this
            obtain ⟨gs, data⟩ := rest
            simp only at this
            subst this
            rfl
        · rfl
      · exact ih _ _ _
      · exact ih _ _ _

/-- **C19** (partial): a routed message which every active endpoint rejects is counted once and has no other
effect; a message that some endpoint accepts or filters is not counted (stated for log endpoints that generate no
message of their own; a generated message is routed the same way and counted on its own). Missing: "could take" in
the English claim includes connected endpoints only, see `C19_violated`. -/
theorem C19_counted_partial (env : Env σ) (w : World σ) (m : Msg) (depth : Nat) (gen : Bool) :
    (¬ Taken env w m → routeMsg env (depth + 1) gen w m = { w with unknown := w.unknown + 1 }) ∧
    (Taken env w m → (∀ i s m, (env.log i s m).2.1 = []) →
      (routeMsg env (depth + 1) gen w m).unknown = w.unknown) := by
  constructor
  · intro hn
    have hrej : ∀ i ∈ w.active, ∀ e, w.eps[i]? = some e → acceptMsg env.sniffer e m = .rejected := by
      intro i hi e he
      cases ha : acceptMsg env.sniffer e m with
      | rejected => rfl
      | accepted => exact absurd ⟨i, hi, e, he, by rw [ha]; simp⟩ hn
      | filtered => exact absurd ⟨i, hi, e, he, by rw [ha]; simp⟩ hn
    unfold routeMsg
    rw [routeLoop_none env _ gen w m w.active true hrej]
    rfl
  · rintro ⟨i, hi, e, he, hne⟩ hgen
    obtain ⟨new, _, _, _, h3⟩ := routeLoop_spec env (routeMsg_ok env depth) gen w.active w m true
    have hu : (routeLoop env (routeMsg env depth true) gen w.active w m true).2 = false := by
      rw [h3, Bool.true_and, List.all_eq_false]
      refine ⟨i, hi, ?_⟩
      have : decisionAt env.sniffer w.eps m i = some (acceptMsg env.sniffer e m) := by
        unfold decisionAt; rw [he]; rfl
      rw [this]
      cases ha : acceptMsg env.sniffer e m with
      | rejected => exact absurd ha hne
      | accepted => simp
      | filtered => simp
    have hk := routeLoop_unknown env hgen (routeMsg env depth true) gen w.active w m true
    unfold routeMsg
    simp only [hu]
    exact hk

/-- A message to an address nobody knows is counted, a known one is not. -/
example : ¬ Taken Sample.envQuiet Sample.w2 { Sample.mCmd with targetSys := 99 } ∧
    Taken Sample.envQuiet Sample.w2 Sample.mCmd := by
  constructor
  · rintro ⟨i, hi, e, he, ha⟩
    have hact : Sample.w2.active = [0, 1, 2, 3] := by decide +kernel
    rw [hact] at hi
    have hall : ∀ i ∈ [0, 1, 2, 3], (Sample.w2.eps[i]?).map
        (fun e => acceptMsg 0 e { Sample.mCmd with targetSys := 99 }) = some .rejected := by decide +kernel
    have := hall i hi
    rw [he] at this
    exact ha (Option.some.inj this)
  · have h : (Sample.w2.eps[0]?).map (fun e => acceptMsg 0 e Sample.mCmd) = some .accepted := by decide +kernel
    cases he : Sample.w2.eps[0]? with
    | none => rw [he] at h; cases h
    | some e =>
      rw [he] at h
      exact ⟨0, by decide +kernel, e, he, by
        rw [show acceptMsg Sample.envQuiet.sniffer e Sample.mCmd = .accepted from Option.some.inj h]; simp⟩

/-- Router with a TCP client as its only endpoint, which has seen 1/1 and has lost its connection. -/
def lostTcp : World Nat :=
  { eps := [{ kind := .tcp, learned := [257], fdOpen := false }], active := [0], logs := fun _ => 0 }

/-- **C19** is false of the code: `accept_msg` is not virtual, so a TCP endpoint without a connection accepts the
message; nothing is sent (`write_msg` returns 0 at once, src/endpoint.cpp:1690-1693) and nothing is counted. The
override `TcpEndpoint::accept_msg` (src/endpoint.cpp:1741-1750), which rejects when `!_valid` or not connected, is
never reached from the router. -/
theorem C19_violated :
    (routeMsg Sample.envQuiet 2 false lostTcp Sample.mCmd).unknown = lostTcp.unknown ∧
    (∀ e ∈ lostTcp.eps, e.fdOpen = false) := by
  constructor
  · decide +kernel
  · intro e he; rw [show lostTcp.eps = [{ kind := .tcp, learned := [257], fdOpen := false }] from rfl,
      List.mem_singleton] at he; rw [he]

/-! ### C20 -/

/-- Every endpoint of `is` before the first log endpoint gets the bytes of `m`. -/
theorem routeLoop_bytes (env : Env σ) {route : World σ → Msg → World σ} (hr : RouteOk route)
    (P : List UInt8 → Prop) :
    ∀ (is : List Nat) (w : World σ) (m : Msg) (u : Bool),
    (∀ i ∈ is, ∀ e, w.eps[i]? = some e → e.kind = .log → ∀ s d, P d → P (env.log i s { m with data := d }).2.2) →
    P m.data →
    ∃ new, Kept w (routeLoop env route false is w m u).1 new ∧ ∀ s ∈ new, s.gen = false → P s.bytes := by
  intro is
  induction is with
  | nil => intro w m u _ _; exact ⟨[], .refl w, by simp⟩
  | cons i is ih =>
    intro w m u hlog hP
    have hlog' := fun j (hj : j ∈ is) => hlog j (List.mem_cons_of_mem _ hj)
    unfold routeLoop
    split
    · exact ih w m u hlog' hP
    · rename_i e he
      split
      · obtain ⟨a, ha, ha'⟩ := writeMsg_kept env hr false w i m
        have hPd : P (writeMsg env route false w i m).2 := by
          unfold writeMsg
          rw [he]
          simp only [Option.map_some]
          cases hk : e.kind with
          | log => exact hlog i (by simp) e he hk (w.logs i) m.data hP
          | uart => exact hP
          | udp => exact hP
          | tcp => exact hP
        cases hw : writeMsg env route false w i m with
        | mk w' data =>
          rw [hw] at ha hPd
          obtain ⟨b, hb, hb'⟩ := ih w' { m with data := data } false (by
            intro j hj e' he' hk s d hd
            rw [ha.eps] at he'
            exact hlog' j hj e' he' hk s d hd) hPd
          refine ⟨_, ha.trans hb, ?_⟩
          intro s hs hg
          rcases List.mem_append.mp hs with h | h
          · rcases List.mem_cons.mp h with rfl | h
            · exact hP
            · rw [ha' s h] at hg; cases hg
          · exact hb' s h hg
      · exact ih w m false hlog' hP
      · exact ih w m u hlog' hP

/-- What endpoint `j` is handed does not depend on the endpoints behind it. -/
theorem routeLoop_before (env : Env σ) {route : World σ → Msg → World σ} (hr : RouteOk route) (j : Nat) :
    ∀ (is : List Nat) (w : World σ) (m : Msg) (u : Bool), is.Pairwise (· < ·) →
    (∀ i ∈ is, i < j → ∀ e, w.eps[i]? = some e → e.kind = .log → ∀ s, (env.log i s m).2.2 = m.data) →
    ∃ new, Kept w (routeLoop env route false is w m u).1 new ∧ ∀ s ∈ new, s.gen = false → s.ep = j → s.bytes = m.data := by
  intro is
  induction is with
  | nil => intro w m u _ _; exact ⟨[], .refl w, by simp⟩
  | cons i is ih =>
    intro w m u hs hlog
    obtain ⟨hi, hs'⟩ := List.pairwise_cons.mp hs
    have hlog' := fun j (hj : j ∈ is) => hlog j (List.mem_cons_of_mem _ hj)
    unfold routeLoop
    split
    · exact ih w m u hs' hlog'
    · rename_i e he
      split
      · obtain ⟨a, ha, ha'⟩ := writeMsg_kept env hr false w i m
        by_cases hij : i < j
        · have hd : (writeMsg env route false w i m).2 = m.data := by
            unfold writeMsg
            rw [he]
            simp only [Option.map_some]
            cases hk : e.kind with
            | log => exact hlog i (by simp) hij e he hk (w.logs i)
            | uart => rfl
            | udp => rfl
            | tcp => rfl
          cases hw : writeMsg env route false w i m with
          | mk w' data =>
            rw [hw] at ha hd
            simp only [] at hd
            subst hd
            obtain ⟨b, hb, hb'⟩ := ih w' m false hs' (by
              intro k hk hkj e' he'
              rw [ha.eps] at he'
              exact hlog' k hk hkj e' he')
            refine ⟨_, ha.trans hb, ?_⟩
            intro s hs hg hj
            rcases List.mem_append.mp hs with h | h
            · rcases List.mem_cons.mp h with rfl | h
              · rfl
              · rw [ha' s h] at hg; cases hg
            · exact hb' s h hg hj
        · cases hw : writeMsg env route false w i m with
          | mk w' data =>
            rw [hw] at ha
            obtain ⟨b, hb, _, hb', _⟩ := routeLoop_spec env hr false is w' { m with data := data } false
            refine ⟨_, ha.trans hb, ?_⟩
            intro s hs hg hj
            rcases List.mem_append.mp hs with h | h
            · rcases List.mem_cons.mp h with rfl | h
              · rfl
              · rw [ha' s h] at hg; cases hg
            · exfalso
              have h1 : s.ep ∈ (b.filter (fun s => !s.gen)).map Sent.ep :=
                List.mem_map_of_mem (List.mem_filter.mpr ⟨h, by simp [hg]⟩)
              rw [hb' rfl] at h1
              have := hi _ (List.mem_filter.mp h1).1
              omega
      · exact ih w m false hs' hlog'
      · exact ih w m u hs' hlog'

theorem routeMsg_before (env : Env σ) (w : World σ) (hs : w.active.Pairwise (· < ·)) (m : Msg) (depth : Nat) (j : Nat)
    (hlog : ∀ i < j, ∀ e, w.eps[i]? = some e → e.kind = .log → ∀ s, (env.log i s m).2.2 = m.data) :
    ∀ s ∈ directSince w (routeMsg env (depth + 1) false w m), s.ep = j → s.bytes = m.data := by
  obtain ⟨new, hk, hb⟩ := routeLoop_before env (routeMsg_ok env depth) j w.active w m true hs
    (fun i _ hij e he hk s => hlog i hij e he hk s)
  have hk2 : Kept w (routeMsg env (depth + 1) false w m) new := by
    unfold routeMsg
    simp only
    split
    · exact ⟨hk.eps, hk.active, hk.dedup, hk.checks, hk.out⟩
    · exact hk
  intro s hs
  rw [hk2.direct, List.mem_filter] at hs
  exact hb s hs.1 (by simpa using hs.2)

/-- **C20** (partial): an endpoint that stands before the log endpoints, as all configured links do, is handed exactly the
received bytes of every message it takes, whatever log endpoints do to the message afterwards. Missing: endpoints behind a
log endpoint - connections accepted by the TCP server, and further log endpoints (`C20_violated`). -/
theorem C20_links_partial (env : Env σ) (w : World σ) (hw : Reached env w) (m : Msg) (depth : Nat) (j : Nat)
    (hlog : ∀ i < j, ∀ e, w.eps[i]? = some e → e.kind ≠ .log) :
    ∀ s ∈ directSince w (routeMsg env (depth + 1) false w m), s.ep = j → s.bytes = m.data :=
  routeMsg_before env w (reached_inv hw).actSorted m depth j (fun i hij e he hk _ => absurd hk (hlog i hij e he))

/-- **C20** (partial): if no log endpoint edits the buffer for this message, every endpoint that takes it is handed
exactly the received bytes. Missing: ULog edits logging messages in place (`C20_violated` in `Verif.Props.LogRouter`). -/
theorem C20_same_bytes_partial (env : Env σ) (w : World σ) (m : Msg) (depth : Nat)
    (hlog : ∀ i ∈ w.active, ∀ e, w.eps[i]? = some e → e.kind = .log → ∀ s, (env.log i s m).2.2 = m.data) :
    ∀ s ∈ directSince w (routeMsg env (depth + 1) false w m), s.bytes = m.data := by
  obtain ⟨new, hk, hb⟩ := routeLoop_bytes env (routeMsg_ok env depth) (fun d => d = m.data) w.active w m true (by
    intro i hi e he hk s d hd
    subst hd
    exact hlog i hi e he hk s) rfl
  have hk2 : Kept w (routeMsg env (depth + 1) false w m) new := by
    unfold routeMsg
    simp only
    split
    · exact ⟨hk.eps, hk.active, hk.dedup, hk.checks, hk.out⟩
    · exact hk
  intro s hs
  rw [hk2.direct, List.mem_filter] at hs
  exact hb s hs.1 (by simpa using hs.2)

example : (directSince Sample.w1 (routeMsg Sample.env 2 false Sample.w1 { Sample.mHb with srcSys := 5 })).map
      (fun s => (s.ep, s.bytes == Sample.mHb.data)) = [(0, true), (1, true), (2, true), (3, true)] ∧
    ∀ i s, (Sample.env.log i s Sample.mHb).2.2 = Sample.mHb.data := ⟨by decide +kernel, fun _ _ => rfl⟩

/-! ### C21 -/

theorem routeLoop_gen_not_log (env : Env σ) (hgen : GenFrom20 env) {route : World σ → Msg → World σ}
    (gen : Bool)
    (hr : ∀ w g, LogsKnow20 w.eps → g.srcSys = 2 ∧ g.srcComp = 0 → ∃ new, Kept w (route w g) new ∧
      ∀ s ∈ new, s.gen = true ∧ ∀ e, w.eps[s.ep]? = some e → e.kind ≠ .log) :
    ∀ (is : List Nat) (w : World σ) (m : Msg) (u : Bool), LogsKnow20 w.eps →
    (gen = true → m.srcSys = 2 ∧ m.srcComp = 0) →
    ∃ new, Kept w (routeLoop env route gen is w m u).1 new ∧
      ∀ s ∈ new, (gen = true → s.gen = true) ∧
        (s.gen = true → ∀ e, w.eps[s.ep]? = some e → e.kind ≠ .log) := by
  have hfold : ∀ (gs : List Msg) (w : World σ), LogsKnow20 w.eps → (∀ g ∈ gs, g.srcSys = 2 ∧ g.srcComp = 0) →
      ∃ new, Kept w (gs.foldl route w) new ∧
        ∀ s ∈ new, s.gen = true ∧ ∀ e, w.eps[s.ep]? = some e → e.kind ≠ .log := by
    intro gs
    induction gs with
    | nil => intro w _ _; exact ⟨[], .refl w, by simp⟩
    | cons g gs ih =>
      intro w hl hg
      obtain ⟨a, ha, ha'⟩ := hr w g hl (hg g (by simp))
      obtain ⟨b, hb, hb'⟩ := ih (route w g) (by rw [ha.eps]; exact hl) (fun g h => hg g (by simp [h]))
      refine ⟨a ++ b, ha.trans hb, ?_⟩
      intro s hs
      rcases List.mem_append.mp hs with h | h
      · exact ha' s h
      · have := hb' s h; rw [ha.eps] at this; exact this
  intro is
  induction is with
  | nil => intro w m u _ _; exact ⟨[], .refl w, by simp⟩
  | cons i is ih =>
    intro w m u hl hm
    unfold routeLoop
    split
    · exact ih w m u hl hm
    · rename_i e he
      split
      · rename_i hacc
        have hw : ∃ new, Kept w (writeMsg env route gen w i m).1 ({ ep := i, bytes := m.data, gen := gen } :: new) ∧
            ∀ s ∈ new, s.gen = true ∧ ∀ e, w.eps[s.ep]? = some e → e.kind ≠ .log := by
          unfold writeMsg
          rw [he]
          simp only [Option.map_some]
          cases hk : e.kind with
          | log =>
            simp only
            obtain ⟨new, hkk, hn⟩ := hfold (env.log i (w.logs i) m).2.1
              { w with
                out := w.out ++ [{ ep := i, bytes := m.data, gen := gen }]
                logs := fun j => if j = i then (env.log i (w.logs i) m).1 else w.logs j }
              hl (hgen i (w.logs i) m)
            have h0 : Kept w
                { w with
                  out := w.out ++ [{ ep := i, bytes := m.data, gen := gen }]
                  logs := fun j => if j = i then (env.log i (w.logs i) m).1 else w.logs j }
                [{ ep := i, bytes := m.data, gen := gen }] := ⟨rfl, rfl, rfl, rfl, rfl⟩
            exact ⟨new, h0.trans hkk, hn⟩
          | uart => exact ⟨[], ⟨rfl, rfl, rfl, rfl, rfl⟩, by simp⟩
          | udp => exact ⟨[], ⟨rfl, rfl, rfl, rfl, rfl⟩, by simp⟩
          | tcp => exact ⟨[], ⟨rfl, rfl, rfl, rfl, rfl⟩, by simp⟩
        obtain ⟨a, ha, ha'⟩ := hw
        cases hww : writeMsg env route gen w i m with
        | mk w' data =>
          rw [hww] at ha
          obtain ⟨b, hb, hb'⟩ := ih w' { m with data := data } false (by rw [ha.eps]; exact hl) hm
          refine ⟨_, ha.trans hb, ?_⟩
          intro s hs
          rcases List.mem_append.mp hs with h | h
          · rcases List.mem_cons.mp h with rfl | h
            · refine ⟨id, fun hg e' he' hk => ?_⟩
              simp only at he' hg
              rw [he] at he'; cases he'
              rw [accept_from20 env.sniffer (hl e (List.mem_of_getElem? he) hk) (hm hg)] at hacc
              cases hacc
            · exact ⟨fun _ => (ha' s h).1, fun _ => (ha' s h).2⟩
          · have := hb' s h; rw [ha.eps] at this; exact this
      · exact ih w m false hl hm
      · exact ih w m u hl hm

theorem routeMsg_gen_not_log (env : Env σ) (hgen : GenFrom20 env) : ∀ (depth : Nat) (gen : Bool) (w : World σ)
    (m : Msg), LogsKnow20 w.eps → (gen = true → m.srcSys = 2 ∧ m.srcComp = 0) →
    ∃ new, Kept w (routeMsg env depth gen w m) new ∧ ∀ s ∈ new, (gen = true → s.gen = true) ∧
        (s.gen = true → ∀ e, w.eps[s.ep]? = some e → e.kind ≠ .log) := by
  intro depth
  induction depth with
  | zero => intro gen w m _ _; exact ⟨[], .refl w, by simp⟩
  | succ depth ih =>
    intro gen w m hl hm
    obtain ⟨new, hk, hn⟩ := routeLoop_gen_not_log env hgen (route := routeMsg env depth true) gen (by
      intro w g hl hg
      obtain ⟨new, hk, hn⟩ := ih true w g hl (fun _ => hg)
      exact ⟨new, hk, fun s hs => ⟨(hn s hs).1 rfl, (hn s hs).2 ((hn s hs).1 rfl)⟩⟩) w.active w m true hl hm
    refine ⟨new, ?_, hn⟩
    unfold routeMsg
    simp only
    split
    · exact ⟨hk.eps, hk.active, hk.dedup, hk.checks, hk.out⟩
    · exact hk

/-- **C21**: in every reachable state and for every received message, no message generated by a log endpoint is
written to a log endpoint. The hypothesis on the log endpoints (generated messages come from 2/0) is proved of the
log endpoints in `Verif.Props.LogRouter` (`C21_log_endpoints`). -/
theorem C21_not_to_log (env : Env σ) (hgen : GenFrom20 env) (w : World σ) (hw : Reached env w) (m : Msg)
    (depth : Nat) :
    ∃ new, (routeMsg env depth false w m).out = w.out ++ new ∧
      ∀ s ∈ new, s.gen = true → ∀ e, w.eps[s.ep]? = some e → e.kind ≠ .log := by
  obtain ⟨new, hk, hn⟩ := routeMsg_gen_not_log env hgen depth false w m (reached_inv hw).logs20 (by simp)
  exact ⟨new, hk.out, fun s hs => (hn s hs).2⟩

/-- The sample log endpoint answers every message; the answer goes to the UART, where 1/1 was seen. -/
example : GenFrom20 Sample.env ∧
    ((routeMsg Sample.env 2 false Sample.w1 { Sample.mHb with srcSys := 5 }).out.drop Sample.w1.out.length).map
      (fun s => (s.ep, s.gen)) = [(0, false), (1, false), (2, false), (3, false), (0, true)] :=
  ⟨by intro i s m g hg; rw [List.mem_singleton.mp hg]; exact ⟨rfl, rfl⟩, by decide +kernel⟩

/-- **C21** (no recursion): two levels of routing are always enough; allowing deeper nesting changes nothing. -/
theorem C21_depth (env : Env σ) (hgen : GenFrom20 env) (w : World σ) (hw : Reached env w) (m : Msg) (d : Nat) :
    routeMsg env (d + 2) false w m = routeMsg env 2 false w m :=
  routeMsg_depth env hgen d false w m (reached_inv hw).logs20

example : GenFrom20 Sample.env ∧ Reached Sample.env Sample.w2 :=
  ⟨by intro i s m g hg; rw [List.mem_singleton.mp hg]; exact ⟨rfl, rfl⟩, Sample.w2_reached⟩

/-! ### C03, end to end -/

theorem runMsgs_msgs (env : Env σ) (i : Nat) (w : World σ) (hw : RouterInv w) (ms : List Msg) {w' as}
    (h : runMsgs env i w ms = some (w', as)) : as.map Arrival.msg = ms := by
  obtain ⟨w1, as1, h1, _, _, _, h2, _⟩ := runMsgs_spec env i ms w hw
  rw [h] at h1; cases h1; exact h2

/-- **C03**: whatever the receive buffers contain, every message that reaches de-duplication, learning and routing
is a complete frame with a right checksum (if its id is known), in any event from any reachable state. -/
theorem C03_only_valid_reach_router (env : Env σ) (w w' : World σ) (hw : Reached env w) (ev : RouterEv)
    (as : List Arrival) (h : routerStep env w ev = some (w', as)) :
    ∀ a ∈ as, (∃ k, Delivers env.tbl a.msg.data a.msg k) ∧ ¬ Corrupt env.tbl a.msg.data := by
  cases ev with
  | read i io =>
    unfold routerStep handleRead at h
    cases he : w.eps[i]? with
    | none => simp only [he] at h; cases h; simp
    | some e =>
      simp only [he] at h
      obtain ⟨hi, _⟩ := set_inv (reached_inv hw)
        (e' := { e with rx := (drain env.tbl e.fdOpen (rxBufMax + 1) e.rx io).1 }) he rfl rfl rfl rfl rfl
      have hm := runMsgs_msgs env i _ hi _ h
      intro a ha
      have : a.msg ∈ (drain env.tbl e.fdOpen (rxBufMax + 1) e.rx io).2.1.map Prod.fst := by
        rw [← hm]; exact List.mem_map_of_mem ha
      obtain ⟨x, hx, hxa⟩ := List.mem_map.mp this
      have hd := drain_delivers (rxBufMax + 1) e.rx io x hx
      rw [hxa] at hd
      exact ⟨⟨_, hd⟩, delivers_not_corrupt hd⟩
  | accept => cases h; simp
  | hangups gone => cases h; simp
  | fd i o =>
    unfold routerStep at h
    cases he : w.eps[i]? with
    | none => simp only [he] at h; cases h; simp
    | some e => simp only [he] at h; cases h; simp
  | logCall i c => cases h; simp
  | aggregate => cases h; simp

example : (routerStep Sample.env Sample.w1 (.read 1 (.got (Sample.hb1.encode)))).map
    (fun r => r.2.map Arrival.ep) = some [1] := by decide +kernel

/-- **C03**: a corrupt frame arriving on an idle endpoint, in any router state, changes nothing in the router except
that endpoint's receive state (checksum error counters): no write, no learned address, no de-duplication entry. -/
theorem C03_corrupt_no_effect (env : Env σ) (w : World σ) (i : Nat) (e : Ep) (he : w.eps[i]? = some e)
    (hopen : e.fdOpen = true) (hidle : e.rx.lastLen = 0) (hempty : e.rx.buf = []) (fr : List UInt8)
    (hcomplete : firstFrame fr = some (fr, [])) (hcor : Corrupt env.tbl fr) :
    ∃ rx, routerStep env w (.read i (.got fr)) = some ({ w with eps := w.eps.set i { e with rx := rx } }, []) ∧
      rx.stat = { e.rx.stat with
        total := e.rx.stat.total + 1, crcError := e.rx.stat.crcError + 1,
        crcErrorBytes := e.rx.stat.crcErrorBytes + UInt64.ofNat fr.length } := by
  obtain ⟨h1, _, h3⟩ := C03_corrupt_only_counted env.tbl fr e.rx hidle hempty hcomplete hcor
  unfold handleReadRx at h1 h3
  refine ⟨_, ?_, h3⟩
  simp only [routerStep, handleRead, he, hopen, h1, List.map_nil, runMsgs]

example : (Sample.w1.eps[0]?).map (fun e => (e.fdOpen, e.rx.lastLen, e.rx.buf)) = some (true, 0, []) ∧
    firstFrame Sample.hbBad.encode = some (Sample.hbBad.encode, []) ∧ Corrupt Sample.tbl Sample.hbBad.encode :=
  ⟨by decide +kernel, by decide +kernel, hbBad_corrupt⟩

/-! ### Arrivals are the messages of the endpoint's byte stream -/

theorem handleMsg_rx (env : Env σ) (w : World σ) (hw : RouterInv w) (i : Nat) (m : Msg) {w' b}
    (h : handleMsg env w i m = some (w', b)) (k : Nat) (e : Ep) (he : w.eps[k]? = some e) :
    ∃ e', w'.eps[k]? = some e' ∧ e'.rx = e.rx ∧ e'.fdOpen = e.fdOpen := by
  obtain ⟨w1, b1, h1, _, _, _, hf, ht, _⟩ := handleMsg_spec env w hw i m
  rw [h] at h1; cases h1
  cases b with
  | false => obtain ⟨d, c, rfl⟩ := hf rfl; exact ⟨e, he, rfl, rfl⟩
  | true =>
    obtain ⟨h', d, l, hi, rfl⟩ := ht rfl
    obtain ⟨new, hk, _⟩ := routeMsg_spec env 1 { w with eps := h', dedup := d, checks := w.checks + 1 } m
    obtain ⟨e', he', hc⟩ := l.grow.each k e he
    rw [hk.eps]
    refine ⟨e', he', ?_⟩
    rcases hc with rfl | ⟨_, rfl⟩ <;> exact ⟨rfl, rfl⟩

theorem runMsgs_rx (env : Env σ) (i : Nat) : ∀ (ms : List Msg) (w : World σ), RouterInv w → ∀ {w' as},
    runMsgs env i w ms = some (w', as) → (∀ a ∈ as, a.ep = i) ∧
    ∀ (k : Nat) (e : Ep), w.eps[k]? = some e → ∃ e', w'.eps[k]? = some e' ∧ e'.rx = e.rx ∧ e'.fdOpen = e.fdOpen := by
  intro ms
  induction ms with
  | nil => intro w _ w' as h; cases h; exact ⟨by simp, fun k e he => ⟨e, he, rfl, rfl⟩⟩
  | cons m ms ih =>
    intro w hw w' as h
    unfold runMsgs at h
    obtain ⟨w1, b, h1, hi, _⟩ := handleMsg_spec env w hw i m
    simp only [h1] at h
    cases h2 : runMsgs env i w1 ms with
    | none => rw [h2] at h; cases h
    | some r =>
      obtain ⟨w2, as2⟩ := r
      rw [h2] at h; cases h
      obtain ⟨ha, hr⟩ := ih w1 hi h2
      refine ⟨?_, ?_⟩
      · intro a h; rcases List.mem_cons.mp h with rfl | h
        · rfl
        · exact ha a h
      · intro k e he
        obtain ⟨e1, he1, hx1, hf1⟩ := handleMsg_rx env w hw i m h1 k e he
        obtain ⟨e2, he2, hx2, hf2⟩ := hr k e1 he1
        exact ⟨e2, he2, hx2.trans hx1, hf2.trans hf1⟩

/-- The arrivals on an endpoint, over any history in which its descriptor stays open, are exactly the messages of
the bytes read on it: what other endpoints do has no influence. Together with `C01_chunking_irrelevant` and
`C13_learned_is_history` this describes learning in terms of the byte streams only. -/
theorem C13_arrivals_are_received (env : Env σ) : ∀ (evs : List RouterEv) (w : World σ), Reached env w →
    ∀ (i : Nat) (e : Ep), w.eps[i]? = some e → e.fdOpen = true → (∀ o, RouterEv.fd i o ∉ evs) →
    ∃ w' as, runRouter env w evs = some (w', as) ∧
      (as.filter (fun a => a.ep == i)).map Arrival.msg = (runRx env.tbl e.rx (readsOf i evs)).2.map Prod.fst := by
  intro evs
  induction evs with
  | nil => intro w _ i e he _ _; exact ⟨w, [], rfl, rfl⟩
  | cons ev evs ih =>
    intro w hw i e he ho hfd
    obtain ⟨w1, as1, h1, hi1, _⟩ := routerStep_spec env w (reached_inv hw) ev
    have hw1 : Reached env w1 := .event hw h1
    have hfd' : ∀ o, RouterEv.fd i o ∉ evs := fun o h => hfd o (List.mem_cons_of_mem _ h)
    -- what the step does to endpoint i
    have hstep : ∃ e1, w1.eps[i]? = some e1 ∧ e1.fdOpen = true ∧
        (as1.filter (fun a => a.ep == i)).map Arrival.msg ++ (runRx env.tbl e1.rx (readsOf i evs)).2.map Prod.fst =
          (runRx env.tbl e.rx (readsOf i (ev :: evs))).2.map Prod.fst := by
      cases ev with
      | accept =>
        cases h1
        refine ⟨e, ?_, ho, rfl⟩
        rw [List.getElem?_append_left (List.getElem?_eq_some_iff.mp he).1]; exact he
      | hangups gone => cases h1; exact ⟨e, he, ho, rfl⟩
      | logCall j c =>
        cases h1
        obtain ⟨new, hk, _⟩ := logCall_kept env w j c
        exact ⟨e, by rw [hk.eps]; exact he, ho, rfl⟩
      | aggregate =>
        cases h1
        refine ⟨e, ?_, ho, rfl⟩
        rw [show (aggregate w).eps = w.eps by unfold aggregate; split <;> rfl]
        exact he
      | fd j o =>
        have hij : j ≠ i := by rintro rfl; exact hfd o (by simp)
        cases hj : w.eps[j]? with
        | none => simp only [routerStep, hj] at h1; cases h1; exact ⟨e, he, ho, rfl⟩
        | some x =>
          simp only [routerStep, hj] at h1; cases h1
          exact ⟨e, by rw [List.getElem?_set_ne hij]; exact he, ho, rfl⟩
      | read j io =>
        cases hj : w.eps[j]? with
        | none =>
          have hij : j ≠ i := by rintro rfl; rw [hj] at he; cases he
          simp only [routerStep, handleRead, hj] at h1; cases h1
          exact ⟨e, he, ho, by simp [readsOf, hij]⟩
        | some x =>
          simp only [routerStep, handleRead, hj] at h1
          obtain ⟨hinv, _⟩ := set_inv (reached_inv hw)
            (e' := { x with rx := (drain env.tbl x.fdOpen (rxBufMax + 1) x.rx io).1 }) hj rfl rfl rfl rfl rfl
          obtain ⟨hep, hrx⟩ := runMsgs_rx env j _ _ hinv h1
          have hms := runMsgs_msgs env j _ hinv _ h1
          by_cases hij : j = i
          · subst hij
            rw [he] at hj; cases hj
            obtain ⟨e1, he1, hr1, hf1⟩ := hrx j { e with rx := (drain env.tbl e.fdOpen (rxBufMax + 1) e.rx io).1 } (by
              rw [List.getElem?_set_self (List.getElem?_eq_some_iff.mp he).1])
            refine ⟨e1, he1, hf1.trans ho, ?_⟩
            have hfil : as1.filter (fun a => a.ep == j) = as1 := by
              rw [List.filter_eq_self]; intro a ha; rw [hep a ha]; simp
            rw [hfil, hms, hr1, ho]
            simp only [readsOf, List.filterMap_cons, if_true, runRx, handleReadRx, List.map_append]
          · obtain ⟨e1, he1, hr1, hf1⟩ := hrx i e (by rw [List.getElem?_set_ne hij]; exact he)
            refine ⟨e1, he1, hf1.trans ho, ?_⟩
            have hfil : as1.filter (fun a => a.ep == i) = [] := by
              rw [List.filter_eq_nil_iff]; intro a ha; rw [hep a ha]; simp [hij]
            rw [hfil, hr1]
            simp [readsOf, hij]
    obtain ⟨e1, he1, ho1, heq⟩ := hstep
    obtain ⟨w2, as2, h2, hms2⟩ := ih w1 hw1 i e1 he1 ho1 hfd'
    refine ⟨w2, as1 ++ as2, ?_, ?_⟩
    · unfold runRouter; simp only [h1, h2]
    · rw [List.filter_append, List.map_append, hms2, heq]

example : (Sample.w0.eps[1]?).map Ep.fdOpen = some true ∧
    (runRouter Sample.env Sample.w0 [.read 1 (.got (Sample.hb2.encode.take 5)), .read 0 (.got Sample.hb1.encode),
      .read 1 (.got (Sample.hb2.encode.drop 5))]).map (fun r => r.2.map Arrival.ep) = some [0, 1] :=
  ⟨by decide +kernel, by decide +kernel⟩

/-- Messages from the receive path are in range, so the hypothesis `MsgOk` of the theorems above holds for every
arrival in every run, if the message table is consistent. -/
theorem arrivals_msgOk (env : Env σ) (ht : TableOk env.tbl) (w w' : World σ) (hw : Reached env w) (ev : RouterEv)
    (as : List Arrival) (h : routerStep env w ev = some (w', as)) : ∀ a ∈ as, MsgOk a.msg := by
  intro a ha
  obtain ⟨⟨k, hd⟩, _⟩ := C03_only_valid_reach_router env w w' hw ev as h a ha
  exact delivers_msgOk ht hd

example : TableOk Sample.tbl := by
  intro id e h
  unfold Sample.tbl at h
  split at h
  · cases h; subst id; rfl
  · split at h
    · cases h; subst id; rfl
    · cases h

end Verif
