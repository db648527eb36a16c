/-
C88: what the router writes is a function of what arrived.
-/
import Verif.Props.Order
import Verif.Props.DedupRouter

namespace Verif

open Verif.Spec

variable {σ : Type}

/-! ### Specification -/

/-- System and component `s/c` belong to endpoint `j` after the arrivals `past`: it is the address of a log endpoint, or a
message from it was let in on `j` or on an endpoint of its group. -/
def Spec.SeenAt (eps : List Ep) (past : List Arrival) (j s c : Nat) : Prop :=
  (∃ e, eps[j]? = some e ∧ e.kind = .log ∧ s = 2 ∧ c = 0) ∨
  ∃ a ∈ past, a.passed = true ∧ a.msg.srcSys.toNat = s ∧ a.msg.srcComp.toNat = c ∧ Peer eps a.ep j

/-- Endpoint `j` is to get the message after the arrivals `past` (the message being the last of them). -/
def Spec.Wanted (sniffer : Nat) (eps : List Ep) (j : Nat) (past : List Arrival) (m : Msg) : Prop :=
  ¬ SeenAt eps past j m.srcSys.toNat m.srcComp.toNat ∧
  (∀ e, eps[j]? = some e → outOk e.filters m) ∧
  (m.targetSys ≤ 0 ∨
   (m.targetComp ≤ 0 ∧ ∃ c, SeenAt eps past j m.targetSys.toNat c) ∨
   (0 < m.targetComp ∧ SeenAt eps past j m.targetSys.toNat m.targetComp.toNat) ∨
   (sniffer ≠ 0 ∧ ∃ c, SeenAt eps past j (sniffer % 256) c))

open Classical in
/-- The messages endpoint `j` is to get when `as` arrive after `past`. -/
noncomputable def Spec.expected (sniffer : Nat) (eps : List Ep) (j : Nat) : List Arrival → List Arrival → List Arrival
  | _, [] => []
  | past, a :: as =>
    (if a.passed = true ∧ Wanted sniffer eps j (past ++ [a]) a.msg then [a] else []) ++
      expected sniffer eps j (past ++ [a]) as

/-! ### Proof -/

theorem expected_append (sniffer : Nat) (eps : List Ep) (j : Nat) : ∀ (as past bs : List Arrival),
    expected sniffer eps j past (as ++ bs) = expected sniffer eps j past as ++ expected sniffer eps j (past ++ as) bs := by
  intro as
  induction as with
  | nil => intro past bs; simp [expected]
  | cons a as ih => intro past bs; simp [expected, ih]

theorem sysComp_inj (a b a' b' : UInt8) : sysComp a b = sysComp a' b' ↔ a = a' ∧ b = b' := by
  constructor
  · intro h
    have := congrArg UInt16.toNat h
    rw [sysComp_toNat, sysComp_toNat] at this
    have := a.toNat_lt; have := b.toNat_lt; have := a'.toNat_lt; have := b'.toNat_lt
    exact ⟨UInt8.toNat_inj.mp (by omega), UInt8.toNat_inj.mp (by omega)⟩
  · rintro ⟨rfl, rfl⟩; rfl

/-- What an endpoint knows, from the history. -/
theorem knows_hist (eps : List Ep) (hc : ConfigOk eps) {as : List Arrival} {h' : List Ep}
    (h3 : HistOk (linkGroups eps) as h') {k : Nat} {e : Ep} (he : h'[k]? = some e) (s c : UInt8) :
    Knows e s.toNat c.toNat ↔ SeenAt eps as k s.toNat c.toNat := by
  have hkn : Knows e s.toNat c.toNat ↔ sysComp s c ∈ e.learned := by
    rw [← hasSysComp_iff, hasSysComp_mem]
  have hk20 : ∀ x : UInt8 × UInt8, x = (2, 0) ↔ x.1.toNat = 2 ∧ x.2.toNat = 0 := by
    rintro ⟨a, b⟩
    constructor
    · intro h; cases h; decide
    · rintro ⟨h1, h2⟩
      exact Prod.ext (UInt8.toNat_inj.mp h1) (UInt8.toNat_inj.mp h2)
  rw [hkn, h3.iff k e he]
  unfold SeenAt
  apply or_congr
  · rcases linkGroups_get eps k with ⟨hn, hn'⟩ | ⟨x, x', hx, hx', hk1, hg, _, hl, _⟩
    · rw [hn, hn']; simp
    · have cx := hc x (List.mem_of_getElem? hx)
      rw [hx', hx]
      simp only [Option.some.injEq, exists_eq_left', hl]
      by_cases hlog : x.kind = .log
      · rw [(cx.2.1 hlog).2, List.mem_singleton, sysComp_inj]
        have := hk20 (s, c)
        simp only [Prod.mk.injEq] at this
        simp only [hlog, true_and]
        exact this
      · rw [cx.2.2 hlog]; simp [hlog]
  · constructor
    · rintro ⟨a, ha, hp, hi, hpeer⟩
      have := (sysComp_inj _ _ _ _).mp hi
      exact ⟨a, ha, hp, by rw [this.1], by rw [this.2], (peer_start eps h3.ext _ _).mp hpeer⟩
    · rintro ⟨a, ha, hp, hs, hcc, hpeer⟩
      refine ⟨a, ha, hp, ?_, (peer_start eps h3.ext _ _).mpr hpeer⟩
      rw [UInt8.toNat_inj.mp hs, UInt8.toNat_inj.mp hcc]

theorem knows_hist_nat (eps : List Ep) (hc : ConfigOk eps) {as : List Arrival} {h' : List Ep}
    (h3 : HistOk (linkGroups eps) as h') {k : Nat} {e : Ep} (he : h'[k]? = some e) (s c : Nat) (hs : s < 256)
    (hcc : c < 256) : Knows e s c ↔ SeenAt eps as k s c := by
  have := knows_hist eps hc h3 he (UInt8.ofNat s) (UInt8.ofNat c)
  rwa [UInt8.toNat_ofNat_of_lt' hs, UInt8.toNat_ofNat_of_lt' hcc] at this

theorem seenAt_lt {eps : List Ep} {as : List Arrival} {k s c : Nat} (h : SeenAt eps as k s c) : c < 256 := by
  rcases h with ⟨_, _, _, _, rfl⟩ | ⟨a, _, _, _, rfl, _⟩
  · decide
  · exact a.msg.srcComp.toNat_lt

/-- The rule on the state is the rule on the history. -/
theorem gets_wanted (sniffer : Nat) (eps : List Ep) (hc : ConfigOk eps) {as : List Arrival}
    {h' : List Ep} (h3 : HistOk (linkGroups eps) as h')
    (hf : ∀ (k : Nat) (e : Ep), h'[k]? = some e → eps[k]? = none → e.filters = {}) {j : Nat} (hj : j < h'.length) (m : Msg)
    (hm : MsgOk m) : Gets sniffer h' m j ↔ Wanted sniffer eps j as m := by
  have he : h'[j]? = some h'[j] := List.getElem?_eq_getElem hj
  generalize h'[j] = e at he
  have hg : Gets sniffer h' m j ↔ ShouldSend sniffer e m := by
    unfold Gets
    rw [he]; simp
  rw [hg]
  have hsys : ∀ s, s < 256 → (KnowsSys e s ↔ ∃ c, SeenAt eps as j s c) := by
    intro s hs
    unfold KnowsSys
    constructor
    · rintro ⟨c, hcl, hk⟩; exact ⟨c, (knows_hist_nat eps hc h3 he s c hs hcl).mp hk⟩
    · rintro ⟨c, hk⟩; exact ⟨c, seenAt_lt hk, (knows_hist_nat eps hc h3 he s c hs (seenAt_lt hk)).mpr hk⟩
  have hfil : outOk e.filters m ↔ ∀ x, eps[j]? = some x → outOk x.filters m := by
    rcases linkGroups_get eps j with ⟨_, hn'⟩ | ⟨x, x', hx, hx', _, _, hfx, _⟩
    · rw [hn', hf j e he hn']
      simp [outOk, passes]
    · obtain ⟨y, hy, _, _, hfy, _⟩ := h3.ext.each j x' hx'
      rw [he] at hy; cases hy
      rw [hx, hfy, hfx]; simp
  have hts := hm.tsys
  have htc := hm.tcomp
  unfold ShouldSend Wanted FromHere Addressed Sniffs
  rw [knows_hist eps hc h3 he, hfil]
  apply and_congr_right; intro _
  apply and_congr_right; intro _
  rw [or_assoc, or_assoc]
  apply or_congr_right
  apply or_congr
  · rw [hsys _ (by omega)]
  apply or_congr
  · rw [knows_hist_nat eps hc h3 he _ _ (by omega) (by omega)]
  · rw [hsys _ (by omega)]

/-- The state after the arrivals `past` since the start with `eps`. -/
structure After (eps : List Ep) (past : List Arrival) (w : World σ) : Prop where
  inv : RouterInv w
  hist : HistOk (linkGroups eps) past w.eps
  plain : ∀ (k : Nat) (e : Ep), w.eps[k]? = some e → eps[k]? = none → e.filters = {}

/-- A step with arrivals `as` writes to `j` what is expected. -/
structure AllOk (sniffer : Nat) (P : Msg → Prop) (eps : List Ep) (j : Nat) (past as : List Arrival) (w w' : World σ) :
    Prop where
  after : After eps (past ++ as) w'
  grows : Grows w w'
  writes : Accounts P (writesTo j w w') (expected sniffer eps j past as)

theorem plain_ext {eps h h' : List Ep} (hx : Ext h h') (hlen : h'.length = h.length)
    (hp : ∀ (k : Nat) (e : Ep), h[k]? = some e → eps[k]? = none → e.filters = {}) :
    ∀ (k : Nat) (e : Ep), h'[k]? = some e → eps[k]? = none → e.filters = {} := by
  intro k e he hn
  have hk : k < h.length := by rw [← hlen]; exact (List.getElem?_eq_some_iff.mp he).1
  obtain ⟨e', he', _, _, hf, _⟩ := hx.each k h[k] (List.getElem?_eq_getElem hk)
  rw [he] at he'; cases he'
  rw [hf]
  exact hp k _ (List.getElem?_eq_getElem hk) hn

theorem handleMsg_complete (env : Env σ) (P : Msg → Prop)
    (eps : List Ep) (j : Nat)
    (hP : ∀ i s m, i < j → (∀ e, eps[i]? = some e → e.kind = .log) → P m → (env.log i s m).2.2 = m.data) (hc : ConfigOk eps)
    (past : List Arrival) (w : World σ) (hw : After eps past w) (hj : j ∈ w.active) (i : Nat) (m : Msg)
    (hm : MsgOk m) {w' : World σ} {b : Bool} (h : handleMsg env w i m = some (w', b)) :
    AllOk env.sniffer.toNat P eps j past [{ ep := i, msg := m, passed := b }] w w' ∧ w'.active = w.active := by
  obtain ⟨w1, b1, h1, hinv, hhist, hact, hf, ht, _⟩ := handleMsg_spec env w hw.inv i m
  rw [h] at h1; cases h1
  refine ⟨?_, hact⟩
  have hh := hw.hist.trans hhist
  cases b with
  | false =>
    obtain ⟨d, c, rfl⟩ := hf rfl
    refine ⟨⟨hinv, hh, hw.plain⟩, ⟨[], by simp⟩, ?_⟩
    simp [writesTo, directSince, Accounts, expected]
  | true =>
    obtain ⟨h', d, l, hi, rfl⟩ := ht rfl
    obtain ⟨new, hk, hnew⟩ := routeMsg_spec env 1 { w with eps := h', dedup := d, checks := w.checks + 1 } m
    have hpl : ∀ (k : Nat) (e : Ep), h'[k]? = some e → eps[k]? = none → e.filters = {} := plain_ext l.grow.ext l.grow.len hw.plain
    rw [hk.eps] at hh
    have hjl : j < h'.length := by rw [l.grow.len]; exact hw.inv.actLt j hj
    have hgw := gets_wanted env.sniffer.toNat eps hc hh hpl hjl m hm
    have hdec := decision_gets env.sniffer h' m hm j
    refine ⟨⟨hinv, by rw [hk.eps]; exact hh, by rw [hk.eps]; exact hpl⟩, ⟨new, hk.out⟩, ?_⟩
    have hds : directSince w (routeMsg env 2 false { w with eps := h', dedup := d, checks := w.checks + 1 } m) =
        new.filter (fun s => !s.gen) := hk.direct
    have hbytes : P m → ∀ s ∈ writesTo j w
        (routeMsg env 2 false { w with eps := h', dedup := d, checks := w.checks + 1 } m), s.bytes = m.data := by
      intro hp s hs
      have hsx := List.mem_filter.mp hs
      refine routeMsg_before env { w with eps := h', dedup := d, checks := w.checks + 1 } hw.inv.actSorted m 1 j ?_ s hsx.1
        (by simpa using hsx.2)
      intro i hij e he hk s
      refine hP i s m hij (fun x hx => ?_) hp
      rcases linkGroups_get eps i with ⟨_, hn⟩ | ⟨y, y', hy, hy', hk1, _⟩
      · rw [hn] at hx; cases hx
      · rw [hx] at hy; cases hy
        obtain ⟨z, hz, hkz, _⟩ := hh.ext.each i y' hy'
        have hz' : h'[i]? = some z := hz
        rw [hz'] at he; cases he
        rw [← hk1, ← hkz]; exact hk
    have hlen : (writesTo j w (routeMsg env 2 false { w with eps := h', dedup := d, checks := w.checks + 1 } m)).length =
        (w.active.filter (fun i => decisionAt env.sniffer h' m i == some .accepted)).count j := by
      unfold writesTo
      rw [hds, ← List.countP_eq_length_filter]
      have hnew' : (new.filter (fun s => !s.gen)).map Sent.ep =
          w.active.filter (fun i => decisionAt env.sniffer h' m i == some .accepted) := hnew
      rw [← hnew', List.count, List.countP_map]
      rfl
    simp only [expected, List.append_nil]
    generalize writesTo j w (routeMsg env 2 false { w with eps := h', dedup := d, checks := w.checks + 1 } m) = ws
      at hlen hbytes
    by_cases hwant : Wanted env.sniffer.toNat eps j (past ++ [{ ep := i, msg := m, passed := true }]) m
    · rw [if_pos ⟨rfl, hwant⟩]
      have hacc := hdec.mpr (hgw.mpr hwant)
      have h1 : (w.active.filter (fun i => decisionAt env.sniffer h' m i == some .accepted)).count j = 1 := by
        rw [List.count_filter (by simp [hacc])]
        have hle : w.active.count j ≤ 1 := List.nodup_iff_count.mp hw.inv.actNodup j
        have hpos : 0 < w.active.count j := List.count_pos_iff.mpr hj
        omega
      rw [h1] at hlen
      match ws, hlen with
      | [s], _ =>
        refine ⟨rfl, ?_⟩
        intro k x a hx ha hp
        cases k with
        | zero =>
          cases hx
          have : a = { ep := i, msg := m, passed := true } := by simpa using ha.symm
          subst this
          exact hbytes hp _ (List.mem_singleton.mpr rfl)
        | succ k => simp at hx
    · rw [if_neg (fun x => hwant x.2)]
      have hacc : decisionAt env.sniffer h' m j ≠ some .accepted := fun x => hwant (hgw.mp (hdec.mp x))
      have h0 : (w.active.filter (fun i => decisionAt env.sniffer h' m i == some .accepted)).count j = 0 := by
        rw [List.count_eq_zero, List.mem_filter]
        simp [hacc]
      rw [h0] at hlen
      have : ws = [] := List.length_eq_zero_iff.mp hlen
      subst this
      simp [Accounts]

theorem AllOk.trans {sniffer : Nat} {P : Msg → Prop} {eps : List Ep} {j : Nat} {past as bs : List Arrival}
    {w w' w'' : World σ} (x : AllOk sniffer P eps j past as w w') (y : AllOk sniffer P eps j (past ++ as) bs w' w'') :
    AllOk sniffer P eps j past (as ++ bs) w w'' := by
  obtain ⟨t1, t2⟩ := writesTo_trans (j := j) x.grows y.grows
  refine ⟨by rw [← List.append_assoc]; exact y.after, t1, ?_⟩
  rw [t2, expected_append]
  exact accounts_append x.writes y.writes

theorem AllOk.nil {sniffer : Nat} {P : Msg → Prop} {eps : List Ep} {j : Nat} {past : List Arrival} {w w' : World σ}
    (h : After eps past w') (ho : w'.out = w.out) : AllOk sniffer P eps j past [] w w' := by
  refine ⟨by rw [List.append_nil]; exact h, ⟨[], by rw [ho]; simp⟩, ?_⟩
  simp [writesTo, directSince, ho, expected, Accounts]

theorem runMsgs_complete (env : Env σ) (P : Msg → Prop)
    (eps : List Ep) (j : Nat)
    (hP : ∀ i s m, i < j → (∀ e, eps[i]? = some e → e.kind = .log) → P m → (env.log i s m).2.2 = m.data) (hc : ConfigOk eps) (i : Nat) :
    ∀ (ms : List Msg) (past : List Arrival) (w : World σ), After eps past w → j ∈ w.active → ∀ {w' as},
    runMsgs env i w ms = some (w', as) → (∀ a ∈ as, MsgOk a.msg) →
    AllOk env.sniffer.toNat P eps j past as w w' ∧ w'.active = w.active := by
  intro ms
  induction ms with
  | nil =>
    intro past w hw hj w' as h _
    cases h
    exact ⟨.nil hw rfl, rfl⟩
  | cons m ms ih =>
    intro past w hw hj w' as h hok
    unfold runMsgs at h
    cases h1 : handleMsg env w i m with
    | none => rw [h1] at h; cases h
    | some r =>
      obtain ⟨w1, b⟩ := r
      simp only [h1] at h
      cases h2 : runMsgs env i w1 ms with
      | none => rw [h2] at h; cases h
      | some r2 =>
        obtain ⟨w2, bs⟩ := r2
        simp only [h2] at h
        cases h
        obtain ⟨k1, k2⟩ := handleMsg_complete env P eps j hP hc past w hw hj i m
          (hok { ep := i, msg := m, passed := b } (List.mem_cons_self ..)) h1
        obtain ⟨l1, l2⟩ := ih _ w1 k1.after (by rw [k2]; exact hj) h2 (fun a ha => hok a (by simp [ha]))
        exact ⟨k1.trans l1, l2.trans k2⟩

theorem routerStep_complete (env : Env σ) (P : Msg → Prop)
    (eps : List Ep) (j : Nat)
    (hP : ∀ i s m, i < j → (∀ e, eps[i]? = some e → e.kind = .log) → P m → (env.log i s m).2.2 = m.data) (hc : ConfigOk eps)
    (past : List Arrival) (w : World σ) (hw : After eps past w) (hj : j ∈ w.active) (ev : RouterEv)
    (hgone : ∀ gone, ev = .hangups gone → j ∉ gone) {w' as} (h : routerStep env w ev = some (w', as))
    (hok : ∀ a ∈ as, MsgOk a.msg) :
    AllOk env.sniffer.toNat P eps j past as w w' ∧ j ∈ w'.active := by
  have hspec : RouterInv w' ∧ HistOk w.eps as w'.eps := by
    obtain ⟨w1, as1, h1, h2, h3⟩ := routerStep_spec env w hw.inv ev
    rw [h] at h1; cases h1; exact ⟨h2, h3⟩
  have hh := hw.hist.trans hspec.2
  have hset : ∀ (i : Nat) (e e' : Ep), w.eps[i]? = some e → e'.filters = e.filters →
      ∀ (k : Nat) (x : Ep), (w.eps.set i e')[k]? = some x → eps[k]? = none → x.filters = {} := by
    intro i e e' he hf k x hx hn
    rw [List.getElem?_set] at hx
    split at hx
    · rename_i hik
      subst hik
      split at hx
      · cases hx; rw [hf]; exact hw.plain _ _ he hn
      · cases hx
    · exact hw.plain k x hx hn
  cases ev with
  | read i io =>
    simp only [routerStep, handleRead] at h
    cases he : w.eps[i]? with
    | none => rw [he] at h; cases h; exact ⟨.nil hw rfl, hj⟩
    | some e =>
      simp only [he] at h
      obtain ⟨h1, h2⟩ := set_inv hw.inv (e' := { e with rx := (drain env.tbl e.fdOpen (rxBufMax + 1) e.rx io).1 })
        he rfl rfl rfl rfl rfl
      have ha : After eps past { w with
          eps := w.eps.set i ({ e with rx := (drain env.tbl e.fdOpen (rxBufMax + 1) e.rx io).1 }) } :=
        ⟨h1, by simpa using hw.hist.trans h2, hset i e _ he rfl⟩
      obtain ⟨k1, k2⟩ := runMsgs_complete env P eps j hP hc i _ past _ ha hj h hok
      exact ⟨⟨k1.after, k1.grows, k1.writes⟩, by rw [k2]; exact hj⟩
  | accept =>
    cases h
    refine ⟨.nil ⟨hspec.1, by simpa using hh, ?_⟩ rfl, List.mem_append_left _ hj⟩
    intro k x hx hn
    by_cases hk : k < w.eps.length
    · have hx' : (w.eps ++ [({ kind := .tcp } : Ep)])[k]? = some x := hx
      rw [List.getElem?_append_left hk] at hx'
      exact hw.plain k x hx' hn
    · have hx' : (w.eps ++ [({ kind := .tcp } : Ep)])[k]? = some x := hx
      rw [List.getElem?_append_right (by omega)] at hx'
      have := List.mem_singleton.mp (List.mem_of_getElem? hx')
      rw [this]
  | hangups gone =>
    cases h
    exact ⟨.nil ⟨hspec.1, by simpa using hh, hw.plain⟩ rfl, List.mem_filter.mpr ⟨hj, by simpa using hgone gone rfl⟩⟩
  | fd i o =>
    simp only [routerStep] at h
    cases he : w.eps[i]? with
    | none => rw [he] at h; cases h; exact ⟨.nil hw rfl, hj⟩
    | some e =>
      rw [he] at h; cases h
      exact ⟨.nil ⟨hspec.1, by simpa using hh, hset i e _ he rfl⟩ rfl, hj⟩
  | logCall i c =>
    cases h
    obtain ⟨new, hk, hg⟩ := logCall_kept env w i c
    refine ⟨⟨⟨hspec.1, hh, by rw [hk.eps]; exact hw.plain⟩, ⟨new, hk.out⟩, ?_⟩, by rw [hk.active]; exact hj⟩
    have : new.filter (fun s => !s.gen) = [] := by
      rw [List.filter_eq_nil_iff]; intro s hs; simp [hg s hs]
    simp [writesTo, hk.direct, this, Accounts, expected]
  | aggregate =>
    cases h
    have e1 : (aggregate w).out = w.out := by unfold aggregate; split <;> rfl
    have e2 : (aggregate w).eps = w.eps := by unfold aggregate; split <;> rfl
    have e3 : (aggregate w).active = w.active := by unfold aggregate; split <;> rfl
    exact ⟨.nil ⟨hspec.1, by simpa using hh, by rw [e2]; exact hw.plain⟩ e1, by rw [e3]; exact hj⟩

theorem runRouter_complete (env : Env σ) (P : Msg → Prop)
    (eps : List Ep) (j : Nat)
    (hP : ∀ i s m, i < j → (∀ e, eps[i]? = some e → e.kind = .log) → P m → (env.log i s m).2.2 = m.data) (hc : ConfigOk eps) :
    ∀ (evs : List RouterEv) (past : List Arrival) (w : World σ), After eps past w → j ∈ w.active →
    (∀ gone, RouterEv.hangups gone ∈ evs → j ∉ gone) → ∀ {w' as}, runRouter env w evs = some (w', as) →
    (∀ a ∈ as, MsgOk a.msg) → AllOk env.sniffer.toNat P eps j past as w w' := by
  intro evs
  induction evs with
  | nil =>
    intro past w hw hj _ w' as h _
    cases h
    exact .nil hw rfl
  | cons ev evs ih =>
    intro past w hw hj hgone w' as h hok
    unfold runRouter at h
    cases h1 : routerStep env w ev with
    | none => rw [h1] at h; cases h
    | some r =>
      obtain ⟨w1, as1⟩ := r
      simp only [h1] at h
      cases h2 : runRouter env w1 evs with
      | none => rw [h2] at h; cases h
      | some r2 =>
        obtain ⟨w2, bs⟩ := r2
        simp only [h2] at h
        cases h
        obtain ⟨k1, k2⟩ := routerStep_complete env P eps j hP hc past w hw hj ev
          (fun gone hg => hgone gone (by simp [hg])) h1 (fun a ha => hok a (List.mem_append_left _ ha))
        exact k1.trans (ih _ w1 k1.after k2 (fun gone hg => hgone gone (List.mem_cons_of_mem _ hg)) h2
          (fun a ha => hok a (List.mem_append_right _ ha)))

theorem start_after (eps : List Ep) (hc : ConfigOk eps) (logs : Nat → σ) : After eps [] (start eps logs) := by
  refine ⟨start_inv eps hc logs, ⟨.refl _, by simp, ?_⟩, ?_⟩
  · intro k e' hk id
    have hk' : (linkGroups eps)[k]? = some e' := hk
    simp [hk']
  · intro k e he hn
    rcases linkGroups_get eps k with ⟨hn', _⟩ | ⟨x, _, hx, _⟩
    · have : (linkGroups eps)[k]? = some e := he
      rw [hn'] at this; cases this
    · rw [hn] at hx; cases hx

/-- The state after any history from the start. -/
theorem runRouter_after (env : Env σ) (eps : List Ep) (hc : ConfigOk eps) (logs : Nat → σ) (evs1 : List RouterEv)
    (w1 : World σ) (as1 : List Arrival) (h1 : runRouter env (start eps logs) evs1 = some (w1, as1)) :
    After eps as1 w1 := by
  obtain ⟨w', as', g1, g2, g3⟩ := runRouter_spec env evs1 _ (start_inv eps hc logs)
  rw [h1] at g1; cases g1
  refine ⟨g2, g3, ?_⟩
  -- endpoints beyond the configured ones were accepted by the TCP server
  have key : ∀ (evs : List RouterEv) (w : World σ), RouterInv w →
      (∀ (k : Nat) (e : Ep), w.eps[k]? = some e → eps[k]? = none → e.filters = {}) → ∀ {w' as},
      runRouter env w evs = some (w', as) → ∀ (k : Nat) (e : Ep), w'.eps[k]? = some e → eps[k]? = none → e.filters = {} := by
    intro evs
    induction evs with
    | nil => intro w _ hw w' as h; cases h; exact hw
    | cons ev evs ih =>
      intro w hinv hw w' as h
      unfold runRouter at h
      cases g1 : routerStep env w ev with
      | none => rw [g1] at h; cases h
      | some r =>
        obtain ⟨w1, as1⟩ := r
        simp only [g1] at h
        cases g2 : runRouter env w1 evs with
        | none => rw [g2] at h; cases h
        | some r2 =>
          obtain ⟨w2, bs⟩ := r2
          simp only [g2] at h
          cases h
          obtain ⟨_, _, s1, s2, s3⟩ := routerStep_spec env w hinv ev
          rw [g1] at s1; cases s1
          refine ih w1 s2 ?_ g2
          by_cases hev : ev = .accept
          · subst hev
            cases g1
            intro k x hx hn
            have hx' : (w.eps ++ [({ kind := .tcp } : Ep)])[k]? = some x := hx
            by_cases hk : k < w.eps.length
            · rw [List.getElem?_append_left hk] at hx'
              exact hw k x hx' hn
            · rw [List.getElem?_append_right (by omega)] at hx'
              have := List.mem_singleton.mp (List.mem_of_getElem? hx')
              rw [this]
          · refine plain_ext s3.ext ?_ hw
            cases ev with
            | read i io =>
              simp only [routerStep, handleRead] at g1
              cases he : w.eps[i]? with
              | none => rw [he] at g1; cases g1; rfl
              | some e =>
                simp only [he] at g1
                have rl : ∀ (ms : List Msg) (w : World σ), RouterInv w → ∀ {w' as},
                    runMsgs env i w ms = some (w', as) → w'.eps.length = w.eps.length := by
                  intro ms
                  induction ms with
                  | nil => intro w _ w' as h; cases h; rfl
                  | cons m ms ihm =>
                    intro w hw w' as h
                    unfold runMsgs at h
                    cases q1 : handleMsg env w i m with
                    | none => rw [q1] at h; cases h
                    | some r =>
                      obtain ⟨w1, b⟩ := r
                      simp only [q1] at h
                      cases q2 : runMsgs env i w1 ms with
                      | none => rw [q2] at h; cases h
                      | some r2 =>
                        obtain ⟨w2, bs⟩ := r2
                        simp only [q2] at h
                        cases h
                        obtain ⟨_, _, r1, r2, _, _, hf, ht, _⟩ := handleMsg_spec env w hw i m
                        rw [q1] at r1; cases r1
                        rw [ihm w1 r2 q2]
                        cases b with
                        | false => obtain ⟨d, c, rfl⟩ := hf rfl; rfl
                        | true =>
                          obtain ⟨h', d, l, hi, rfl⟩ := ht rfl
                          obtain ⟨new, hk, _⟩ := routeMsg_spec env 1
                            { w with eps := h', dedup := d, checks := w.checks + 1 } m
                          rw [hk.eps]
                          exact l.grow.len
                obtain ⟨hi1, _⟩ := set_inv hinv (e' := { e with rx := (drain env.tbl e.fdOpen (rxBufMax + 1) e.rx io).1 })
                  he rfl rfl rfl rfl rfl
                rw [rl _ _ hi1 g1]
                simp
            | accept => exact absurd rfl hev
            | hangups gone => cases g1; rfl
            | fd i o =>
              simp only [routerStep] at g1
              cases he : w.eps[i]? with
              | none => rw [he] at g1; cases g1; rfl
              | some e => rw [he] at g1; cases g1; simp
            | logCall i c =>
              cases g1
              obtain ⟨new, hk, _⟩ := logCall_kept env w i c
              rw [hk.eps]
            | aggregate =>
              cases g1
              unfold aggregate; split <;> rfl
  exact key evs1 _ (start_inv eps hc logs) (start_after eps hc logs).plain h1

theorem complete_writes (env : Env σ) (ht : TableOk env.tbl) (P : Msg → Prop) (eps : List Ep) (j : Nat)
    (hP : ∀ i s m, i < j → (∀ e, eps[i]? = some e → e.kind = .log) → P m → (env.log i s m).2.2 = m.data) (hc : ConfigOk eps)
    (logs : Nat → σ) (evs1 evs2 : List RouterEv) (w1 w2 : World σ) (as1 as2 : List Arrival)
    (h1 : runRouter env (start eps logs) evs1 = some (w1, as1)) (h2 : runRouter env w1 evs2 = some (w2, as2))
    (hj : j ∈ w1.active) (hgone : ∀ gone, RouterEv.hangups gone ∈ evs2 → j ∉ gone) :
    Accounts P (writesTo j w1 w2) (expected env.sniffer.toNat eps j as1 as2) := by
  have hr1 : Reached env w1 := by
    have key : ∀ (evs : List RouterEv) (w : World σ), Reached env w → ∀ {w' as},
        runRouter env w evs = some (w', as) → Reached env w' := by
      intro evs
      induction evs with
      | nil => intro w hw w' as h; cases h; exact hw
      | cons ev evs ih =>
        intro w hw w' as h
        unfold runRouter at h
        cases g1 : routerStep env w ev with
        | none => rw [g1] at h; cases h
        | some r =>
          obtain ⟨w1, as1⟩ := r
          simp only [g1] at h
          cases g2 : runRouter env w1 evs with
          | none => rw [g2] at h; cases h
          | some r2 =>
            obtain ⟨w2, bs⟩ := r2
            simp only [g2] at h
            cases h
            exact ih w1 (.event hw g1) g2
    exact key evs1 _ (.start hc) h1
  have hafter := runRouter_after env eps hc logs evs1 w1 as1 h1
  exact (runRouter_complete env P eps j hP hc evs2 as1 w1 hafter hj hgone h2
    (runRouter_msgOk env ht evs2 w1 hr1 h2)).writes

/-- What accounts for all writes, if no message is edited. -/
theorem accounts_bytes {P : Msg → Prop} {ws : List Sent} {ys : List Arrival} (h : Accounts P ws ys)
    (hy : ∀ a ∈ ys, P a.msg) : ws.map Sent.bytes = ys.map (fun a => a.msg.data) := by
  apply List.ext_getElem?
  intro k
  rw [List.getElem?_map, List.getElem?_map]
  by_cases hk : k < ws.length
  · have hk' : k < ys.length := h.1 ▸ hk
    rw [List.getElem?_eq_getElem hk, List.getElem?_eq_getElem hk']
    simp only [Option.map_some]
    rw [h.2 k _ _ (List.getElem?_eq_getElem hk) (List.getElem?_eq_getElem hk') (hy _ (List.getElem_mem _))]
  · rw [List.getElem?_eq_none (by omega), List.getElem?_eq_none (by have := h.1; omega)]
    rfl

theorem expected_sub (sn : Nat) (eps : List Ep) (j : Nat) : ∀ (as past : List Arrival),
    ∀ a ∈ expected sn eps j past as, a ∈ as ∧ a.passed = true := by
  intro as
  induction as with
  | nil => intro past a h; cases h
  | cons b as ih =>
    intro past a h
    simp only [expected, List.mem_append] at h
    rcases h with h | h
    · split at h
      · rename_i hb
        rw [List.mem_singleton] at h
        subst h
        exact ⟨List.mem_cons_self, hb.1⟩
      · cases h
    · have := ih _ a h
      exact ⟨List.mem_cons_of_mem _ this.1, this.2⟩

/-- No log endpoint that stands before endpoint `j` edits the message. -/
def Spec.UneditedBefore (env : Env σ) (eps : List Ep) (j : Nat) (m : Msg) : Prop :=
  ∀ i < j, (∀ e, eps[i]? = some e → e.kind = .log) → ∀ s, (env.log i s m).2.2 = m.data

/-- Endpoint `j` is configured and no log endpoint stands before it. -/
def Spec.LinkAt (eps : List Ep) (j : Nat) : Prop :=
  j < eps.length ∧ ∀ i < j, ∀ e, eps[i]? = some e → e.kind ≠ .log

theorem unedited_link {env : Env σ} {eps : List Ep} {j : Nat} (h : LinkAt eps j) (m : Msg) : UneditedBefore env eps j m := by
  intro i hi hk
  have hlt : i < eps.length := Nat.lt_trans hi h.1
  have he : eps[i]? = some eps[i] := List.getElem?_eq_getElem hlt
  exact absurd (hk _ he) (h.2 i hi _ he)

theorem accounts_mono {P Q : Msg → Prop} {ws : List Sent} {ys : List Arrival} (h : Accounts Q ws ys) (hq : ∀ m, P m → Q m) :
    Accounts P ws ys := ⟨h.1, fun k x a hx ha hp => h.2 k x a hx ha (hq _ hp)⟩

/-- **C88** (part): split any history of the router at any point. Endpoint `j`, connected at that point and not hung up
afterwards, is from then on written exactly the messages that arrive, are let in, and are wanted on `j` by the rule - a rule on
the configuration and the arrivals since the start alone - in order of arrival, each once; with the bytes as received unless
log endpoints before it edit the message. (Messages made by log endpoints themselves are not counted here; see C11 and C80.)
Missing: the bytes of the messages that log endpoints before it edit (`C88_violated`); for configured links there are none,
see `C88_links`. -/
theorem C88_complete_partial (env : Env σ) (ht : TableOk env.tbl) (eps : List Ep) (hc : ConfigOk eps) (logs : Nat → σ)
    (evs1 evs2 : List RouterEv) (w1 w2 : World σ) (as1 as2 : List Arrival)
    (h1 : runRouter env (start eps logs) evs1 = some (w1, as1)) (h2 : runRouter env w1 evs2 = some (w2, as2))
    (j : Nat) (hj : j ∈ w1.active) (hgone : ∀ gone, RouterEv.hangups gone ∈ evs2 → j ∉ gone) :
    Accounts (UneditedBefore env eps j) (writesTo j w1 w2) (expected env.sniffer.toNat eps j as1 as2) :=
  complete_writes env ht _ eps j (fun i s _ hi hk h => h i hi hk s) hc logs evs1 evs2 w1 w2 as1 as2 h1 h2 hj hgone

/-- **C88** for the configured links, which stand before the log endpoints (`C92_links_first`): everything meant for them, every
message byte for byte, whatever the log endpoints do. -/
theorem C88_links (env : Env σ) (ht : TableOk env.tbl) (eps : List Ep) (hc : ConfigOk eps) (logs : Nat → σ)
    (evs1 evs2 : List RouterEv) (w1 w2 : World σ) (as1 as2 : List Arrival)
    (h1 : runRouter env (start eps logs) evs1 = some (w1, as1)) (h2 : runRouter env w1 evs2 = some (w2, as2))
    (j : Nat) (hl : LinkAt eps j) (hj : j ∈ w1.active) (hgone : ∀ gone, RouterEv.hangups gone ∈ evs2 → j ∉ gone) :
    (writesTo j w1 w2).map Sent.bytes = (expected env.sniffer.toNat eps j as1 as2).map (fun a => a.msg.data) :=
  accounts_bytes (C88_complete_partial env ht eps hc logs evs1 evs2 w1 w2 as1 as2 h1 h2 j hj hgone)
    (fun _ _ => unedited_link hl _)

/-- For messages that no log endpoint edits. -/
theorem complete_unedited (env : Env σ) (ht : TableOk env.tbl) (P : Msg → Prop)
    (hP : ∀ i s m, P m → (env.log i s m).2.2 = m.data) (eps : List Ep) (hc : ConfigOk eps) (logs : Nat → σ)
    (evs1 evs2 : List RouterEv) (w1 w2 : World σ) (as1 as2 : List Arrival)
    (h1 : runRouter env (start eps logs) evs1 = some (w1, as1)) (h2 : runRouter env w1 evs2 = some (w2, as2))
    (j : Nat) (hj : j ∈ w1.active) (hgone : ∀ gone, RouterEv.hangups gone ∈ evs2 → j ∉ gone) :
    Accounts P (writesTo j w1 w2) (expected env.sniffer.toNat eps j as1 as2) :=
  accounts_mono (C88_complete_partial env ht eps hc logs evs1 evs2 w1 w2 as1 as2 h1 h2 j hj hgone)
    (fun m hp i _ _ s => hP i s m hp)

/-- **C88** (part) for a configured endpoint that never hangs up, from the start. Missing: as above. -/
theorem C88_from_start_partial (env : Env σ) (ht : TableOk env.tbl) (eps : List Ep) (hc : ConfigOk eps) (logs : Nat → σ)
    (evs : List RouterEv) (w : World σ) (as : List Arrival) (h : runRouter env (start eps logs) evs = some (w, as))
    (j : Nat) (hj : j < eps.length) (hgone : ∀ gone, RouterEv.hangups gone ∈ evs → j ∉ gone) :
    Accounts (UneditedBefore env eps j) (writesTo j (start eps logs) w) (expected env.sniffer.toNat eps j [] as) :=
  C88_complete_partial env ht eps hc logs [] evs (start eps logs) w [] as rfl h j
    (by simpa [start] using hj) hgone

/-- **C88** (part) with the actual log endpoints: all bytes are kept except those of LOGGING_DATA and LOGGING_DATA_ACKED.
Missing: these, for endpoints behind a PX4 log (`C88_violated`). -/
theorem C88_logs_partial (env : Env LogSt) (le : Nat → LogEnv) (now : Nat → UInt64)
    (ht : TableOk env.tbl) (eps : List Ep) (hc : ConfigOk eps) (logs : Nat → LogSt)
    (evs1 evs2 : List RouterEv) (w1 w2 : World LogSt) (as1 as2 : List Arrival)
    (h1 : runRouter (env.withLogs le now) (start eps logs) evs1 = some (w1, as1))
    (h2 : runRouter (env.withLogs le now) w1 evs2 = some (w2, as2))
    (j : Nat) (hj : j ∈ w1.active) (hgone : ∀ gone, RouterEv.hangups gone ∈ evs2 → j ∉ gone) :
    Accounts (fun m => m.msgId ≠ 266 ∧ m.msgId ≠ 267) (writesTo j w1 w2) (expected env.sniffer.toNat eps j as1 as2) :=
  complete_unedited (env.withLogs le now) ht _ (fun i s m hm => logWrite_data le now i s m hm.1 hm.2) eps hc logs
    evs1 evs2 w1 w2 as1 as2 h1 h2 j hj hgone

/-- The hypotheses of `C88_complete_partial` on a history in which a TCP client is accepted after the first heartbeat and gets the
second one; the group "g" does not get back what its member 1 receives. -/
example : ConfigOk Sample.eps ∧ Sample.env.sniffer.toNat ≤ 255 ∧
    (runRouter Sample.env Sample.w0 [.read 0 (.got Sample.hb2.encode), .accept]).map (fun r => (r.1.active, r.2.length)) =
      some ([0, 1, 2, 3, 4], 1) ∧
    (runRouter Sample.env Sample.w0 [.read 0 (.got Sample.hb2.encode), .accept, .read 1 (.got Sample.hb1.encode)]).map
      (fun r => ((List.range 5).map (fun j => (writesTo j Sample.w0 r.1).length), r.2.map Arrival.passed)) =
      some ([0, 1, 1, 2, 1], [true, true]) :=
  ⟨Sample.eps_ok, by decide, by decide +kernel, by decide +kernel⟩

/-- The rule on arrivals alone: a heartbeat of 1/1 on the UART goes to endpoint 1 and not back; a command to 1/1 on
endpoint 1 then goes to the UART, not to endpoint 2 of the same group, which saw its sender. -/
example :
    Wanted 0 Sample.eps 1 [⟨0, Sample.mHb, true⟩] Sample.mHb ∧ ¬ Wanted 0 Sample.eps 0 [⟨0, Sample.mHb, true⟩] Sample.mHb ∧
    Wanted 0 Sample.eps 0 [⟨0, Sample.mHb, true⟩, ⟨1, Sample.mCmd, true⟩] Sample.mCmd ∧
    ¬ Wanted 0 Sample.eps 2 [⟨0, Sample.mHb, true⟩, ⟨1, Sample.mCmd, true⟩] Sample.mCmd := by
  have p01 : ¬ Peer Sample.eps 0 1 := by simp [Peer, Sample.eps]
  have p10 : ¬ Peer Sample.eps 1 0 := by simp [Peer, Sample.eps]
  have p00 : Peer Sample.eps 0 0 := .inl rfl
  have p12 : Peer Sample.eps 1 2 := by simp [Peer, Sample.eps]
  have s1 : Sample.mHb.srcSys = 1 ∧ Sample.mHb.srcComp = 1 ∧ Sample.mHb.targetSys = -1 := by decide
  refine ⟨⟨?_, ?_, .inl (by rw [s1.2.2]; decide)⟩, fun h => h.1 (.inr ⟨_, List.mem_singleton.mpr rfl, rfl, rfl, rfl, p00⟩),
    ⟨?_, ?_, .inr (.inr (.inl ⟨by decide, .inr ⟨⟨0, Sample.mHb, true⟩, by simp, rfl, ?_, ?_, p00⟩⟩))⟩,
    fun h => h.1 (.inr ⟨⟨1, Sample.mCmd, true⟩, by simp, rfl, rfl, rfl, p12⟩)⟩
  · simpa [SeenAt, Sample.eps] using p01
  · simp [Sample.eps, outOk, passes]
  · simpa [SeenAt, s1, Sample.eps, Sample.mCmd] using p10
  · simp [Sample.eps, outOk, passes, Sample.mCmd]
  · rw [s1.1]; decide
  · rw [s1.2.1]; decide

end Verif
