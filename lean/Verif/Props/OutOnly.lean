import Verif.Spec.OutOnly
import Verif.Props.Stranger

/- Property C139: outgoing filters and the sniffer concern the links they name only. -/

namespace Verif
open Spec

variable {σ τ : Type}

/-! ### The same messages are accepted -/

theorem addSysComp_noOut (id : UInt16) : ∀ (n : Nat) (h : List Ep) (i : Nat),
    addSysComp n (h.map noOut) i id = (addSysComp n h i id).map (List.map noOut)
  | 0, _, _ => rfl
  | n + 1, h, i => by
    unfold addSysComp
    rw [List.getElem?_map]
    cases he : h[i]? with
    | none => rfl
    | some e =>
      simp only [Option.map_some]
      by_cases hh : e.hasSysComp id = true
      · have hh' : (noOut e).hasSysComp id = true := hh
        rw [if_pos hh, if_pos hh']; rfl
      · have hh' : ¬ (noOut e).hasSysComp id = true := hh
        rw [if_neg hh, if_neg hh']
        have hf : ∀ (ms : List Nat) (g : List Ep),
            ms.foldlM (fun h j => addSysComp n h j id) (g.map noOut) =
              (ms.foldlM (fun h j => addSysComp n h j id) g).map (List.map noOut) := by
          intro ms
          induction ms with
          | nil => intro g; rfl
          | cons k ms ih =>
            intro g
            simp only [List.foldlM_cons]
            rw [addSysComp_noOut id n g k]
            cases addSysComp n g k id with
            | none => rfl
            | some g' => exact ih g'
        have hs : (h.map noOut).set i { noOut e with learned := (noOut e).learned ++ [id] } =
            (h.set i { e with learned := e.learned ++ [id] }).map noOut := by
          rw [List.map_set]; rfl
        rw [hs]
        exact hf _ _

/-- Two routers in the same state but for outgoing filters. -/
structure Lock (w : World σ) (w' : World τ) : Prop where
  eps : w'.eps.map noOut = w.eps.map noOut
  dedup : w'.dedup = w.dedup
  checks : w'.checks = w.checks

theorem Lock.at {w : World σ} {w' : World τ} (x : Lock w w') (i : Nat) : (w'.eps[i]?).map noOut = (w.eps[i]?).map noOut := by
  have := congrArg (fun l => l[i]?) x.eps
  simpa only [List.getElem?_map] using this

theorem Lock.len {w : World σ} {w' : World τ} (x : Lock w w') : w'.eps.length = w.eps.length := by
  simpa using congrArg List.length x.eps

theorem allowedIn_noOut {e e' : Ep} (h : noOut e' = noOut e) (m : Msg) : allowedIn e'.filters m = allowedIn e.filters m := by
  have h1 : allowedIn (noOut e').filters m = allowedIn (noOut e).filters m := by rw [h]
  exact h1

theorem noOut_rx {e e' : Ep} (h : noOut e' = noOut e) : e'.rx = e.rx ∧ e'.fdOpen = e.fdOpen :=
  ⟨by have : (noOut e').rx = (noOut e).rx := by rw [h]
      exact this, by have : (noOut e').fdOpen = (noOut e).fdOpen := by rw [h]
                     exact this⟩

theorem handleMsg_lock (env : Env σ) (env' : Env τ) (hn : SameDoor env env') {w : World σ} {w' : World τ} (x : Lock w w') (i : Nat)
    (m : Msg) {w1 b} (h : handleMsg env w i m = some (w1, b)) :
    ∃ w1', handleMsg env' w' i m = some (w1', b) ∧ Lock w1 w1' := by
  have hi := x.at i
  unfold handleMsg at h ⊢
  rw [x.dedup, x.checks, hn.hashFn, hn.dedupPeriod, hn.clock]
  cases he : w.eps[i]? with
  | none =>
    rw [he] at hi h
    cases he' : w'.eps[i]? with
    | some _ => rw [he'] at hi; cases hi
    | none => cases h; exact ⟨w', rfl, x⟩
  | some e =>
    rw [he] at hi h
    cases he' : w'.eps[i]? with
    | none => rw [he'] at hi; cases hi
    | some e' =>
      rw [he'] at hi
      simp only [Option.map_some, Option.some.injEq] at hi
      simp only at h ⊢
      rw [allowedIn_noOut hi]
      cases hd : w.dedup.check env.hashFn env.dedupPeriod (env.clock w.checks) m.data with
      | none => rw [hd] at h; cases h
      | some r =>
        obtain ⟨d, isNew⟩ := r
        rw [hd] at h
        simp only at h ⊢
        split at h
        · rename_i hnew
          cases h
          rw [if_pos hnew]
          exact ⟨_, rfl, x.eps, rfl, rfl⟩
        · rename_i hnew
          rw [if_neg hnew]
          split at h
          · rename_i hal
            cases h
            rw [if_pos hal]
            exact ⟨_, rfl, x.eps, rfl, rfl⟩
          · rename_i hal
            rw [if_neg hal]
            have ha := addSysComp_noOut (sysComp m.srcSys m.srcComp) (w.eps.length + 1) w.eps i
            have ha' := addSysComp_noOut (sysComp m.srcSys m.srcComp) (w.eps.length + 1) w'.eps i
            rw [x.eps, ha] at ha'
            rw [x.len]
            cases hs : addSysComp (w.eps.length + 1) w.eps i (sysComp m.srcSys m.srcComp) with
            | none => rw [hs] at h; cases h
            | some eps =>
              rw [hs] at h ha'
              cases hs' : addSysComp (w.eps.length + 1) w'.eps i (sysComp m.srcSys m.srcComp) with
              | none => rw [hs'] at ha'; cases ha'
              | some eps' =>
                rw [hs'] at ha'
                simp only [Option.map_some, Option.some.injEq] at ha'
                simp only [Option.some.injEq, Prod.mk.injEq] at h ⊢
                obtain ⟨rfl, rfl⟩ := h
                refine ⟨_, ⟨rfl, rfl⟩, ?_⟩
                obtain ⟨_, k, _⟩ := routeMsg_spec env 1 { w with dedup := d, checks := w.checks + 1, eps := eps } m
                obtain ⟨_, k', _⟩ := routeMsg_spec env' 1 { w' with dedup := d, checks := w.checks + 1, eps := eps' } m
                exact ⟨by rw [k.eps, k'.eps]; exact ha'.symm, by rw [k.dedup, k'.dedup], by rw [k.checks, k'.checks]⟩

theorem runMsgs_lock (env : Env σ) (env' : Env τ) (hn : SameDoor env env') (i : Nat) : ∀ (ms : List Msg) {w : World σ} {w' : World τ},
    Lock w w' → ∀ {w1 as}, runMsgs env i w ms = some (w1, as) → ∃ w1', runMsgs env' i w' ms = some (w1', as) ∧ Lock w1 w1'
  | [], w, w', x, w1, as, h => by cases h; exact ⟨w', rfl, x⟩
  | m :: ms, w, w', x, w1, as, h => by
    unfold runMsgs at h ⊢
    cases h1 : handleMsg env w i m with
    | none => rw [h1] at h; cases h
    | some r =>
      obtain ⟨w2, b⟩ := r
      rw [h1] at h
      simp only at h
      obtain ⟨w2', g1, g2⟩ := handleMsg_lock env env' hn x i m h1
      cases h2 : runMsgs env i w2 ms with
      | none => rw [h2] at h; cases h
      | some q =>
        obtain ⟨w3, bs⟩ := q
        rw [h2] at h; cases h
        obtain ⟨w3', k1, k2⟩ := runMsgs_lock env env' hn i ms g2 h2
        exact ⟨w3', by simp only [g1, k1], k2⟩

theorem lock_set {w : World σ} {w' : World τ} (x : Lock w w') (i : Nat) {e e' : Ep} (h : noOut e' = noOut e) :
    Lock { w with eps := w.eps.set i e } { w' with eps := w'.eps.set i e' } :=
  ⟨by simp only [List.map_set, h, x.eps], x.dedup, x.checks⟩

theorem routerStep_lock (env : Env σ) (env' : Env τ) (hn : SameDoor env env') {w : World σ} {w' : World τ} (x : Lock w w')
    (ev : RouterEv) {w1 as} (h : routerStep env w ev = some (w1, as)) :
    ∃ w1', routerStep env' w' ev = some (w1', as) ∧ Lock w1 w1' := by
  cases ev with
  | accept =>
    cases h
    exact ⟨_, rfl, by simp only [List.map_append, x.eps], x.dedup, x.checks⟩
  | hangups gone => cases h; exact ⟨_, rfl, x.eps, x.dedup, x.checks⟩
  | logCall j c =>
    cases h
    obtain ⟨_, k, _⟩ := logCall_kept env w j c
    obtain ⟨_, k', _⟩ := logCall_kept env' w' j c
    exact ⟨_, rfl, by rw [k.eps, k'.eps]; exact x.eps, by rw [k.dedup, k'.dedup]; exact x.dedup,
      by rw [k.checks, k'.checks]; exact x.checks⟩
  | aggregate =>
    cases h
    have ha : ∀ {α : Type} (w : World α), (aggregate w).eps = w.eps ∧ (aggregate w).dedup = w.dedup ∧
        (aggregate w).checks = w.checks := fun w => by unfold aggregate; split <;> exact ⟨rfl, rfl, rfl⟩
    exact ⟨_, rfl, by rw [(ha w).1, (ha w').1]; exact x.eps, by rw [(ha w).2.1, (ha w').2.1]; exact x.dedup,
      by rw [(ha w).2.2, (ha w').2.2]; exact x.checks⟩
  | fd j o =>
    have hj := x.at j
    simp only [routerStep] at h ⊢
    cases he : w.eps[j]? with
    | none =>
      rw [he] at hj h
      cases he' : w'.eps[j]? with
      | some _ => rw [he'] at hj; cases hj
      | none => cases h; exact ⟨_, rfl, x⟩
    | some e =>
      rw [he] at hj h
      cases he' : w'.eps[j]? with
      | none => rw [he'] at hj; cases hj
      | some e' =>
        rw [he'] at hj
        simp only [Option.map_some, Option.some.injEq] at hj
        cases h
        refine ⟨_, rfl, lock_set x j ?_⟩
        exact congrArg (fun e : Ep => { e with fdOpen := o }) hj
  | read j io =>
    have hj := x.at j
    simp only [routerStep, handleRead] at h ⊢
    cases he : w.eps[j]? with
    | none =>
      rw [he] at hj h
      cases he' : w'.eps[j]? with
      | some _ => rw [he'] at hj; cases hj
      | none => cases h; exact ⟨_, rfl, x⟩
    | some e =>
      rw [he] at hj h
      cases he' : w'.eps[j]? with
      | none => rw [he'] at hj; cases hj
      | some e' =>
        rw [he'] at hj
        simp only [Option.map_some, Option.some.injEq] at hj
        obtain ⟨r1, r2⟩ := noOut_rx hj
        simp only at h ⊢
        rw [hn.tbl, r1, r2]
        refine runMsgs_lock env env' hn j _ (lock_set x j ?_) h
        exact congrArg (fun y : Ep => { y with rx := (drain env.tbl e.fdOpen (rxBufMax + 1) e.rx io).1, fdOpen := e.fdOpen }) hj

theorem runRouter_lock (env : Env σ) (env' : Env τ) (hn : SameDoor env env') : ∀ (evs : List RouterEv) {w : World σ} {w' : World τ},
    Lock w w' → ∀ {w1 as}, runRouter env w evs = some (w1, as) → ∃ w1', runRouter env' w' evs = some (w1', as) ∧ Lock w1 w1'
  | [], w, w', x, w1, as, h => by cases h; exact ⟨w', rfl, x⟩
  | ev :: evs, w, w', x, w1, as, h => by
    unfold runRouter at h ⊢
    cases h1 : routerStep env w ev with
    | none => rw [h1] at h; cases h
    | some r =>
      obtain ⟨w2, bs⟩ := r
      rw [h1] at h
      simp only at h
      obtain ⟨w2', g1, g2⟩ := routerStep_lock env env' hn x ev h1
      cases h2 : runRouter env w2 evs with
      | none => rw [h2] at h; cases h
      | some q =>
        obtain ⟨w3, cs⟩ := q
        rw [h2] at h; cases h
        obtain ⟨w3', k1, k2⟩ := runRouter_lock env env' hn evs g2 h2
        exact ⟨w3', by simp only [g1, k1], k2⟩

theorem onlyOut_at {eps eps' : List Ep} (h : OnlyOut eps eps') (i : Nat) : (eps'[i]?).map noOut = (eps[i]?).map noOut := by
  have := congrArg (fun l => l[i]?) h
  simpa only [List.getElem?_map] using this

theorem onlyOut_len {eps eps' : List Ep} (h : OnlyOut eps eps') : eps'.length = eps.length := by
  simpa using congrArg List.length h

theorem onlyOut_groups {eps eps' : List Ep} (h : OnlyOut eps eps') : (linkGroups eps').map noOut = (linkGroups eps).map noOut := by
  have key : ∀ eps : List Ep, (linkGroups eps).map noOut = linkGroups (eps.map noOut) := by
    intro eps
    apply List.ext_getElem?
    intro i
    unfold linkGroups
    rw [List.getElem?_map, List.getElem?_mapIdx, List.getElem?_mapIdx, List.getElem?_map]
    cases eps[i]? with
    | none => rfl
    | some e =>
      simp only [Option.map_some, Option.some.injEq]
      have hg : (noOut e).group = e.group := rfl
      rw [hg]
      split
      · rfl
      · simp only [noOut, List.length_map, List.getElem?_map, Option.map_map, Function.comp_def]
  rw [key, key, h]

theorem start_lock {eps eps' : List Ep} (h : OnlyOut eps eps') (logs : Nat → σ) (logs' : Nat → τ) :
    Lock (start eps logs) (start eps' logs') := ⟨onlyOut_groups h, rfl, rfl⟩

theorem onlyOut_config {eps eps' : List Ep} (h : OnlyOut eps eps') (hc : ConfigOk eps) : ConfigOk eps' := by
  intro e' he'
  obtain ⟨i, hi⟩ := List.getElem?_of_mem he'
  have := onlyOut_at h i
  rw [hi] at this
  cases he : eps[i]? with
  | none => rw [he] at this; cases this
  | some e =>
    rw [he] at this
    simp only [Option.map_some, Option.some.injEq] at this
    have c := hc e (List.mem_of_getElem? he)
    have c1 : (noOut e).members = [] ∧ ((noOut e).kind = .log → (noOut e).group = "" ∧ (noOut e).learned = [sysComp 2 0]) ∧
      ((noOut e).kind ≠ .log → (noOut e).learned = []) := c
    rw [← this] at c1
    exact c1

/-! ### What is expected -/

theorem onlyOut_seen {eps eps' : List Ep} (h : OnlyOut eps eps') (as : List Arrival) (j s c : Nat) :
    SeenAt eps' as j s c ↔ SeenAt eps as j s c := by
  have key : ∀ eps : List Ep, SeenAt (eps.map noOut) as j s c ↔ SeenAt eps as j s c := by
    intro eps
    have hp : ∀ i, Peer (eps.map noOut) i j ↔ Peer eps i j := by
      intro i
      unfold Peer
      simp only [List.getElem?_map]
      apply or_congr Iff.rfl
      constructor
      · rintro ⟨e, e', h1, h2, h3, h4⟩
        cases hi : eps[i]? with
        | none => rw [hi] at h1; cases h1
        | some x =>
          cases hj : eps[j]? with
          | none => rw [hj] at h2; cases h2
          | some y =>
            rw [hi] at h1; rw [hj] at h2
            cases h1; cases h2
            exact ⟨x, y, rfl, rfl, h3, h4⟩
      · rintro ⟨e, e', h1, h2, h3, h4⟩
        exact ⟨noOut e, noOut e', by rw [h1]; rfl, by rw [h2]; rfl, h3, h4⟩
    unfold SeenAt
    simp only [hp, List.getElem?_map]
    apply or_congr _ Iff.rfl
    constructor
    · rintro ⟨e, h1, h2⟩
      cases hj : eps[j]? with
      | none => rw [hj] at h1; cases h1
      | some y => rw [hj] at h1; cases h1; exact ⟨y, rfl, h2⟩
    · rintro ⟨e, h1, h2⟩
      exact ⟨noOut e, by rw [h1]; rfl, h2⟩
  rw [← key eps', h, key]

theorem mayGoOut_none (eps : List Ep) (j : Nat) (m : Msg) : MayGoOut (eps.map noOut) j m := by
  intro e he
  rw [List.getElem?_map] at he
  cases hj : eps[j]? with
  | none => rw [hj] at he; cases he
  | some y =>
    rw [hj] at he; cases he
    simp [outOk, passes, noOut]

theorem noOut_idem (eps : List Ep) : OnlyOut eps (eps.map noOut) := by
  unfold OnlyOut
  rw [List.map_map]
  rfl

theorem expected_out (sniffer : Nat) (eps : List Ep) (j : Nat) : ∀ (as past : List Arrival),
    expected sniffer eps j past as = goingOut eps j (expected sniffer (eps.map noOut) j past as)
  | [], _ => rfl
  | a :: as, past => by
    have ih := expected_out sniffer eps j as (past ++ [a])
    have hw : Wanted sniffer eps j (past ++ [a]) a.msg ↔
        Wanted sniffer (eps.map noOut) j (past ++ [a]) a.msg ∧ MayGoOut eps j a.msg := by
      have hs := fun s c => onlyOut_seen (noOut_idem eps) (past ++ [a]) j s c
      have ho := mayGoOut_none eps j a.msg
      unfold MayGoOut at ho
      simp only [Wanted, hs, MayGoOut]
      constructor
      · rintro ⟨h1, h2, h3⟩; exact ⟨⟨h1, ho, h3⟩, h2⟩
      · rintro ⟨⟨h1, _, h3⟩, h2⟩; exact ⟨h1, h2, h3⟩
    simp only [expected]
    unfold goingOut
    rw [List.filter_append]
    unfold goingOut at ih
    rw [← ih]
    congr 1
    by_cases hx : a.passed = true ∧ Wanted sniffer (eps.map noOut) j (past ++ [a]) a.msg
    · rw [if_pos hx]
      by_cases hm : MayGoOut eps j a.msg
      · rw [if_pos ⟨hx.1, hw.mpr ⟨hx.2, hm⟩⟩]; simp [hm]
      · rw [if_neg (fun y => hm (hw.mp y.2).2)]; simp [hm]
    · rw [if_neg hx, if_neg (fun y => hx ⟨y.1, (hw.mp y.2).1⟩)]
      rfl

theorem expected_sniffer (s : Nat) (eps : List Ep) (j : Nat) : ∀ (as past : List Arrival),
    (expected 0 eps j past as).Sublist (expected s eps j past as)
  | [], _ => List.Sublist.refl _
  | a :: as, past => by
    have ih := expected_sniffer s eps j as (past ++ [a])
    simp only [expected]
    refine List.Sublist.append ?_ ih
    by_cases hx : a.passed = true ∧ Wanted 0 eps j (past ++ [a]) a.msg
    · have : Wanted s eps j (past ++ [a]) a.msg := by
        obtain ⟨h1, h2, h3⟩ := hx.2
        refine ⟨h1, h2, ?_⟩
        rcases h3 with h | h | h | h
        · exact .inl h
        · exact .inr (.inl h)
        · exact .inr (.inr (.inl h))
        · exact absurd rfl h.1
      rw [if_pos hx, if_pos ⟨hx.1, this⟩]
      exact List.Sublist.refl _
    · rw [if_neg hx]
      exact List.nil_sublist _

theorem expected_unheard (s : Nat) (eps : List Ep) (j : Nat) (hk : ∀ e, eps[j]? = some e → e.kind ≠ .log) :
    ∀ (as past : List Arrival), NeverHeard eps (past ++ as) j (s % 256) → expected s eps j past as = expected 0 eps j past as
  | [], _, _ => rfl
  | a :: as, past, h => by
    have ih := expected_unheard s eps j hk as (past ++ [a]) (by rw [List.append_assoc]; exact h)
    have hn : ∀ c, ¬ SeenAt eps (past ++ [a]) j (s % 256) c := by
      rintro c (⟨e, h1, h2, _⟩ | ⟨b, hb, h1, h2, _, h4⟩)
      · exact hk e h1 h2
      · refine h b ?_ h1 h4 h2
        simp only [List.mem_append, List.mem_cons, List.not_mem_nil, or_false] at hb ⊢
        rcases hb with hb | hb
        · exact .inl hb
        · exact .inr (.inl hb)
    have hw : Wanted s eps j (past ++ [a]) a.msg ↔ Wanted 0 eps j (past ++ [a]) a.msg := by
      simp [Wanted, hn]
    simp only [expected, ih]
    by_cases hx : a.passed = true ∧ Wanted 0 eps j (past ++ [a]) a.msg
    · rw [if_pos hx, if_pos ⟨hx.1, hw.mpr hx.2⟩]
    · rw [if_neg hx, if_neg (fun y => hx ⟨y.1, hw.mp y.2⟩)]

/-! ### C139 -/

/-- **C139** for outgoing filters: two routers whose configurations differ only in outgoing filters, and in which the same things
happen, accept the same messages, and every configured link `j` is handed, of one and the same messages `all` in the same order,
exactly those its own outgoing filters let through.  De-duplication, log endpoints and results of writes may be anything. -/
theorem C139_filters (env : Env σ) (env' : Env τ) (ht : TableOk env.tbl) (hn : SameDoor env env') (hsn : env'.sniffer = env.sniffer)
    (eps eps' : List Ep) (hc : ConfigOk eps) (ho : OnlyOut eps eps') (logs : Nat → σ) (logs' : Nat → τ) (evs : List RouterEv)
    (w : World σ) (as : List Arrival) (h : runRouter env (start eps logs) evs = some (w, as)) :
    ∃ w', runRouter env' (start eps' logs') evs = some (w', as) ∧
      ∀ j, LinkAt eps j → (∀ gone, RouterEv.hangups gone ∈ evs → j ∉ gone) →
        (∃ all : List Arrival, all.Sublist as ∧
          (writesTo j (start eps logs) w).map Sent.bytes = (goingOut eps j all).map (fun a => a.msg.data) ∧
          (writesTo j (start eps' logs') w').map Sent.bytes = (goingOut eps' j all).map (fun a => a.msg.data)) ∧
        (eps'[j]? = eps[j]? →
          (writesTo j (start eps' logs') w').map Sent.bytes = (writesTo j (start eps logs) w).map Sent.bytes) := by
  obtain ⟨w', h', _⟩ := runRouter_lock env env' hn evs (start_lock ho logs logs') h
  have ht' : TableOk env'.tbl := by rw [hn.tbl]; exact ht
  refine ⟨w', h', fun j hl hgone => ?_⟩
  have hl' : LinkAt eps' j := by
    refine ⟨by rw [onlyOut_len ho]; exact hl.1, fun i hi e' he' => ?_⟩
    have hx := onlyOut_at ho i
    rw [he'] at hx
    cases he : eps[i]? with
    | none => rw [he] at hx; cases hx
    | some e =>
      rw [he] at hx
      simp only [Option.map_some, Option.some.injEq] at hx
      have hk : (noOut e).kind ≠ .log := hl.2 i hi e he
      rw [← hx] at hk
      exact hk
  have e1 := C88_links env ht eps hc logs [] evs _ w [] as rfl h j hl (List.mem_range.mpr hl.1) hgone
  have e2 := C88_links env' ht' eps' (onlyOut_config ho hc) logs' [] evs _ w' [] as rfl h' j hl' (List.mem_range.mpr hl'.1) hgone
  rw [expected_out] at e1 e2
  rw [hsn, ho] at e2
  refine ⟨⟨_, expected_sublist _ _ _ _ _, e1, e2⟩, fun hj => ?_⟩
  have hg : ∀ l, goingOut eps' j l = goingOut eps j l := by
    intro l
    unfold goingOut MayGoOut
    rw [hj]
  rw [e1, e2, hg]

/-- **C139** for the sniffer: two routers with the same links, one with and one without a sniffer, in which the same things
happen, accept the same messages.  With the sniffer no configured link is handed less; and a link on which the sniffer system was
not heard is handed exactly the same. -/
theorem C139_sniffer (env : Env σ) (env' : Env τ) (ht : TableOk env.tbl) (hn : SameDoor env env') (hsn : env.sniffer = 0)
    (eps : List Ep) (hc : ConfigOk eps) (logs : Nat → σ) (logs' : Nat → τ) (evs : List RouterEv)
    (w : World σ) (as : List Arrival) (h : runRouter env (start eps logs) evs = some (w, as)) :
    ∃ w', runRouter env' (start eps logs') evs = some (w', as) ∧
      ∀ j e, eps[j]? = some e → e.kind ≠ .log → LinkAt eps j → (∀ gone, RouterEv.hangups gone ∈ evs → j ∉ gone) →
        ((writesTo j (start eps logs) w).map Sent.bytes).Sublist ((writesTo j (start eps logs') w').map Sent.bytes) ∧
        (NeverHeard eps as j (env'.sniffer.toNat % 256) →
          (writesTo j (start eps logs') w').map Sent.bytes = (writesTo j (start eps logs) w).map Sent.bytes) := by
  obtain ⟨w', h', _⟩ := runRouter_lock env env' hn evs (start_lock (eps := eps) rfl logs logs') h
  have ht' : TableOk env'.tbl := by rw [hn.tbl]; exact ht
  refine ⟨w', h', fun j e hj hk hl hgone => ?_⟩
  have e1 := C88_links env ht eps hc logs [] evs _ w [] as rfl h j hl (List.mem_range.mpr hl.1) hgone
  have e2 := C88_links env' ht' eps hc logs' [] evs _ w' [] as rfl h' j hl (List.mem_range.mpr hl.1) hgone
  rw [hsn] at e1
  rw [e1, e2]
  refine ⟨(expected_sniffer _ _ _ _ _).map _, fun hx => ?_⟩
  rw [expected_unheard _ eps j (fun y hy => by rw [hj] at hy; cases hy; exact hk) as [] hx]
  rfl

namespace Sample

/-- Three links, and the same with a filter on the third that blocks heartbeats. -/
def epsOut : List Ep := [{ kind := .uart }, { kind := .udp }, { kind := .tcp }]
def epsOut' : List Ep := [{ kind := .uart }, { kind := .udp }, { kind := .tcp, filters := { blockOutMsg := [0] } }]

/-- System 9 on the third link, a heartbeat of 1/1 on the first, a command of 42/200 to 1/1 on the second. -/
def outEvs : List RouterEv := [.read 2 (.got stranger.encode), .read 0 (.got hb2.encode), .read 1 (.got cmdTo1.encode)]

/-- The router with system 9 as sniffer. -/
def envSniff9 : Env Nat := { envQuiet with sniffer := 9 }

end Sample

theorem Sample.epsOut_ok : ConfigOk Sample.epsOut := by
  intro e he
  simp only [Sample.epsOut, List.mem_cons, List.not_mem_nil, or_false] at he
  rcases he with rfl | rfl | rfl <;> simp

/-- The filter takes the heartbeat from the third link, and nothing else. -/
example : TableOk Sample.envQuiet.tbl ∧ ConfigOk Sample.epsOut ∧ OnlyOut Sample.epsOut Sample.epsOut' ∧
    (∀ j, j < 3 → LinkAt Sample.epsOut j) ∧
    (runRouter Sample.envQuiet (start Sample.epsOut (fun _ => 0)) Sample.outEvs).map
      (fun r => r.1.out.map (fun o => (o.ep, o.bytes))) =
      some [(0, Sample.stranger.encode), (1, Sample.stranger.encode), (1, Sample.hb2.encode), (2, Sample.hb2.encode),
        (0, Sample.cmdTo1.encode)] ∧
    (runRouter Sample.envQuiet (start Sample.epsOut' (fun _ => 0)) Sample.outEvs).map
      (fun r => r.1.out.map (fun o => (o.ep, o.bytes))) =
      some [(0, Sample.stranger.encode), (1, Sample.stranger.encode), (1, Sample.hb2.encode), (0, Sample.cmdTo1.encode)] := by
  refine ⟨Sample.tbl_ok, Sample.epsOut_ok, rfl, ?_, by decide +kernel, by decide +kernel⟩
  intro j hj
  refine ⟨hj, fun i hi e he => ?_⟩
  have : e ∈ Sample.epsOut := List.mem_of_getElem? he
  simp only [Sample.epsOut, List.mem_cons, List.not_mem_nil, or_false] at this
  rcases this with rfl | rfl | rfl <;> simp

/-- The sniffer, on the third link, gets the command too. -/
example : SameDoor Sample.envQuiet Sample.envSniff9 ∧ Sample.envQuiet.sniffer = 0 ∧
    (runRouter Sample.envSniff9 (start Sample.epsOut (fun _ => 0)) Sample.outEvs).map
      (fun r => r.1.out.map (fun o => (o.ep, o.bytes))) =
      some [(0, Sample.stranger.encode), (1, Sample.stranger.encode), (1, Sample.hb2.encode), (2, Sample.hb2.encode),
        (0, Sample.cmdTo1.encode), (2, Sample.cmdTo1.encode)] :=
  ⟨⟨rfl, rfl, rfl, rfl⟩, rfl, by decide +kernel⟩

end Verif
