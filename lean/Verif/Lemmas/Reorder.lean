import Verif.Lemmas.Router
import Verif.Spec.Reorder

/- Helper lemmas for C117: two routers in lockstep whose endpoints have different numbers. -/

namespace Verif

open Spec

variable {σ : Type}

/-- An endpoint without its links (which are numbers). -/
def noLinks (e : Ep) : Ep := { e with members := [] }

/-- The two heaps hold the same endpoints under different numbers. -/
def SameHeap (ρ : Nat → Nat) (h h' : List Ep) : Prop := ∀ i : Nat, (h'[i]?).map noLinks = (h[ρ i]?).map noLinks

theorem SameHeap.get {ρ : Nat → Nat} {h h' : List Ep} (x : SameHeap ρ h h') {i : Nat} {e' : Ep} (he : h'[i]? = some e') :
    ∃ e, h[ρ i]? = some e ∧ noLinks e = noLinks e' := by
  have := x i
  rw [he] at this
  cases h1 : h[ρ i]? with
  | none => rw [h1] at this; cases this
  | some e => rw [h1] at this; exact ⟨e, rfl, (Option.some.inj this).symm⟩

theorem SameHeap.miss {ρ : Nat → Nat} {h h' : List Ep} (x : SameHeap ρ h h') {i : Nat} (he : h'[i]? = none) :
    h[ρ i]? = none := by
  have := x i
  rw [he] at this
  cases h1 : h[ρ i]? with
  | none => rfl
  | some e => rw [h1] at this; cases this

theorem noLinks_fields {e e' : Ep} (h : noLinks e = noLinks e') : e.kind = e'.kind ∧ e.group = e'.group ∧ e.filters = e'.filters ∧
    e.learned = e'.learned ∧ e.rx = e'.rx ∧ e.fdOpen = e'.fdOpen := by
  have h1 := congrArg Ep.kind h
  have h2 := congrArg Ep.group h
  have h3 := congrArg Ep.filters h
  have h4 := congrArg Ep.learned h
  have h5 := congrArg Ep.rx h
  have h6 := congrArg Ep.fdOpen h
  exact ⟨h1, h2, h3, h4, h5, h6⟩

theorem SameHeap.kind {ρ : Nat → Nat} {h h' : List Ep} (x : SameHeap ρ h h') (i : Nat) :
    (h'[i]?).map Ep.kind = (h[ρ i]?).map Ep.kind := by
  have := congrArg (Option.map Ep.kind) (x i)
  simpa [Option.map_map, Function.comp_def, noLinks] using this

theorem SameHeap.decision {ρ : Nat → Nat} {h h' : List Ep} (x : SameHeap ρ h h') (s : UInt16) (m : Msg) (i : Nat) :
    decisionAt s h' m i = decisionAt s h m (ρ i) := by
  have := congrArg (Option.map (fun e => acceptMsg s e m)) (x i)
  rw [Option.map_map, Option.map_map] at this
  exact this

theorem SameHeap.peer {ρ : Nat → Nat} {h h' : List Ep} (x : SameHeap ρ h h') (inj : ∀ i j, ρ i = ρ j → i = j) (i k : Nat) :
    Peer h' i k ↔ Peer h (ρ i) (ρ k) := by
  unfold Peer
  constructor
  · rintro (rfl | ⟨a, b, ha, hb, hn, hq⟩)
    · exact .inl rfl
    · obtain ⟨a1, ha1, va⟩ := x.get ha
      obtain ⟨b1, hb1, vb⟩ := x.get hb
      have ga := (noLinks_fields va).2.1
      have gb := (noLinks_fields vb).2.1
      exact .inr ⟨a1, b1, ha1, hb1, by rw [ga]; exact hn, by rw [ga, gb]; exact hq⟩
  · rintro (he | ⟨a, b, ha, hb, hn, hq⟩)
    · exact .inl (inj _ _ he)
    · have hget : ∀ (i : Nat) (a : Ep), h[ρ i]? = some a → ∃ a', h'[i]? = some a' ∧ noLinks a = noLinks a' := by
        intro i a ha
        cases h1 : h'[i]? with
        | none => rw [x.miss h1] at ha; cases ha
        | some a' =>
          obtain ⟨a1, g1, g2⟩ := x.get h1
          rw [ha] at g1; cases g1
          exact ⟨a', rfl, g2⟩
      obtain ⟨a1, ha1, va⟩ := hget i a ha
      obtain ⟨b1, hb1, vb⟩ := hget k b hb
      have ga := (noLinks_fields va).2.1
      have gb := (noLinks_fields vb).2.1
      exact .inr ⟨a1, b1, ha1, hb1, by rw [← ga]; exact hn, by rw [← ga, ← gb]; exact hq⟩

/-- Learning is the same in both heaps. -/
theorem SameHeap.learn {ρ : Nat → Nat} {h h' g g' : List Ep} (x : SameHeap ρ h h') (inj : ∀ i j, ρ i = ρ j → i = j) {id : UInt16}
    {i : Nat} (l : Learned id h [ρ i] g) (l' : Learned id h' [i] g') (hg : Grouped h) (hc : Closed h) (hg' : Grouped h')
    (hc' : Closed h') (hi : ρ i < h.length) (hi' : i < h'.length) : SameHeap ρ g g' := by
  intro k
  cases h1 : h'[k]? with
  | none =>
    have e1 : g'[k]? = none := by
      rw [List.getElem?_eq_none_iff, l'.grow.len, ← List.getElem?_eq_none_iff]; exact h1
    have e2 : g[ρ k]? = none := by
      rw [List.getElem?_eq_none_iff, l.grow.len, ← List.getElem?_eq_none_iff]; exact x.miss h1
    rw [e1, e2]
  | some e' =>
    obtain ⟨e, he, hv⟩ := x.get h1
    obtain ⟨f', hf', c'⟩ := l'.exact hg' hc' hi' k e' h1
    obtain ⟨f, hf, c⟩ := l.exact hg hc hi (ρ k) e he
    rw [hf, hf']
    have hl := (noLinks_fields hv).2.2.2.1
    have hp := x.peer inj i k
    simp only [Option.map_some, Option.some.injEq]
    rcases c' with ⟨p1, p2, rfl⟩ | ⟨p1, rfl⟩ <;> rcases c with ⟨q1, q2, rfl⟩ | ⟨q1, rfl⟩
    · have e1 : ∀ a : Ep, noLinks { a with learned := a.learned ++ [id] } =
          { noLinks a with learned := (noLinks a).learned ++ [id] } := fun _ => rfl
      rw [e1, e1, hv]
    · rcases q1 with q | q
      · exact absurd (hp.mp p1) q
      · rw [hl] at q; exact absurd q p2
    · rcases p1 with q | q
      · exact absurd (hp.mpr q1) q
      · rw [hl] at q2; exact absurd q q2
    · exact hv.symm

/-- Changing one endpoint in both heaps. -/
theorem SameHeap.set {ρ : Nat → Nat} {h h' : List Ep} (x : SameHeap ρ h h') (inj : ∀ i j, ρ i = ρ j → i = j) {i : Nat} {a b e e' : Ep}
    (hi : h[ρ i]? = some e) (hi' : h'[i]? = some e') (hv : noLinks a = noLinks b) : SameHeap ρ (h.set (ρ i) a) (h'.set i b) := by
  intro k
  by_cases hk : k = i
  · subst hk
    rw [List.getElem?_set_self (List.getElem?_eq_some_iff.mp hi).1, List.getElem?_set_self (List.getElem?_eq_some_iff.mp hi').1]
    simp [hv]
  · rw [List.getElem?_set_ne (fun h => hk h.symm), List.getElem?_set_ne (fun h => hk (inj _ _ h).symm)]
    exact x k

/-- The two routers agree up to the numbers of the endpoints. -/
structure Reorder (ρ : Nat → Nat) (w w' : World σ) : Prop where
  inj : ∀ i j, ρ i = ρ j → i = j
  top : ∀ i, w.eps.length ≤ i → ρ i = i
  len : w'.eps.length = w.eps.length
  heap : SameHeap ρ w.eps w'.eps
  logFix : ∀ i, isLogEp w'.eps i = true → ρ i = i
  act : ∃ A A' R, w.active = A ++ R ∧ w'.active = A' ++ R ∧ (A'.map ρ).Perm A ∧ (∀ i ∈ A, isLogEp w.eps i = false) ∧
    (∀ i ∈ A', isLogEp w'.eps i = false) ∧ (∀ i ∈ R, ρ i = i) ∧ A.Nodup ∧ A'.Nodup
  logs : w'.logs = w.logs
  unknown : w'.unknown = w.unknown
  reported : w'.reported = w.reported
  dedup : w'.dedup = w.dedup
  checks : w'.checks = w.checks
  out : ∀ i, givenTo w' i = givenTo w (ρ i)

theorem givenTo_append (w v : World σ) (x : List Sent) (h : v.out = w.out ++ x) (j : Nat) :
    givenTo v j = givenTo w j ++ (x.filter (fun s => s.ep == j)).map (fun s => (s.bytes, s.gen)) := by
  unfold givenTo
  rw [h, List.filter_append, List.map_append]

/-- Writing a message to the same endpoint in both routers. -/
theorem write_reorder (env env' : Env σ) (hlog : env'.log = env.log) {ρ : Nat → Nat} {r r' : World σ → Msg → World σ}
    (hr : ∀ v v' g, Reorder ρ v v' → Reorder ρ (r v g) (r' v' g)) (gen : Bool) (w w' : World σ) (x : Reorder ρ w w') (i : Nat)
    (hi : ρ i = i) (m : Msg) : Reorder ρ (writeMsg env r gen w i m).1 (writeMsg env' r' gen w' i m).1 ∧
      (writeMsg env' r' gen w' i m).2 = (writeMsg env r gen w i m).2 := by
  have hk := x.heap.kind i
  rw [hi] at hk
  have hout : ∀ (v v' : World σ), v.out = w.out ++ [{ ep := i, bytes := m.data, gen := gen }] →
      v'.out = w'.out ++ [{ ep := i, bytes := m.data, gen := gen }] → ∀ j, givenTo v' j = givenTo v (ρ j) := by
    intro v v' hv hv' j
    rw [givenTo_append w v _ hv, givenTo_append w' v' _ hv', x.out j]
    congr 2
    by_cases hj : j = i
    · subst hj; simp [hi]
    · have : ρ j ≠ i := fun h => hj (x.inj _ _ (h.trans hi.symm))
      rw [List.filter_cons_of_neg (by simp; exact fun h => hj h.symm), List.filter_cons_of_neg (by simp; exact fun h => this h.symm)]
      rfl
  unfold writeMsg
  rw [hk]
  split
  · rw [hlog, x.logs]
    simp only
    have hfold : ∀ (gs : List Msg) (v v' : World σ), Reorder ρ v v' → Reorder ρ (gs.foldl r v) (gs.foldl r' v') := by
      intro gs
      induction gs with
      | nil => intro v v' h; exact h
      | cons g gs ih => intro v v' h; exact ih _ _ (hr v v' g h)
    refine ⟨hfold _ _ _ ⟨x.inj, x.top, x.len, x.heap, x.logFix, x.act, rfl, x.unknown, x.reported, x.dedup, x.checks, hout _ _ rfl rfl⟩, trivial⟩
  · exact ⟨⟨x.inj, x.top, x.len, x.heap, x.logFix, x.act, x.logs, x.unknown, x.reported, x.dedup, x.checks, hout _ _ rfl rfl⟩, rfl⟩

/-- The rest of the list, where both routers have the same numbers. -/
theorem loop_rest (env env' : Env σ) (hlog : env'.log = env.log) (hsn : env'.sniffer = env.sniffer) {ρ : Nat → Nat}
    {r r' : World σ → Msg → World σ} (hr : ∀ v v' g, Reorder ρ v v' → Reorder ρ (r v g) (r' v' g)) (gen : Bool) :
    ∀ (R : List Nat) (w w' : World σ) (m : Msg) (u : Bool), (∀ i ∈ R, ρ i = i) → Reorder ρ w w' →
    Reorder ρ (routeLoop env r gen R w m u).1 (routeLoop env' r' gen R w' m u).1 ∧
      (routeLoop env' r' gen R w' m u).2 = (routeLoop env r gen R w m u).2 := by
  intro R
  induction R with
  | nil => intro w w' m u _ x; exact ⟨x, rfl⟩
  | cons i R ih =>
    intro w w' m u hR x
    have hi := hR i (List.mem_cons_self ..)
    have hR' : ∀ k ∈ R, ρ k = k := fun k hk => hR k (List.mem_cons_of_mem _ hk)
    rw [routeLoop, routeLoop]
    cases h1 : w'.eps[i]? with
    | none =>
      have h2 := x.heap.miss h1
      rw [hi] at h2
      rw [h2]
      exact ih w w' m u hR' x
    | some e' =>
      obtain ⟨e, h2, hv⟩ := x.heap.get h1
      rw [hi] at h2
      rw [h2]
      simp only
      have hacc : acceptMsg env'.sniffer e' m = acceptMsg env.sniffer e m := by
        rw [hsn]
        exact (congrArg (fun e => acceptMsg env.sniffer e m) hv).symm
      rw [hacc]
      cases acceptMsg env.sniffer e m with
      | rejected => exact ih w w' m u hR' x
      | filtered => exact ih w w' m false hR' x
      | accepted =>
        simp only
        obtain ⟨y, hd⟩ := write_reorder env env' hlog hr gen w w' x i hi m
        rw [hd]
        exact ih _ _ _ _ hR' y

/-- The first part of the list, without log endpoints: only the trace changes. -/
theorem loop_plain (env : Env σ) (r : World σ → Msg → World σ) (gen : Bool) (R : List Nat) (m : Msg) :
    ∀ (A : List Nat) (w : World σ) (u : Bool), (∀ i ∈ A, isLogEp w.eps i = false) →
    ∃ po hu, routeLoop env r gen (A ++ R) w m u = routeLoop env r gen R
      { w with out := w.out ++ (A.filter (fun i => decisionAt env.sniffer w.eps m i == some .accepted)).map
                        (fun i => { ep := i, bytes := m.data, gen := gen })
               pollOut := po, hangup := hu } m
      (u && A.all (fun i => decisionAt env.sniffer w.eps m i != some .accepted &&
        decisionAt env.sniffer w.eps m i != some .filtered)) := by
  intro A
  induction A with
  | nil => intro w u _; exact ⟨w.pollOut, w.hangup, by simp⟩
  | cons i A ih =>
    intro w u hA
    have hA' : ∀ k ∈ A, isLogEp w.eps k = false := fun k hk => hA k (List.mem_cons_of_mem _ hk)
    have hl := hA i (List.mem_cons_self ..)
    rw [List.cons_append, routeLoop]
    cases he : w.eps[i]? with
    | none =>
      have hd : decisionAt env.sniffer w.eps m i = none := by simp [decisionAt, he]
      obtain ⟨po, hu, h⟩ := ih w u hA'
      refine ⟨po, hu, ?_⟩
      simp only
      rw [h, List.filter_cons_of_neg (by rw [hd]; simp), List.all_cons, hd]
      rfl
    | some e =>
      have hd : decisionAt env.sniffer w.eps m i = some (acceptMsg env.sniffer e m) := by simp [decisionAt, he]
      simp only
      cases ha : acceptMsg env.sniffer e m with
      | rejected =>
        obtain ⟨po, hu, h⟩ := ih w u hA'
        refine ⟨po, hu, ?_⟩
        simp only
        rw [h, List.filter_cons_of_neg (by rw [hd, ha]; decide), List.all_cons, hd, ha]
        rfl
      | filtered =>
        obtain ⟨po, hu, h⟩ := ih w false hA'
        refine ⟨po, hu, ?_⟩
        simp only
        rw [h, List.filter_cons_of_neg (by rw [hd, ha]; decide), List.all_cons, hd, ha]
        simp
      | accepted =>
        simp only
        have hkind : e.kind ≠ .log := by intro hk; simp [isLogEp, he, hk] at hl
        have hw : ∃ po hu, writeMsg env r gen w i m =
            ({ w with out := w.out ++ [{ ep := i, bytes := m.data, gen := gen }], pollOut := po, hangup := hu }, m.data) := by
          unfold writeMsg
          rw [he]
          simp only [Option.map_some]
          split
          · rename_i h; exact absurd (Option.some.inj h) hkind
          · exact ⟨_, _, rfl⟩
        obtain ⟨p1, u1, hw⟩ := hw
        rw [hw]
        simp only
        obtain ⟨po, hu, h⟩ := ih { w with out := w.out ++ [{ ep := i, bytes := m.data, gen := gen }], pollOut := p1, hangup := u1 }
          false hA'
        refine ⟨po, hu, ?_⟩
        rw [h, List.filter_cons_of_pos (by rw [hd, ha]; rfl), List.all_cons, hd, ha]
        simp

theorem filter_eq_ite (A : List Nat) (hA : A.Nodup) (p : Nat → Bool) (j : Nat) :
    (A.filter p).filter (fun i => i == j) = if j ∈ A ∧ p j = true then [j] else [] := by
  induction A with
  | nil => simp
  | cons a A ih =>
    rw [List.nodup_cons] at hA
    have ih := ih hA.2
    by_cases hp : p a = true
    · rw [List.filter_cons_of_pos hp]
      by_cases ha : a = j
      · subst ha
        rw [List.filter_cons_of_pos (by simp), ih, if_neg (fun h => hA.1 h.1), if_pos ⟨List.mem_cons_self .., hp⟩]
      · rw [List.filter_cons_of_neg (by simp [ha]), ih]
        have : (j ∈ a :: A) ↔ j ∈ A := by
          rw [List.mem_cons]; exact ⟨fun h => h.resolve_left (fun h => ha h.symm), .inr⟩
        simp only [this]
    · rw [List.filter_cons_of_neg hp, ih]
      by_cases ha : a = j
      · subst ha
        rw [if_neg (fun h => hp h.2), if_neg (fun h => hp h.2)]
      · have : (j ∈ a :: A) ↔ j ∈ A := by
          rw [List.mem_cons]; exact ⟨fun h => h.resolve_left (fun h => ha h.symm), .inr⟩
        simp only [this]

theorem given_of_plain (A : List Nat) (hA : A.Nodup) (p : Nat → Bool) (d : List UInt8) (g : Bool) (j : Nat) :
    (((A.filter p).map (fun i => ({ ep := i, bytes := d, gen := g } : Sent))).filter (fun s => s.ep == j)).map
      (fun s => (s.bytes, s.gen)) = if j ∈ A ∧ p j = true then [(d, g)] else [] := by
  rw [List.filter_map, List.map_map]
  rw [show (fun s : Sent => s.ep == j) ∘ (fun i => ({ ep := i, bytes := d, gen := g } : Sent)) = fun i => i == j from rfl,
    filter_eq_ite A hA p j]
  split <;> rfl

theorem routeMsg_reorder (env env' : Env σ) (hlog : env'.log = env.log) (hsn : env'.sniffer = env.sniffer) {ρ : Nat → Nat} :
    ∀ (d : Nat) (gen : Bool) (w w' : World σ) (m : Msg), Reorder ρ w w' →
    Reorder ρ (routeMsg env d gen w m) (routeMsg env' d gen w' m) := by
  intro d
  induction d with
  | zero => intro gen w w' m x; exact x
  | succ d ih =>
    intro gen w w' m x
    obtain ⟨A, A', R, a1, a2, a3, a4, a5, a6, a7, a8⟩ := x.act
    obtain ⟨po, hu, h⟩ := loop_plain env (routeMsg env d true) gen R m A w true a4
    obtain ⟨po', hu', h'⟩ := loop_plain env' (routeMsg env' d true) gen R m A' w' true a5
    rw [← a1] at h
    rw [← a2] at h'
    have hflag : A'.all (fun i => decisionAt env'.sniffer w'.eps m i != some .accepted &&
        decisionAt env'.sniffer w'.eps m i != some .filtered) = A.all (fun i => decisionAt env.sniffer w.eps m i != some .accepted &&
        decisionAt env.sniffer w.eps m i != some .filtered) := by
      rw [← a3.all_eq, List.all_map]
      congr 1
      funext i
      simp only [Function.comp, hsn, x.heap.decision]
    have hmem : ∀ j, j ∈ A' ↔ ρ j ∈ A := by
      intro j
      rw [← a3.mem_iff, List.mem_map]
      constructor
      · intro hj; exact ⟨j, hj, rfl⟩
      · rintro ⟨k, hk, he⟩; rw [← x.inj _ _ he]; exact hk
    have y : Reorder ρ
        { w with out := w.out ++ (A.filter (fun i => decisionAt env.sniffer w.eps m i == some .accepted)).map
                          (fun i => { ep := i, bytes := m.data, gen := gen })
                 pollOut := po, hangup := hu }
        { w' with out := w'.out ++ (A'.filter (fun i => decisionAt env'.sniffer w'.eps m i == some .accepted)).map
                          (fun i => { ep := i, bytes := m.data, gen := gen })
                  pollOut := po', hangup := hu' } := by
      refine ⟨x.inj, x.top, x.len, x.heap, x.logFix, x.act, x.logs, x.unknown, x.reported, x.dedup, x.checks, ?_⟩
      intro j
      rw [givenTo_append w { w with out := _, pollOut := po, hangup := hu } _ rfl,
        givenTo_append w' { w' with out := _, pollOut := po', hangup := hu' } _ rfl, x.out j, given_of_plain A a7, given_of_plain A' a8, hsn,
        x.heap.decision]
      simp only [hmem j]
    obtain ⟨z, zf⟩ := loop_rest env env' hlog hsn (r := routeMsg env d true) (r' := routeMsg env' d true) (ih true) gen R _ _ m
      (true && A.all (fun i => decisionAt env.sniffer w.eps m i != some .accepted &&
        decisionAt env.sniffer w.eps m i != some .filtered)) a6 y
    rw [← h] at z zf
    rw [hflag] at h'
    rw [← h'] at z zf
    unfold routeMsg
    simp only
    rw [zf]
    split
    · exact ⟨z.inj, z.top, z.len, z.heap, z.logFix, z.act, z.logs, by
        show _ + 1 = _ + 1
        rw [z.unknown], z.reported, z.dedup, z.checks, z.out⟩
    · exact z

theorem isLogEp_same {ρ : Nat → Nat} {h h' : List Ep} (x : SameHeap ρ h h') (i : Nat) : isLogEp h' i = isLogEp h (ρ i) := by
  unfold isLogEp
  rw [x.kind]

theorem Reorder.rebase {ρ : Nat → Nat} {w w' : World σ} (x : Reorder ρ w w') {g g' : List Ep} (hx : Ext w.eps g) (hl : g.length = w.eps.length)
    (hx' : Ext w'.eps g') (hl' : g'.length = w'.eps.length) (h : SameHeap ρ g g') (d : Dedup) (c : Nat) :
    Reorder ρ { w with eps := g, dedup := d, checks := c } { w' with eps := g', dedup := d, checks := c } := by
  obtain ⟨A, A', R, a1, a2, a3, a4, a5, a6, a7, a8⟩ := x.act
  have e1 : ∀ i, isLogEp g i = isLogEp w.eps i := by
    intro i
    unfold isLogEp
    cases h1 : g[i]? with
    | none =>
      rw [List.getElem?_eq_none_iff, hl, ← List.getElem?_eq_none_iff] at h1
      rw [h1]
    | some e =>
      have hlt : i < w.eps.length := by rw [← hl]; exact (List.getElem?_eq_some_iff.mp h1).1
      obtain ⟨y, hy, hk, _⟩ := hx.each i _ (List.getElem?_eq_getElem hlt)
      rw [h1] at hy; cases hy
      rw [List.getElem?_eq_getElem hlt]; simp [hk]
  have e2 : ∀ i, isLogEp g' i = isLogEp w'.eps i := by
    intro i
    unfold isLogEp
    cases h1 : g'[i]? with
    | none =>
      rw [List.getElem?_eq_none_iff, hl', ← List.getElem?_eq_none_iff] at h1
      rw [h1]
    | some e =>
      have hlt : i < w'.eps.length := by rw [← hl']; exact (List.getElem?_eq_some_iff.mp h1).1
      obtain ⟨y, hy, hk, _⟩ := hx'.each i _ (List.getElem?_eq_getElem hlt)
      rw [h1] at hy; cases hy
      rw [List.getElem?_eq_getElem hlt]; simp [hk]
  refine ⟨x.inj, ?_, ?_, h, ?_, ⟨A, A', R, a1, a2, a3, ?_, ?_, a6, a7, a8⟩, x.logs, x.unknown, x.reported, rfl, rfl, x.out⟩
  · intro i hi
    exact x.top i (by rw [← hl]; exact hi)
  · show g'.length = g.length
    rw [hl, hl', x.len]
  · intro i hi
    exact x.logFix i (by rw [← e2]; exact hi)
  · intro i hi
    show isLogEp g i = false
    rw [e1]; exact a4 i hi
  · intro i hi
    show isLogEp g' i = false
    rw [e2]; exact a5 i hi

theorem handleMsg_reorder (env env' : Env σ) (hn : SameAll env env') {ρ : Nat → Nat} (w w' : World σ) (hw : RouterInv w)
    (hw' : RouterInv w') (x : Reorder ρ w w') (i : Nat) (m : Msg) {w1' b} (h : handleMsg env' w' i m = some (w1', b)) :
    ∃ w1, handleMsg env w (ρ i) m = some (w1, b) ∧ Reorder ρ w1 w1' := by
  unfold handleMsg at h ⊢
  rw [x.dedup, x.checks, hn.net.hashFn, hn.net.dedupPeriod, hn.net.clock] at h
  cases hi : w'.eps[i]? with
  | none =>
    rw [hi] at h
    cases h
    rw [x.heap.miss hi]
    exact ⟨w, rfl, x⟩
  | some e' =>
    obtain ⟨e, he, hv⟩ := x.heap.get hi
    have hf := (noLinks_fields hv).2.2.1
    rw [hi] at h
    rw [he]
    simp only at h ⊢
    cases hd : w.dedup.check env.hashFn env.dedupPeriod (env.clock w.checks) m.data with
    | none => rw [hd] at h; cases h
    | some r =>
      obtain ⟨d, isNew⟩ := r
      rw [hd] at h
      simp only at h ⊢
      have y : Reorder ρ { w with dedup := d, checks := w.checks + 1 } { w' with dedup := d, checks := w.checks + 1 } :=
        ⟨x.inj, x.top, x.len, x.heap, x.logFix, x.act, x.logs, x.unknown, x.reported, rfl, rfl, x.out⟩
      rw [hf]
      split at h
      · rename_i hnew
        cases h
        rw [if_pos hnew]
        exact ⟨_, rfl, y⟩
      · rename_i hnew
        rw [if_neg hnew]
        split at h
        · rename_i hal
          cases h
          rw [if_pos hal]
          exact ⟨_, rfl, y⟩
        · rename_i hal
          rw [if_neg hal]
          obtain ⟨g, hg, l⟩ := addSysComp_learned (sysComp m.srcSys m.srcComp) (w.eps.length + 1) w.eps (ρ i)
            (by have := lack_le_length (sysComp m.srcSys m.srcComp) w.eps; omega)
          obtain ⟨g', hg', l'⟩ := addSysComp_learned (sysComp m.srcSys m.srcComp) (w'.eps.length + 1) w'.eps i
            (by have := lack_le_length (sysComp m.srcSys m.srcComp) w'.eps; omega)
          rw [hg'] at h
          rw [hg]
          simp only [Option.some.injEq, Prod.mk.injEq] at h ⊢
          obtain ⟨rfl, rfl⟩ := h
          have hs := x.heap.learn x.inj l l' hw.grouped hw.closed hw'.grouped hw'.closed
            (List.getElem?_eq_some_iff.mp he).1 (List.getElem?_eq_some_iff.mp hi).1
          have z := x.rebase l.grow.ext l.grow.len l'.grow.ext l'.grow.len hs d (w.checks + 1)
          exact ⟨_, ⟨rfl, rfl⟩, routeMsg_reorder env env' hn.log hn.net.sniffer 2 false _ _ m z⟩

theorem runMsgs_reorder (env env' : Env σ) (hn : SameAll env env') {ρ : Nat → Nat} (i : Nat) : ∀ (ms : List Msg) (w w' : World σ),
    RouterInv w → RouterInv w' → Reorder ρ w w' → ∀ {w1' as}, runMsgs env' i w' ms = some (w1', as) →
    ∃ w1, runMsgs env (ρ i) w ms = some (w1, as.map (renameArrival ρ)) ∧ Reorder ρ w1 w1' := by
  intro ms
  induction ms with
  | nil =>
    intro w w' _ _ x w1' as h
    cases h
    exact ⟨w, rfl, x⟩
  | cons m ms ih =>
    intro w w' hw hw' x w1' as h
    obtain ⟨w2', b, h1, h2, _⟩ := handleMsg_spec env' w' hw' i m
    obtain ⟨w2, g1, g2⟩ := handleMsg_reorder env env' hn w w' hw hw' x i m h1
    obtain ⟨w2s, bs, g1s, g3, _⟩ := handleMsg_spec env w hw (ρ i) m
    rw [g1] at g1s
    cases g1s
    simp only [runMsgs, h1] at h
    cases hr : runMsgs env' i w2' ms with
    | none => rw [hr] at h; cases h
    | some r =>
      obtain ⟨w3', cs⟩ := r
      rw [hr] at h
      cases h
      obtain ⟨w3, k1, k2⟩ := ih w2 w2' g3 h2 g2 hr
      exact ⟨w3, by simp only [runMsgs, g1, k1]; rfl, k2⟩

theorem routerStep_reorder (env env' : Env σ) (hn : SameAll env env') {ρ : Nat → Nat} (w w' : World σ) (hw : RouterInv w)
    (hw' : RouterInv w') (x : Reorder ρ w w') (ev : RouterEv) {w1' as} (h : routerStep env' w' ev = some (w1', as)) :
    ∃ w1, routerStep env w (renameEv ρ ev) = some (w1, as.map (renameArrival ρ)) ∧ Reorder ρ w1 w1' := by
  cases ev with
  | read i io =>
    simp only [routerStep, renameEv, handleRead] at h ⊢
    cases hi : w'.eps[i]? with
    | none =>
      rw [hi] at h
      cases h
      rw [x.heap.miss hi]
      exact ⟨w, rfl, x⟩
    | some e' =>
      obtain ⟨e, he, hv⟩ := x.heap.get hi
      rw [hi] at h
      rw [he]
      simp only at h ⊢
      obtain ⟨_, _, _, _, hrx, hfd⟩ := noLinks_fields hv
      obtain ⟨j1, j2⟩ := set_inv hw (e' := { e with rx := (drain env.tbl e.fdOpen (rxBufMax + 1) e.rx io).1 })
        he rfl rfl rfl rfl rfl
      obtain ⟨j1', j2'⟩ := set_inv hw' (e' := { e' with rx := (drain env'.tbl e'.fdOpen (rxBufMax + 1) e'.rx io).1 })
        hi rfl rfl rfl rfl rfl
      have hms : drain env.tbl e.fdOpen (rxBufMax + 1) e.rx io = drain env'.tbl e'.fdOpen (rxBufMax + 1) e'.rx io := by
        rw [hn.net.tbl, hrx, hfd]
      have hs : SameHeap ρ (w.eps.set (ρ i) { e with rx := (drain env.tbl e.fdOpen (rxBufMax + 1) e.rx io).1 })
          (w'.eps.set i { e' with rx := (drain env'.tbl e'.fdOpen (rxBufMax + 1) e'.rx io).1 }) := by
        refine x.heap.set x.inj he hi ?_
        rw [hms]
        exact congrArg (fun e : Ep => { e with rx := (drain env'.tbl e'.fdOpen (rxBufMax + 1) e'.rx io).1 }) hv
      have z := x.rebase j2.ext (by simp) j2'.ext (by simp) hs w.dedup w.checks
      have zw : ({ w' with eps := w'.eps.set i { e' with rx := (drain env'.tbl e'.fdOpen (rxBufMax + 1) e'.rx io).1 }
                           dedup := w.dedup, checks := w.checks } : World σ) =
          { w' with eps := w'.eps.set i { e' with rx := (drain env'.tbl e'.fdOpen (rxBufMax + 1) e'.rx io).1 } } := by
        rw [← x.dedup, ← x.checks]
      rw [zw] at z
      obtain ⟨w1, k1, k2⟩ := runMsgs_reorder env env' hn i _ _ _ j1 j1' z h
      refine ⟨w1, ?_, k2⟩
      rw [← k1, hms]
  | accept =>
    simp only [routerStep, renameEv, Option.some.injEq, Prod.mk.injEq] at h ⊢
    obtain ⟨rfl, rfl⟩ := h
    refine ⟨_, ⟨rfl, rfl⟩, ?_⟩
    obtain ⟨A, A', R, a1, a2, a3, a4, a5, a6, a7, a8⟩ := x.act
    have hkeep : ∀ (h : List Ep) (i : Nat), isLogEp (h ++ [{ kind := .tcp }]) i = isLogEp h i := by
      intro h i
      unfold isLogEp
      by_cases hlt : i < h.length
      · rw [List.getElem?_append_left hlt]
      · rw [List.getElem?_append_right (by omega), List.getElem?_eq_none_iff.mpr (by omega : h.length ≤ i)]
        cases i - h.length <;> simp
    have htop : ρ w.eps.length = w.eps.length := x.top _ (Nat.le_refl _)
    refine ⟨x.inj, ?_, ?_, ?_, ?_, ⟨A, A', R ++ [w.eps.length], ?_, ?_, a3, ?_, ?_, ?_, a7, a8⟩, x.logs, x.unknown, x.reported, x.dedup,
      x.checks, x.out⟩
    · intro i hi
      simp only [List.length_append, List.length_singleton] at hi
      exact x.top i (by omega)
    · simp [x.len]
    · intro k
      show ((w'.eps ++ _)[k]?).map _ = ((w.eps ++ _)[ρ k]?).map _
      by_cases hlt : k < w'.eps.length
      · have hk := x.heap k
        have h1 := List.getElem?_eq_getElem hlt
        obtain ⟨e, he, _⟩ := x.heap.get h1
        rw [List.getElem?_append_left hlt, List.getElem?_append_left (List.getElem?_eq_some_iff.mp he).1]
        exact hk
      · rw [x.top k (by rw [← x.len]; omega), List.getElem?_append_right (by omega), List.getElem?_append_right (by rw [← x.len]; omega),
          x.len]
    · intro i hi
      refine x.logFix i ?_
      rw [← hkeep]; exact hi
    · show w.active ++ _ = _
      rw [a1, List.append_assoc]
    · show w'.active ++ _ = _
      rw [a2, List.append_assoc, x.len]
    · intro i hi
      show isLogEp (w.eps ++ _) i = false
      rw [hkeep]; exact a4 i hi
    · intro i hi
      show isLogEp (w'.eps ++ _) i = false
      rw [hkeep]; exact a5 i hi
    · intro i hi
      rcases List.mem_append.mp hi with hi | hi
      · exact a6 i hi
      · rw [List.mem_singleton] at hi; subst hi; exact htop
  | hangups gone =>
    simp only [routerStep, renameEv, Option.some.injEq, Prod.mk.injEq] at h ⊢
    obtain ⟨rfl, rfl⟩ := h
    refine ⟨_, ⟨rfl, rfl⟩, ?_⟩
    obtain ⟨A, A', R, a1, a2, a3, a4, a5, a6, a7, a8⟩ := x.act
    have hmem : ∀ i, ρ i ∈ gone.map ρ ↔ i ∈ gone := by
      intro i
      rw [List.mem_map]
      constructor
      · rintro ⟨k, hk, he⟩; rw [← x.inj _ _ he]; exact hk
      · intro hi; exact ⟨i, hi, rfl⟩
    refine ⟨x.inj, x.top, x.len, x.heap, x.logFix, ⟨A.filter (fun i => i ∉ gone.map ρ), A'.filter (fun i => i ∉ gone),
      R.filter (fun i => i ∉ gone), ?_, ?_, ?_, ?_, ?_, ?_, ?_, ?_⟩, x.logs, x.unknown, x.reported, x.dedup, x.checks, x.out⟩
    · show w.active.filter _ = _
      rw [a1, List.filter_append]
      congr 1
      apply List.filter_congr
      intro i hi
      rw [decide_eq_decide, ← hmem i, a6 i hi]
    · show w'.active.filter _ = _
      rw [a2, List.filter_append]
    · have := a3.filter (fun i => decide (i ∉ gone.map ρ))
      rw [List.filter_map] at this
      have hf : A'.filter (fun i => decide (i ∉ gone)) = A'.filter ((fun i => decide (i ∉ gone.map ρ)) ∘ ρ) := by
        apply List.filter_congr
        intro i _
        simp only [Function.comp, hmem i]
      rw [hf]
      exact this
    · intro i hi; exact a4 i (List.mem_filter.mp hi).1
    · intro i hi; exact a5 i (List.mem_filter.mp hi).1
    · intro i hi; exact a6 i (List.mem_filter.mp hi).1
    · exact a7.filter _
    · exact a8.filter _
  | fd i o =>
    simp only [routerStep, renameEv] at h ⊢
    cases hi : w'.eps[i]? with
    | none =>
      rw [hi] at h
      cases h
      rw [x.heap.miss hi]
      exact ⟨w, rfl, x⟩
    | some e' =>
      obtain ⟨e, he, hv⟩ := x.heap.get hi
      rw [hi] at h
      rw [he]
      simp only [Option.some.injEq, Prod.mk.injEq] at h ⊢
      obtain ⟨rfl, rfl⟩ := h
      obtain ⟨_, j2⟩ := set_inv hw (e' := { e with fdOpen := o }) he rfl rfl rfl rfl rfl
      obtain ⟨_, j2'⟩ := set_inv hw' (e' := { e' with fdOpen := o }) hi rfl rfl rfl rfl rfl
      have hs : SameHeap ρ (w.eps.set (ρ i) { e with fdOpen := o }) (w'.eps.set i { e' with fdOpen := o }) :=
        x.heap.set x.inj he hi (congrArg (fun e : Ep => { e with fdOpen := o }) hv)
      have z := x.rebase j2.ext (by simp) j2'.ext (by simp) hs w.dedup w.checks
      refine ⟨_, ⟨rfl, rfl⟩, ?_⟩
      have zw : ({ w' with eps := w'.eps.set i { e' with fdOpen := o }, dedup := w.dedup, checks := w.checks } : World σ) =
          { w' with eps := w'.eps.set i { e' with fdOpen := o } } := by
        rw [← x.dedup, ← x.checks]
      rw [zw] at z
      exact z
  | logCall i c =>
    simp only [routerStep, renameEv, Option.some.injEq, Prod.mk.injEq] at h ⊢
    obtain ⟨rfl, rfl⟩ := h
    refine ⟨_, ⟨rfl, rfl⟩, ?_⟩
    unfold logCall
    rw [x.heap.kind i]
    split
    · rename_i hk
      have hi : ρ i = i := by
        apply x.logFix
        unfold isLogEp
        rw [x.heap.kind i, hk]
        rfl
      rw [hi, hn.call, x.logs]
      simp only
      have hfold : ∀ (gs : List Msg) (v v' : World σ), Reorder ρ v v' →
          Reorder ρ (gs.foldl (routeMsg env 2 true) v) (gs.foldl (routeMsg env' 2 true) v') := by
        intro gs
        induction gs with
        | nil => intro v v' h; exact h
        | cons g gs ih => intro v v' h; exact ih _ _ (routeMsg_reorder env env' hn.log hn.net.sniffer 2 true v v' g h)
      exact hfold _ _ _ ⟨x.inj, x.top, x.len, x.heap, x.logFix, x.act, rfl, x.unknown, x.reported, x.dedup, x.checks, x.out⟩
    · exact x
  | aggregate =>
    simp only [routerStep, renameEv, Option.some.injEq, Prod.mk.injEq] at h ⊢
    obtain ⟨rfl, rfl⟩ := h
    refine ⟨_, ⟨rfl, rfl⟩, ?_⟩
    unfold aggregate
    rw [x.unknown]
    split
    · exact ⟨x.inj, x.top, x.len, x.heap, x.logFix, x.act, x.logs, rfl, by
        show _ ++ _ = _ ++ _
        rw [x.reported], x.dedup, x.checks, x.out⟩
    · exact x

theorem runRouter_reorder (env env' : Env σ) (hn : SameAll env env') {ρ : Nat → Nat} : ∀ (evs : List RouterEv) (w w' : World σ),
    RouterInv w → RouterInv w' → Reorder ρ w w' →
    ∃ w1 w1' as, runRouter env w (evs.map (renameEv ρ)) = some (w1, as.map (renameArrival ρ)) ∧
      runRouter env' w' evs = some (w1', as) ∧ Reorder ρ w1 w1' := by
  intro evs
  induction evs with
  | nil => intro w w' _ _ x; exact ⟨w, w', [], rfl, rfl, x⟩
  | cons ev evs ih =>
    intro w w' hw hw' x
    obtain ⟨w2', as, h1, h2, _⟩ := routerStep_spec env' w' hw' ev
    obtain ⟨w2, g1, g2⟩ := routerStep_reorder env env' hn w w' hw hw' x ev h1
    obtain ⟨w2s, bs, g1s, g3, _⟩ := routerStep_spec env w hw (renameEv ρ ev)
    rw [g1] at g1s
    cases g1s
    obtain ⟨w3, w3', cs, k1, k2, k3⟩ := ih w2 w2' g3 h2 g2
    exact ⟨w3, w3', as ++ cs, by simp only [List.map_cons, runRouter, g1, k1, List.map_append], by simp only [runRouter, h1, k2], k3⟩

end Verif
