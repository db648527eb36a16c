import Verif.Spec.Broken
import Verif.Props.ReadLoop
import Verif.Props.Errno

/- Property C135: a link that is lost disturbs no other link. -/

namespace Verif
open Spec

variable {σ : Type} {U V : Nat → Bool}

/-! ### Alike -/

/-- Alike, with no log endpoint among the clients that may be removed. -/
def Und (U V : Nat → Bool) (w w' : World σ) : Prop := Undisturbed U V w w' ∧ NoLogIn V w

theorem und_kind {w w' : World σ} (h : Undisturbed U V w w') (i : Nat) : (w'.eps[i]?).map Ep.kind = (w.eps[i]?).map Ep.kind := by
  have := congrArg (Option.map Ep.kind) (h.eps i)
  simpa [Option.map_map, Function.comp_def, upToOpen] using this

theorem noLogIn_iff (w : World σ) : NoLogIn V w ↔ ∀ i, V i = true → (w.eps[i]?).map Ep.kind ≠ some .log := by
  constructor
  · intro h i hv hk
    cases he : w.eps[i]? with
    | none => rw [he] at hk; cases hk
    | some e => rw [he] at hk; exact h i e he hv (by simpa using hk)
  · intro h i e he hv hk
    exact h i hv (by rw [he]; simp [hk])

theorem undisturbed_refl (w : World σ) : Undisturbed U V w w := ⟨rfl, fun _ => rfl, rfl, rfl, rfl, rfl, rfl, fun _ => ⟨rfl, rfl⟩⟩

theorem undisturbed_symm {w w' : World σ} (h : Undisturbed U V w w') : Undisturbed U V w' w :=
  ⟨h.len.symm, fun i => (h.eps i).symm, h.active.symm, h.logs.symm, h.dedup.symm, h.checks.symm, h.out.symm,
    fun hv => ⟨(h.counts hv).1.symm, (h.counts hv).2.symm⟩⟩

theorem undisturbed_trans {w w' w'' : World σ} (h : Undisturbed U V w w') (g : Undisturbed U V w' w'') : Undisturbed U V w w'' :=
  ⟨g.len.trans h.len, fun i => (g.eps i).trans (h.eps i), g.active.trans h.active, g.logs.trans h.logs, g.dedup.trans h.dedup,
    g.checks.trans h.checks, g.out.trans h.out,
    fun hv => ⟨(g.counts hv).1.trans (h.counts hv).1, (g.counts hv).2.trans (h.counts hv).2⟩⟩

theorem und_symm {w w' : World σ} (h : Und U V w w') : Und U V w' w := by
  refine ⟨undisturbed_symm h.1, (noLogIn_iff _).mpr (fun i hv => ?_)⟩
  rw [und_kind h.1]
  exact (noLogIn_iff _).mp h.2 i hv

theorem und_trans {w w' w'' : World σ} (h : Und U V w w') (g : Und U V w' w'') : Und U V w w'' :=
  ⟨undisturbed_trans h.1 g.1, h.2⟩

/-- The same endpoints, up to connections. -/
theorem und_of_eps {w w1 : World σ} (hn : NoLogIn V w) (h : Undisturbed U V w w1) : Und U V w w1 := ⟨h, hn⟩

theorem closeLink_und (w : World σ) (hn : NoLogIn V w) {i : Nat} (hu : U i = true) : Und U V w (closeLink w i) := by
  refine ⟨?_, hn⟩
  unfold closeLink
  cases he : w.eps[i]? with
  | none => exact undisturbed_refl w
  | some e =>
    refine ⟨by simp, fun k => ?_, rfl, rfl, rfl, rfl, rfl, fun _ => ⟨rfl, rfl⟩⟩
    simp only []
    rw [List.getElem?_set]
    obtain ⟨hl, hx⟩ := List.getElem?_eq_some_iff.mp he
    by_cases hk : i = k
    · subst hk; rw [he]; simp [hl, upToOpen, hu]
    · simp [hk]

/-! ### Routing -/

/-- Two routers keep the states alike. -/
def RouteUnd (U V : Nat → Bool) (route route' : World σ → Msg → World σ) : Prop :=
  ∀ w w' m, Und U V w w' → Und U V (route w m) (route' w' m)

theorem foldl_routeUnd {route route' : World σ → Msg → World σ} (hr : RouteUnd U V route route') : ∀ (gs : List Msg) (w w' : World σ),
    Und U V w w' → Und U V (gs.foldl route w) (gs.foldl route' w')
  | [], _, _, h => h
  | g :: gs, w, w', h => foldl_routeUnd hr gs _ _ (hr w w' g h)

theorem writeMsg_und (env : Env σ) (f g : Nat → Int) {route route' : World σ → Msg → World σ} (hr : RouteUnd U V route route')
    (gen : Bool) (w w' : World σ) (i : Nat) (m : Msg) (h : Und U V w w') :
    Und U V (writeMsg { env with wres := f } route gen w i m).1 (writeMsg { env with wres := g } route' gen w' i m).1 ∧
    (writeMsg { env with wres := f } route gen w i m).2 = (writeMsg { env with wres := g } route' gen w' i m).2 := by
  obtain ⟨⟨e0, e1, e2, e3, e4, e5, e6, e7⟩, hn⟩ := id h
  unfold writeMsg
  rw [und_kind h.1]
  split
  · simp only [e3]
    refine ⟨foldl_routeUnd hr _ _ _ ?_, trivial⟩
    exact ⟨⟨e0, e1, e2, rfl, e4, e5, by simp only [List.filter_append, e6], e7⟩, hn⟩
  · refine ⟨?_, rfl⟩
    exact ⟨⟨e0, e1, e2, e3, e4, e5, by simp only [List.filter_append, e6], e7⟩, hn⟩

theorem writeMsgNow_und (env : Env σ) (f g : Nat → Int) {brk brk' : Nat → Nat → Bool} (hb : ∀ i k, brk i k = true → U i = true)
    (hb' : ∀ i k, brk' i k = true → U i = true) {route route' : World σ → Msg → World σ} (hr : RouteUnd U V route route')
    (gen : Bool) (w w' : World σ) (i : Nat) (m : Msg) (h : Und U V w w') :
    Und U V (writeMsgNow { env with wres := f } brk route gen w i m).1 (writeMsgNow { env with wres := g } brk' route' gen w' i m).1 ∧
    (writeMsgNow { env with wres := f } brk route gen w i m).2 = (writeMsgNow { env with wres := g } brk' route' gen w' i m).2 := by
  have hw := writeMsg_und env f g hr gen w w' i m h
  have key : ∀ (env : Env σ) (b : Nat → Nat → Bool), (∀ i k, b i k = true → U i = true) → ∀ (route : World σ → Msg → World σ) (w : World σ),
      NoLogIn V (writeMsg env route gen w i m).1 →
      Und U V (writeMsg env route gen w i m).1 (writeMsgNow env b route gen w i m).1 ∧
      (writeMsgNow env b route gen w i m).2 = (writeMsg env route gen w i m).2 := by
    intro env b hb route w hn
    unfold writeMsgNow
    simp only []
    split
    · rename_i hc
      exact ⟨closeLink_und _ hn (hb _ _ hc.1), rfl⟩
    · exact ⟨⟨undisturbed_refl _, hn⟩, rfl⟩
  obtain ⟨a1, a2⟩ := key { env with wres := f } brk hb route w hw.1.2
  obtain ⟨b1, b2⟩ := key { env with wres := g } brk' hb' route' w' (und_symm hw.1).2
  refine ⟨und_trans (und_symm a1) (und_trans hw.1 b1), ?_⟩
  rw [a2, b2, hw.2]

/-- A write to a client that may be removed. -/
theorem writeMsgNow_gone (env : Env σ) {brk : Nat → Nat → Bool} (hb : ∀ i k, brk i k = true → U i = true)
    (route : World σ → Msg → World σ) (gen : Bool) (w : World σ) (i : Nat) (m : Msg) (hn : NoLogIn V w) (hv : V i = true) :
    Und U V w (writeMsgNow env brk route gen w i m).1 ∧ (writeMsgNow env brk route gen w i m).2 = m.data := by
  have key : Und U V w (writeMsg env route gen w i m).1 ∧ (writeMsg env route gen w i m).2 = m.data := by
    unfold writeMsg
    split
    · rename_i hk
      exact absurd hk ((noLogIn_iff _).mp hn i hv)
    · refine ⟨⟨⟨rfl, fun _ => rfl, rfl, rfl, rfl, rfl, ?_, fun _ => ⟨rfl, rfl⟩⟩, hn⟩, rfl⟩
      simp [List.filter_append, hv]
  unfold writeMsgNow
  simp only []
  split
  · rename_i hc
    refine ⟨und_trans key.1 (closeLink_und _ (und_symm key.1).2 (hb _ _ hc.1)), key.2⟩
  · exact key

theorem acceptMsg_upToOpen (s : UInt16) (u : Bool) (e : Ep) (m : Msg) : acceptMsg s (upToOpen u e) m = acceptMsg s e m := rfl

theorem und_ep {w w' : World σ} (h : Undisturbed U V w w') {i : Nat} {e : Ep} (he : w.eps[i]? = some e) :
    ∃ e', w'.eps[i]? = some e' ∧ upToOpen (U i) e' = upToOpen (U i) e := by
  have := h.eps i
  rw [he] at this
  cases he' : w'.eps[i]? with
  | none => rw [he'] at this; cases this
  | some e' => rw [he'] at this; exact ⟨e', rfl, by simpa using this⟩

theorem und_none {w w' : World σ} (h : Undisturbed U V w w') {i : Nat} (he : w.eps[i]? = none) : w'.eps[i]? = none := by
  have := h.eps i
  rw [he] at this
  cases he' : w'.eps[i]? with
  | none => rfl
  | some e' => rw [he'] at this; cases this

/-- The loop over some links, and over those among them that cannot be removed. -/
theorem routeLoopNow_stay (env : Env σ) (f g : Nat → Int) {brk brk' : Nat → Nat → Bool} (hb : ∀ i k, brk i k = true → U i = true)
    (hb' : ∀ i k, brk' i k = true → U i = true) {route route' : World σ → Msg → World σ} (hr : RouteUnd U V route route')
    (gen : Bool) : ∀ (is : List Nat) (w w' : World σ) (m : Msg) (u u' : Bool), Und U V w w' → ((∀ i, V i = false) → u' = u) →
    Und U V (routeLoopNow { env with wres := f } brk route gen is w m u).1
      (routeLoopNow { env with wres := g } brk' route' gen (is.filter (fun i => !V i)) w' m u').1 ∧
    ((∀ i, V i = false) → (routeLoopNow { env with wres := g } brk' route' gen (is.filter (fun i => !V i)) w' m u').2 =
      (routeLoopNow { env with wres := f } brk route gen is w m u).2)
  | [], _, _, _, _, _, h, hu => ⟨h, hu⟩
  | i :: is, w, w', m, u, u', h, hu => by
    cases hv : V i with
    | true =>
      have hno : ¬ ∀ i, V i = false := fun h => by simp [h i] at hv
      rw [List.filter_cons_of_neg (by simp [hv])]
      cases he : w.eps[i]? with
      | none =>
        simp only [routeLoopNow, he]
        exact routeLoopNow_stay env f g hb hb' hr gen is w w' m u u' h hu
      | some e =>
        cases ha : acceptMsg env.sniffer e m with
        | accepted =>
          simp only [routeLoopNow, he, ha]
          obtain ⟨a, b⟩ := writeMsgNow_gone { env with wres := f } hb route gen w i m h.2 hv
          rcases hx : writeMsgNow { env with wres := f } brk route gen w i m with ⟨x1, x2⟩
          rw [hx] at a b
          simp only at a b
          subst b
          exact routeLoopNow_stay env f g hb hb' hr gen is x1 w' m false u' (und_trans (und_symm a) h) (fun hn => absurd hn hno)
        | filtered =>
          simp only [routeLoopNow, he, ha]
          exact routeLoopNow_stay env f g hb hb' hr gen is w w' m false u' h (fun hn => absurd hn hno)
        | rejected =>
          simp only [routeLoopNow, he, ha]
          exact routeLoopNow_stay env f g hb hb' hr gen is w w' m u u' h hu
    | false =>
      rw [List.filter_cons_of_pos (by simp [hv])]
      cases he : w.eps[i]? with
      | none =>
        simp only [routeLoopNow, he, und_none h.1 he]
        exact routeLoopNow_stay env f g hb hb' hr gen is w w' m u u' h hu
      | some e =>
        obtain ⟨e', he', hee⟩ := und_ep h.1 he
        have hacc : acceptMsg env.sniffer e' m = acceptMsg env.sniffer e m := by
          rw [← acceptMsg_upToOpen _ (U i) e' m, hee, acceptMsg_upToOpen]
        cases ha : acceptMsg env.sniffer e m with
        | accepted =>
          rw [ha] at hacc
          simp only [routeLoopNow, he, ha, he', hacc]
          have ab := writeMsgNow_und env f g hb hb' hr gen w w' i m h
          rcases hx : writeMsgNow { env with wres := f } brk route gen w i m with ⟨x1, x2⟩
          rcases hy : writeMsgNow { env with wres := g } brk' route' gen w' i m with ⟨y1, y2⟩
          rw [hx, hy] at ab
          obtain ⟨a, b⟩ := ab
          simp only at a b
          subst b
          exact routeLoopNow_stay env f g hb hb' hr gen is _ _ _ false false a (fun _ => rfl)
        | filtered =>
          rw [ha] at hacc
          simp only [routeLoopNow, he, ha, he', hacc]
          exact routeLoopNow_stay env f g hb hb' hr gen is w w' m false false h (fun _ => rfl)
        | rejected =>
          rw [ha] at hacc
          simp only [routeLoopNow, he, ha, he', hacc]
          exact routeLoopNow_stay env f g hb hb' hr gen is w w' m u u' h hu

theorem routeLoopNow_und (env : Env σ) (f g : Nat → Int) {brk brk' : Nat → Nat → Bool} (hb : ∀ i k, brk i k = true → U i = true)
    (hb' : ∀ i k, brk' i k = true → U i = true) {route route' : World σ → Msg → World σ} (hr : RouteUnd U V route route')
    (hr' : RouteUnd U V route' route) (gen : Bool) (is is' : List Nat) (w w' : World σ) (m : Msg) (u : Bool)
    (hi : is'.filter (fun i => !V i) = is.filter (fun i => !V i)) (h : Und U V w w') :
    Und U V (routeLoopNow { env with wres := f } brk route gen is w m u).1 (routeLoopNow { env with wres := g } brk' route' gen is' w' m u).1 ∧
    ((∀ i, V i = false) → (routeLoopNow { env with wres := g } brk' route' gen is' w' m u).2 =
      (routeLoopNow { env with wres := f } brk route gen is w m u).2) := by
  obtain ⟨a1, a2⟩ := routeLoopNow_stay env f g hb hb' hr gen is w w' m u u h (fun _ => rfl)
  obtain ⟨b1, b2⟩ := routeLoopNow_stay env g f hb' hb hr' gen is' w' w m u u (und_symm h) (fun _ => rfl)
  obtain ⟨c1, c2⟩ := routeLoopNow_stay env f g hb hb' hr gen (is.filter (fun i => !V i)) w w' m u u h (fun _ => rfl)
  rw [List.filter_filter] at c1 c2
  simp only [Bool.and_self] at c1 c2
  rw [hi] at b1 b2
  refine ⟨und_trans a1 (und_trans (und_symm c1) (und_symm b1)), fun hv => ?_⟩
  rw [← a2 hv, c2 hv, b2 hv]

theorem routeMsgNow_und (env : Env σ) : ∀ (d : Nat) (gen : Bool) (f g : Nat → Int) {brk brk' : Nat → Nat → Bool},
    (∀ i k, brk i k = true → U i = true) → (∀ i k, brk' i k = true → U i = true) →
    RouteUnd U V (routeMsgNow { env with wres := f } brk d gen) (routeMsgNow { env with wres := g } brk' d gen)
  | 0, _, _, _, _, _, _, _, _, _, _, h => h
  | d + 1, gen, f, g, brk, brk', hb, hb', w, w', m, h => by
    obtain ⟨h1, h2⟩ := routeLoopNow_und env f g hb hb' (routeMsgNow_und env d true f g hb hb') (routeMsgNow_und env d true g f hb' hb)
      gen w.active w'.active w w' m true h.1.active h
    simp only [routeMsgNow]
    have key : ∀ (b b' : Bool) (x x' : World σ), Und U V x x' → ((∀ i, V i = false) → b' = b) →
        Und U V (if b then { x with unknown := x.unknown + 1 } else x) (if b' then { x' with unknown := x'.unknown + 1 } else x') := by
      intro b b' x x' hx hbb
      obtain ⟨⟨e0, e1, e2, e3, e4, e5, e6, e7⟩, hn⟩ := hx
      cases b <;> cases b' <;> simp only [if_true, if_false, Bool.false_eq_true] <;> refine ⟨⟨e0, e1, e2, e3, e4, e5, e6, ?_⟩, hn⟩ <;>
        intro hv
      · exact e7 hv
      · cases hbb hv
      · cases hbb hv
      · exact ⟨by simp only [(e7 hv).1], (e7 hv).2⟩
    exact key _ _ _ _ h1 h2

/-! ### Learning -/

/-- The same endpoints up to connections of lossy links. -/
def HeapAlike (U : Nat → Bool) (h h' : List Ep) : Prop :=
  h'.length = h.length ∧ ∀ i, (h'[i]?).map (upToOpen (U i)) = (h[i]?).map (upToOpen (U i))

theorem heapAlike_set {h h' : List Ep} (ha : HeapAlike U h h') (i : Nat) {e e' : Ep} (hee : upToOpen (U i) e' = upToOpen (U i) e) :
    HeapAlike U (h.set i e) (h'.set i e') := by
  refine ⟨by simp [ha.1], fun k => ?_⟩
  rw [List.getElem?_set, List.getElem?_set, ha.1]
  by_cases hk : i = k
  · subst hk
    simp only [if_true]
    split
    · simp [hee]
    · rfl
  · simp only [hk, if_false]; exact ha.2 k

/-- Outcomes of learning. -/
def LearnAlike (U : Nat → Bool) : Option (List Ep) → Option (List Ep) → Prop
  | none, none => True
  | some h, some h' => HeapAlike U h h'
  | _, _ => False

theorem foldlM_alike {F : List Ep → Nat → Option (List Ep)} (hF : ∀ h h' j, HeapAlike U h h' → LearnAlike U (F h j) (F h' j)) :
    ∀ (js : List Nat) (h h' : List Ep), HeapAlike U h h' → LearnAlike U (js.foldlM F h) (js.foldlM F h')
  | [], _, _, h => h
  | j :: js, h, h', ha => by
    have hj := hF h h' j ha
    rw [List.foldlM_cons, List.foldlM_cons]
    cases h1 : F h j with
    | none =>
      rw [h1] at hj
      cases h2 : F h' j with
      | none => exact trivial
      | some y => rw [h2] at hj; exact hj.elim
    | some x =>
      rw [h1] at hj
      cases h2 : F h' j with
      | none => rw [h2] at hj; exact hj.elim
      | some y => rw [h2] at hj; exact foldlM_alike hF js x y hj

theorem addSysComp_alike (id : UInt16) : ∀ (n : Nat) (h h' : List Ep) (i : Nat), HeapAlike U h h' →
    LearnAlike U (addSysComp n h i id) (addSysComp n h' i id)
  | 0, _, _, _, _ => trivial
  | n + 1, h, h', i, ha => by
    have hi := ha.2 i
    unfold addSysComp
    cases he : h[i]? with
    | none =>
      rw [he] at hi
      cases he' : h'[i]? with
      | none => exact ha
      | some e' => rw [he'] at hi; cases hi
    | some e =>
      rw [he] at hi
      cases he' : h'[i]? with
      | none => rw [he'] at hi; cases hi
      | some e' =>
        rw [he'] at hi
        simp only [Option.map_some, Option.some.injEq] at hi
        have hl : e'.learned = e.learned := by simpa [upToOpen] using congrArg Ep.learned hi
        have hm : e'.members = e.members := by simpa [upToOpen] using congrArg Ep.members hi
        have hh : e'.hasSysComp id = e.hasSysComp id := by unfold Ep.hasSysComp; rw [hl]
        simp only [hl, hm]
        by_cases hc : e.hasSysComp id = true
        · rw [if_pos hc, if_pos (hh.trans hc)]; exact ha
        · rw [if_neg hc, if_neg (by rw [hh]; exact hc)]
          refine foldlM_alike (fun h h' j hh => addSysComp_alike id n h h' j hh) _ _ _ (heapAlike_set ha i ?_)
          simp only [upToOpen, Ep.mk.injEq] at hi ⊢
          obtain ⟨a1, a2, a3, a4, a5, a6, a7⟩ := hi
          exact ⟨a1, a2, a3, trivial, trivial, a6, a7⟩

/-! ### Handling -/

/-- Outcomes with the same arrivals, alike. -/
def OutUnd (U V : Nat → Bool) {α : Type} (x y : Option (World σ × α)) : Prop :=
  match x, y with
  | none, none => True
  | some (w, a), some (w', a') => Und U V w w' ∧ a' = a
  | _, _ => False

theorem noLogIn_alike {w : World σ} (hn : NoLogIn V w) {w1 : World σ} (h : ∀ i : Nat, (w1.eps[i]?).map Ep.kind = (w.eps[i]?).map Ep.kind) :
    NoLogIn V w1 := by
  rw [noLogIn_iff] at hn ⊢
  intro i hv
  rw [h]
  exact hn i hv

theorem addSysComp_kindAt (id : UInt16) : ∀ (n : Nat) (h : List Ep) (i : Nat) (h1 : List Ep), addSysComp n h i id = some h1 →
    ∀ k : Nat, (h1[k]?).map Ep.kind = (h[k]?).map Ep.kind
  | 0, _, _, _, hh => by cases hh
  | n + 1, h, i, h1, hh => by
    unfold addSysComp at hh
    split at hh
    · cases hh; intro k; rfl
    · rename_i e he
      split at hh
      · cases hh; intro k; rfl
      · have hset : ∀ k : Nat, ((h.set i { e with learned := e.learned ++ [id] })[k]?).map Ep.kind = (h[k]?).map Ep.kind := by
          intro k
          rw [List.getElem?_set]
          obtain ⟨hl, hx⟩ := List.getElem?_eq_some_iff.mp he
          by_cases hk : i = k
          · subst hk; rw [he]; simp [hl]
          · simp [hk]
        have hfold : ∀ (js : List Nat) (g g1 : List Ep), js.foldlM (fun h j => addSysComp n h j id) g = some g1 →
            ∀ k : Nat, (g1[k]?).map Ep.kind = (g[k]?).map Ep.kind := by
          intro js
          induction js with
          | nil => intro g g1 hg k; cases hg; rfl
          | cons j js ih =>
            intro g g1 hg k
            rw [List.foldlM_cons] at hg
            cases h2 : addSysComp n g j id with
            | none => rw [h2] at hg; cases hg
            | some g2 =>
              rw [h2] at hg
              rw [ih g2 g1 hg k]
              exact addSysComp_kindAt id n g j g2 h2 k
        intro k
        rw [hfold _ _ _ hh k, hset k]

theorem handleMsgNow_und (env : Env σ) (f g : Nat → Int) {brk brk' : Nat → Nat → Bool} (hb : ∀ i k, brk i k = true → U i = true)
    (hb' : ∀ i k, brk' i k = true → U i = true) (w w' : World σ) (i : Nat) (m : Msg) (h : Und U V w w') :
    OutUnd U V (handleMsgNow { env with wres := f } brk w i m) (handleMsgNow { env with wres := g } brk' w' i m) := by
  obtain ⟨⟨e0, e1, e2, e3, e4, e5, e6, e7⟩, hn⟩ := id h
  unfold handleMsgNow
  cases he : w.eps[i]? with
  | none => rw [und_none h.1 he]; exact ⟨h, rfl⟩
  | some e =>
    obtain ⟨e', he', hee⟩ := und_ep h.1 he
    have hf : e'.filters = e.filters := by simpa [upToOpen] using congrArg Ep.filters hee
    simp only [he', e4, e5, hf, e0]
    split
    · trivial
    · split
      · exact ⟨⟨⟨e0, e1, e2, e3, rfl, rfl, e6, e7⟩, hn⟩, rfl⟩
      · split
        · exact ⟨⟨⟨e0, e1, e2, e3, rfl, rfl, e6, e7⟩, hn⟩, rfl⟩
        · have hl := addSysComp_alike (U := U) (sysComp m.srcSys m.srcComp) (w.eps.length + 1) w.eps w'.eps i ⟨e0, e1⟩
          cases h1 : addSysComp (w.eps.length + 1) w.eps i (sysComp m.srcSys m.srcComp) with
          | none =>
            rw [h1] at hl
            cases h2 : addSysComp (w.eps.length + 1) w'.eps i (sysComp m.srcSys m.srcComp) with
            | none => trivial
            | some y => rw [h2] at hl; exact hl.elim
          | some x =>
            rw [h1] at hl
            cases h2 : addSysComp (w.eps.length + 1) w'.eps i (sysComp m.srcSys m.srcComp) with
            | none => rw [h2] at hl; exact hl.elim
            | some y =>
              rw [h2] at hl
              refine ⟨routeMsgNow_und env 2 false f g hb hb' _ _ m ⟨⟨hl.1, hl.2, e2, e3, rfl, rfl, e6, e7⟩, ?_⟩, rfl⟩
              exact noLogIn_alike hn (fun k => addSysComp_kindAt _ _ _ _ _ h1 k)

theorem und_setRx {w w' : World σ} (h : Und U V w w') (i : Nat) {e : Ep} (he : w.eps[i]? = some e) (rx : Rx) :
    Und U V { w with eps := w.eps.set i { e with rx := rx } } { w' with eps := w'.eps.set i { e with rx := rx } } := by
  obtain ⟨⟨e0, e1, e2, e3, e4, e5, e6, e7⟩, hn⟩ := h
  have hs := heapAlike_set (U := U) ⟨e0, e1⟩ i (e := { e with rx := rx }) (e' := { e with rx := rx }) rfl
  refine ⟨⟨hs.1, hs.2, e2, e3, e4, e5, e6, e7⟩, noLogIn_alike hn (fun k => ?_)⟩
  simp only []
  rw [List.getElem?_set]
  obtain ⟨hl, hx⟩ := List.getElem?_eq_some_iff.mp he
  by_cases hk : i = k
  · subst hk; rw [he]; simp [hl]
  · simp [hk]

theorem handleReadNow_und (env : Env σ) (f g : Nat → Int) {brk brk' : Nat → Nat → Bool} (hb : ∀ i k, brk i k = true → U i = true)
    (hb' : ∀ i k, brk' i k = true → U i = true) (i : Nat) (hi : U i = false) (io : SysRead) : ∀ (n : Nat) (w w' : World σ), Und U V w w' →
    OutUnd U V (handleReadNow { env with wres := f } brk i io n w) (handleReadNow { env with wres := g } brk' i io n w')
  | 0, _, _, h => ⟨h, rfl⟩
  | n + 1, w, w', h => by
    unfold handleReadNow
    cases he : w.eps[i]? with
    | none => rw [und_none h.1 he]; exact ⟨h, rfl⟩
    | some e =>
      obtain ⟨e', he', hee⟩ := und_ep h.1 he
      have : e' = e := by simpa only [upToOpen, hi, Bool.false_or] using hee
      subst this
      rw [he']
      simp only []
      rcases readMsg env.tbl e'.fdOpen e'.rx io with ⟨rx, r⟩
      cases r with
      | stop r => exact ⟨und_setRx h i he rx, rfl⟩
      | msg m k =>
        simp only []
        have hm := handleMsgNow_und env f g hb hb' _ _ i m (und_setRx h i he rx)
        cases h1 : handleMsgNow { env with wres := f } brk { w with eps := w.eps.set i { e' with rx := rx } } i m with
        | none =>
          rw [h1] at hm
          cases h2 : handleMsgNow { env with wres := g } brk' { w' with eps := w'.eps.set i { e' with rx := rx } } i m with
          | none => trivial
          | some y => rw [h2] at hm; exact hm.elim
        | some x =>
          rw [h1] at hm
          cases h2 : handleMsgNow { env with wres := g } brk' { w' with eps := w'.eps.set i { e' with rx := rx } } i m with
          | none => rw [h2] at hm; exact hm.elim
          | some y =>
            rw [h2] at hm
            obtain ⟨hw, hbb⟩ := hm
            have hr := handleReadNow_und env f g hb hb' i hi io n x.1 y.1 hw
            simp only []
            revert hr
            cases handleReadNow { env with wres := f } brk i io n x.1 with
            | none =>
              cases handleReadNow { env with wres := g } brk' i io n y.1 with
              | none => intro _; trivial
              | some z => intro hz; exact hz.elim
            | some z =>
              cases handleReadNow { env with wres := g } brk' i io n y.1 with
              | none => intro hz; exact hz.elim
              | some z' =>
                intro hz
                exact ⟨hz.1, by rw [hz.2, hbb]⟩

theorem logCallNow_und (env : Env σ) (f g : Nat → Int) {brk brk' : Nat → Nat → Bool} (hb : ∀ i k, brk i k = true → U i = true)
    (hb' : ∀ i k, brk' i k = true → U i = true) (w w' : World σ) (i : Nat) (c : LogCall) (h : Und U V w w') :
    Und U V (logCallNow { env with wres := f } brk w i c) (logCallNow { env with wres := g } brk' w' i c) := by
  obtain ⟨⟨e0, e1, e2, e3, e4, e5, e6, e7⟩, hn⟩ := id h
  unfold logCallNow
  rw [und_kind h.1]
  split
  · simp only [e3]
    refine foldl_routeUnd (routeMsgNow_und env 2 true f g hb hb') _ _ _ ?_
    exact ⟨⟨e0, e1, e2, rfl, e4, e5, e6, e7⟩, hn⟩
  · exact h

/-! ### Events -/

/-- A link that is lost or comes back. -/
theorem fd_und (env : Env σ) (w : World σ) (hn : NoLogIn V w) {i : Nat} (hu : U i = true) (o : Bool) :
    ∃ w1, routerStep env w (.fd i o) = some (w1, []) ∧ Und U V w w1 := by
  simp only [routerStep]
  cases he : w.eps[i]? with
  | none => exact ⟨w, rfl, undisturbed_refl w, hn⟩
  | some e =>
    refine ⟨_, rfl, ⟨by simp, fun k => ?_, rfl, rfl, rfl, rfl, rfl, fun _ => ⟨rfl, rfl⟩⟩, hn⟩
    simp only []
    rw [List.getElem?_set]
    obtain ⟨hl, hx⟩ := List.getElem?_eq_some_iff.mp he
    by_cases hk : i = k
    · subst hk; rw [he]; simp [hl, upToOpen, hu]
    · simp [hk]

theorem fd_both_und (env env' : Env σ) (w w' : World σ) (h : Und U V w w') (i : Nat) (o : Bool) :
    ∃ w1 w1', routerStep env w (.fd i o) = some (w1, []) ∧ routerStep env' w' (.fd i o) = some (w1', []) ∧ Und U V w1 w1' := by
  obtain ⟨⟨e0, e1, e2, e3, e4, e5, e6, e7⟩, hn⟩ := id h
  simp only [routerStep]
  cases he : w.eps[i]? with
  | none => rw [und_none h.1 he]; exact ⟨w, w', rfl, rfl, h⟩
  | some e =>
    obtain ⟨e', he', hee⟩ := und_ep h.1 he
    rw [he']
    have hs := heapAlike_set (U := U) ⟨e0, e1⟩ i (e := { e with fdOpen := o }) (e' := { e' with fdOpen := o }) (by
      simp only [upToOpen, Ep.mk.injEq] at hee ⊢
      obtain ⟨a1, a2, a3, a4, a5, a6, _⟩ := hee
      exact ⟨a1, a2, a3, a4, a5, a6, trivial⟩)
    refine ⟨_, _, rfl, rfl, ⟨hs.1, hs.2, e2, e3, e4, e5, e6, e7⟩, noLogIn_alike hn (fun k => ?_)⟩
    simp only []
    rw [List.getElem?_set]
    obtain ⟨hl, hx⟩ := List.getElem?_eq_some_iff.mp he
    by_cases hk : i = k
    · subst hk; rw [he]; simp [hl]
    · simp [hk]

theorem accept_und (w w' : World σ) (h : Und U V w w') :
    Und U V { w with eps := w.eps ++ [{ kind := .tcp }], active := w.active ++ [w.eps.length] }
      { w' with eps := w'.eps ++ [{ kind := .tcp }], active := w'.active ++ [w'.eps.length] } := by
  obtain ⟨⟨e0, e1, e2, e3, e4, e5, e6, e7⟩, hn⟩ := h
  refine ⟨⟨by simp [e0], fun k => ?_, by simp only [List.filter_append, e2, e0], e3, e4, e5, e6, e7⟩, ?_⟩
  · simp only [List.getElem?_append, e0]
    split
    · exact e1 k
    · rfl
  · intro k e hk hv
    simp only [List.getElem?_append] at hk
    split at hk
    · exact hn k e hk hv
    · have : e = { kind := .tcp } := by
        have := List.mem_of_getElem? hk
        simpa using this
      rw [this]
      decide

theorem hangups_und (w w' : World σ) (h : Und U V w w') (gone gone' : List Nat) (hg : ∀ i, V i = false → (i ∈ gone ↔ i ∈ gone')) :
    Und U V { w with active := w.active.filter (fun i => i ∉ gone), hangup := false }
      { w' with active := w'.active.filter (fun i => i ∉ gone'), hangup := false } := by
  obtain ⟨⟨e0, e1, e2, e3, e4, e5, e6, e7⟩, hn⟩ := h
  refine ⟨⟨e0, e1, ?_, e3, e4, e5, e6, e7⟩, hn⟩
  have key : ∀ (l : List Nat) (gs : List Nat), (l.filter (fun i => decide (i ∉ gs))).filter (fun i => !V i) =
      (l.filter (fun i => !V i)).filter (fun i => decide (i ∉ gs)) := by
    intro l gs
    rw [List.filter_filter, List.filter_filter]
    congr 1
    funext x
    rw [Bool.and_comm]
  simp only []
  rw [key, key, e2]
  refine List.filter_congr (fun x hx => ?_)
  have hv : V x = false := by simpa using (List.mem_filter.mp hx).2
  simp only [decide_eq_decide]
  exact not_congr (hg x hv).symm

theorem aggregate_und (w w' : World σ) (h : Und U V w w') : Und U V (aggregate w) (aggregate w') := by
  obtain ⟨⟨e0, e1, e2, e3, e4, e5, e6, e7⟩, hn⟩ := h
  have key : ∀ x : World σ, (aggregate x).eps = x.eps ∧ (aggregate x).active = x.active ∧ (aggregate x).logs = x.logs ∧
      (aggregate x).dedup = x.dedup ∧ (aggregate x).checks = x.checks ∧ (aggregate x).out = x.out := by
    intro x; unfold aggregate; split <;> simp
  obtain ⟨a1, a2, a3, a4, a5, a6⟩ := key w
  obtain ⟨b1, b2, b3, b4, b5, b6⟩ := key w'
  refine ⟨⟨by rw [a1, b1, e0], fun i => by rw [a1, b1, e1 i], by rw [a2, b2, e2], by rw [a3, b3, e3], by rw [a4, b4, e4],
    by rw [a5, b5, e5], by rw [a6, b6, e6], fun hv => ?_⟩, noLogIn_alike hn (fun k => by rw [a1])⟩
  obtain ⟨c1, c2⟩ := e7 hv
  unfold aggregate
  rw [c1]
  split
  · exact ⟨rfl, by simp only [c2]⟩
  · exact ⟨c1, c2⟩

theorem outUnd_bind {x y : Option (World σ × List Arrival)} {k k' : World σ → Option (World σ × List Arrival)}
    (h : OutUnd U V x y) (hk : ∀ w w', Und U V w w' → OutUnd U V (k w) (k' w')) :
    OutUnd U V (x.bind (fun p => (k p.1).map (fun q => (q.1, p.2 ++ q.2)))) (y.bind (fun p => (k' p.1).map (fun q => (q.1, p.2 ++ q.2)))) := by
  cases x with
  | none => cases y with
    | none => trivial
    | some y => exact h.elim
  | some x => cases y with
    | none => exact h.elim
    | some y =>
      obtain ⟨h1, h2⟩ := h
      have := hk x.1 y.1 h1
      simp only [Option.bind_some]
      revert this
      cases k x.1 with
      | none => cases k' y.1 with
        | none => intro _; trivial
        | some z => intro hz; exact hz.elim
      | some z => cases k' y.1 with
        | none => intro hz; exact hz.elim
        | some z' => intro hz; exact ⟨hz.1, by rw [hz.2, h2]⟩

theorem runRouterNow_cons (env : Env σ) (brk : Nat → Nat → Bool) (w : World σ) (ev : RouterEv) (evs : List RouterEv) :
    runRouterNow env brk w (ev :: evs) =
      (routerStepNow env brk w ev).bind (fun p => (runRouterNow env brk p.1 evs).map (fun q => (q.1, p.2 ++ q.2))) := by
  rw [runRouterNow]
  cases routerStepNow env brk w ev with
  | none => rfl
  | some p => simp only [Option.bind_some]; cases runRouterNow env brk p.1 evs <;> rfl

theorem routerStepNow_fd (env : Env σ) (brk : Nat → Nat → Bool) (w : World σ) (i : Nat) (o : Bool) :
    routerStepNow env brk w (.fd i o) = routerStep env w (.fd i o) := rfl

theorem runRouterNow_quiet (env : Env σ) (brk : Nat → Nat → Bool) {w w1 : World σ} {ev : RouterEv} (evs : List RouterEv)
    (h : routerStepNow env brk w ev = some (w1, [])) : runRouterNow env brk w (ev :: evs) = runRouterNow env brk w1 evs := by
  rw [runRouterNow, h]
  simp only [List.nil_append]
  cases runRouterNow env brk w1 evs <;> rfl

theorem runRouterNow_und (env : Env σ) (f g : Nat → Int) {brk brk' : Nat → Nat → Bool} (hb : ∀ i k, brk i k = true → U i = true)
    (hb' : ∀ i k, brk' i k = true → U i = true) {as bs : List RouterEv} (h : LossAlike U V as bs) : ∀ (w w' : World σ), Und U V w w' →
    OutUnd U V (runRouterNow { env with wres := f } brk w as) (runRouterNow { env with wres := g } brk' w' bs) := by
  induction h with
  | nil => intro w w' h; exact ⟨h, rfl⟩
  | read i io hi _ ih =>
    intro w w' h
    rw [runRouterNow_cons, runRouterNow_cons]
    exact outUnd_bind (handleReadNow_und env f g hb hb' i hi io _ w w' h) ih
  | accept _ ih =>
    intro w w' h
    rw [runRouterNow_quiet _ _ _ rfl, runRouterNow_quiet _ _ _ rfl]
    exact ih _ _ (accept_und w w' h)
  | logCall i c _ ih =>
    intro w w' h
    rw [runRouterNow_quiet _ _ _ rfl, runRouterNow_quiet _ _ _ rfl]
    exact ih _ _ (logCallNow_und env f g hb hb' w w' i c h)
  | aggregate _ ih =>
    intro w w' h
    rw [runRouterNow_quiet _ _ _ rfl, runRouterNow_quiet _ _ _ rfl]
    exact ih _ _ (aggregate_und w w' h)
  | fd i o _ ih =>
    intro w w' h
    obtain ⟨w1, w1', h1, h2, h3⟩ := fd_both_und { env with wres := f } { env with wres := g } w w' h i o
    rw [runRouterNow_quiet _ _ _ ((routerStepNow_fd _ _ _ _ _).trans h1), runRouterNow_quiet _ _ _ ((routerStepNow_fd _ _ _ _ _).trans h2)]
    exact ih _ _ h3
  | fdLeft i o hu _ ih =>
    intro w w' h
    obtain ⟨w1, h1, h2⟩ := fd_und { env with wres := f } w h.2 hu o
    rw [runRouterNow_quiet _ _ _ ((routerStepNow_fd _ _ _ _ _).trans h1)]
    exact ih _ _ (und_trans (und_symm h2) h)
  | fdRight i o hu _ ih =>
    intro w w' h
    obtain ⟨w1, h1, h2⟩ := fd_und { env with wres := g } w' (und_symm h).2 hu o
    rw [runRouterNow_quiet _ _ _ ((routerStepNow_fd _ _ _ _ _).trans h1)]
    exact ih _ _ (und_trans h h2)
  | hangups gone gone' hg _ ih =>
    intro w w' h
    rw [runRouterNow_quiet _ _ _ rfl, runRouterNow_quiet _ _ _ rfl]
    exact ih _ _ (hangups_und w w' h gone gone' hg)
  | hangLeft gone hg _ ih =>
    intro w w' h
    rw [runRouterNow_quiet _ _ _ rfl]
    refine ih _ _ (und_trans (hangups_und w w' h gone [] (fun i hv => ?_)) ?_)
    · simp only [List.not_mem_nil, iff_false]
      intro hm
      rw [hg i hm] at hv
      cases hv
    · have hn := (und_symm h).2
      exact ⟨⟨rfl, fun _ => rfl, by simp, rfl, rfl, rfl, rfl, fun _ => ⟨rfl, rfl⟩⟩, hn⟩
  | hangRight gone hg _ ih =>
    intro w w' h
    rw [runRouterNow_quiet _ _ _ rfl]
    refine ih _ _ (und_trans ?_ (hangups_und w w' h [] gone (fun i hv => ?_)))
    · exact ⟨⟨rfl, fun _ => rfl, by simp, rfl, rfl, rfl, rfl, fun _ => ⟨rfl, rfl⟩⟩, h.2⟩
    · simp only [List.not_mem_nil, false_iff]
      intro hm
      rw [hg i hm] at hv
      cases hv

/-- **C135.** Let two histories of a router be alike up to when and whether links in `U` are lost and come back and clients in `V` are
removed, and let the results of all writes, and which writes to links in `U` find the connection broken and close it at once, be arbitrary in
both. Then the same messages arrive and are passed on in both, and in the end the states are alike: every link outside `V` was
handed the same bytes in the same order, the same systems were learned on every link, and log endpoints and de-duplication are in the same state; if `V` is
empty, the same messages were counted as having no destination. -/
theorem C135_undisturbed (env : Env σ) (f : Nat → Int) (brk brk' : Nat → Nat → Bool) (hb : ∀ i k, brk i k = true → U i = true)
    (hb' : ∀ i k, brk' i k = true → U i = true) (evs evs' : List RouterEv) (he : LossAlike U V evs evs') (w w' : World σ)
    (hn : NoLogIn V w) (h : Undisturbed U V w w') (w1 : World σ) (as : List Arrival) (hr : runRouterNow env brk w evs = some (w1, as)) :
    ∃ w1', runRouterNow { env with wres := f } brk' w' evs' = some (w1', as) ∧ Undisturbed U V w1 w1' := by
  have := runRouterNow_und env env.wres f hb hb' he w w' ⟨h, hn⟩
  simp only [hr] at this
  cases hy : runRouterNow { env with wres := f } brk' w' evs' with
  | none => rw [hy] at this; exact this.elim
  | some y =>
    rw [hy] at this
    obtain ⟨y1, y2⟩ := y
    exact ⟨y1, by rw [this.2], this.1.1⟩

/-! ### The rest of the model -/

theorem routeLoopNow_plain (env : Env σ) (route : World σ → Msg → World σ) (gen : Bool) : ∀ (is : List Nat) (w : World σ) (m : Msg) (u : Bool),
    routeLoopNow env (fun _ _ => false) route gen is w m u = routeLoop env route gen is w m u
  | [], _, _, _ => rfl
  | i :: is, w, m, u => by
    have hw : writeMsgNow env (fun _ _ => false) route gen w i m = writeMsg env route gen w i m := by
      unfold writeMsgNow
      simp
    unfold routeLoopNow routeLoop
    rw [hw]
    cases w.eps[i]? with
    | none => exact routeLoopNow_plain env route gen is w m u
    | some e =>
      simp only []
      cases acceptMsg env.sniffer e m with
      | accepted => exact routeLoopNow_plain env route gen is _ _ _
      | filtered => exact routeLoopNow_plain env route gen is _ _ _
      | rejected => exact routeLoopNow_plain env route gen is _ _ _

theorem routeMsgNow_plain (env : Env σ) : ∀ (d : Nat) (gen : Bool), routeMsgNow env (fun _ _ => false) d gen = routeMsg env d gen
  | 0, _ => rfl
  | d + 1, gen => by
    funext w m
    simp only [routeMsgNow, routeMsg]
    rw [routeMsgNow_plain env d true, routeLoopNow_plain]

theorem handleMsgNow_plain (env : Env σ) (w : World σ) (i : Nat) (m : Msg) :
    handleMsgNow env (fun _ _ => false) w i m = handleMsg env w i m := by
  unfold handleMsgNow handleMsg
  simp only [routeMsgNow_plain]
  rfl

theorem handleReadNow_plain (env : Env σ) (i : Nat) (io : SysRead) : ∀ (n : Nat) (w : World σ),
    handleReadNow env (fun _ _ => false) i io n w = handleReadLoop env false i io n w
  | 0, _ => rfl
  | n + 1, w => by
    unfold handleReadNow handleReadLoop
    cases w.eps[i]? with
    | none => rfl
    | some e =>
      simp only []
      rcases readMsg env.tbl e.fdOpen e.rx io with ⟨rx, r⟩
      cases r with
      | stop r => rfl
      | msg m k =>
        simp only [handleMsgNow_plain, Bool.false_and, Bool.false_eq_true, if_false]
        cases handleMsg env { w with eps := w.eps.set i { e with rx := rx } } i m with
        | none => rfl
        | some x => simp only [handleReadNow_plain env i io n x.1]

theorem routerStepNow_plain (env : Env σ) (w : World σ) (ev : RouterEv) (r : World σ × List Arrival)
    (h : routerStepNow env (fun _ _ => false) w ev = some r) : routerStep env w ev = some r := by
  cases ev with
  | read i io =>
    simp only [routerStepNow, handleReadNow_plain] at h
    simp only [routerStep, handleRead]
    cases he : w.eps[i]? with
    | none =>
      unfold handleReadLoop at h
      rw [he] at h
      exact h
    | some e =>
      obtain ⟨w', as⟩ := r
      rcases handleReadLoop_spec env false i io _ w w' e as he h with h1 | ⟨h1, _⟩
      · simp only []
        rw [setRx_some w i _ he]
        exact h1
      · cases h1
  | logCall i c =>
    simp only [routerStepNow, logCallNow, routeMsgNow_plain] at h
    exact h
  | accept => exact h
  | hangups gone => exact h
  | fd i o => exact h
  | aggregate => exact h

theorem runRouterNow_plain (env : Env σ) : ∀ (evs : List RouterEv) (w : World σ) (r : World σ × List Arrival),
    runRouterNow env (fun _ _ => false) w evs = some r → runRouter env w evs = some r
  | [], _, _, h => h
  | ev :: evs, w, r, h => by
    rw [runRouterNow] at h
    split at h
    · cases h
    · rename_i w1 as h1
      split at h
      · cases h
      · rename_i w2 bs h2
        rw [runRouter, routerStepNow_plain env w ev _ h1]
        simp only [runRouterNow_plain env evs w1 _ h2]
        exact h

theorem lossAlike_refl : ∀ (evs : List RouterEv), (∀ i io, RouterEv.read i io ∈ evs → U i = false) → LossAlike U V evs evs
  | [], _ => .nil
  | ev :: evs, h => by
    have ih := lossAlike_refl evs (fun i io hm => h i io (List.mem_cons_of_mem _ hm))
    cases ev with
    | read i io => exact .read i io (h i io (List.mem_cons_self ..)) ih
    | accept => exact .accept ih
    | hangups gone => exact .hangups gone gone (fun _ _ => Iff.rfl) ih
    | fd i o => exact .fd i o ih
    | logCall i c => exact .logCall i c ih
    | aggregate => exact .aggregate ih

/-- **C135**, the rest of the model: closing broken connections at once, while a segment from another link is being handled, or later (`runRouter`, in which
descriptors change between reads only) makes no difference to what is handed to any link, learned, logged, dropped as duplicate or counted. -/
theorem C135_later (env : Env σ) (brk : Nat → Nat → Bool) (hb : ∀ i k, brk i k = true → U i = true) (evs : List RouterEv)
    (he : ∀ i io, RouterEv.read i io ∈ evs → U i = false) (w w1 : World σ) (as : List Arrival)
    (hr : runRouterNow env brk w evs = some (w1, as)) :
    ∃ w1', runRouter env w evs = some (w1', as) ∧ Undisturbed U (fun _ => false) w1 w1' := by
  obtain ⟨w1', h1, h2⟩ := C135_undisturbed (U := U) (V := fun _ => false) env env.wres brk (fun _ _ => false) hb (fun _ _ h => by cases h) evs evs
    (lossAlike_refl evs he) w w (fun _ _ _ hv => by cases hv) (undisturbed_refl w) w1 as hr
  exact ⟨w1', runRouterNow_plain env evs w _ h1, h2⟩

/-- **C135**, the lost link itself: a write to an open TCP client that reconnects and finds its connection broken leaves exactly this
link closed, and everything else about it and the other links as it was; any other write closes nothing. -/
theorem C135_closed (env : Env σ) (brk : Nat → Nat → Bool) (route : World σ → Msg → World σ) (gen : Bool) (w : World σ) (i : Nat) (m : Msg)
    (e : Ep) (he : w.eps[i]? = some e) (hk : e.kind ≠ .log) :
    (brk i w.out.length = true → e.kind = .tcp → e.fdOpen = true → env.wres w.out.length = -32 →
      (writeMsgNow env brk route gen w i m).1.eps = w.eps.set i { e with fdOpen := false }) ∧
    (brk i w.out.length = false ∨ e.kind ≠ .tcp ∨ e.fdOpen = false ∨ env.wres w.out.length ≠ -32 →
      (writeMsgNow env brk route gen w i m).1.eps = w.eps) := by
  have hw : (writeMsg env route gen w i m).1.eps = w.eps := by
    unfold writeMsg
    rw [he]
    simp only [Option.map_some]
    split
    · rename_i h; exact absurd (Option.some.inj h) hk
    · rfl
  unfold writeMsgNow
  simp only [he, Option.map_some, Option.some.injEq, negEPIPE]
  constructor
  · intro h1 h2 h3 h4
    rw [if_pos ⟨h1, h2, h3, h4⟩]
    unfold closeLink
    rw [hw, he]
  · intro h
    rw [if_neg ?_]
    · exact hw
    · rintro ⟨h1, h2, h3, h4⟩
      rcases h with h | h | h | h
      · rw [h1] at h; cases h
      · exact h h2
      · rw [h3] at h; cases h
      · exact h h4

/-- A TCP client beside a serial port; its first write fails with `EPIPE`. -/
example : (writeMsgNow { Sample.rlEnv false with wres := fun _ => -32 } (fun i _ => i == 1) (fun w _ => w) false
      (start [{ kind := .uart }, { kind := .tcp }] fun _ => ⟨none, 0⟩) 1 (Sample.hb2.toMsg Sample.tbl).1).1.eps.map Ep.fdOpen = [true, false] := by
  decide +kernel

namespace Sample

/-- A serial port, a TCP client that reconnects, an ArduPilot log, a UDP endpoint. -/
def brEps : List Ep := [{ kind := .uart }, { kind := .tcp }, { kind := .log, learned := [sysComp 2 0] }, { kind := .udp }]

def br0 : World LogSt := start brEps (fun _ => ⟨some (.bin (BinLog.init none .always)), 0⟩)

/-- A client connects to the server socket (link 4); three messages arrive on the serial port in one segment; two more. -/
def brCalm : List RouterEv := [.accept, .read 0 (.got (burst.flatMap Frame.encode)), .read 0 (.got (burst.flatMap Frame.encode))]

/-- The same, with the client gone in between, and the TCP client connected again at the end. -/
def brRough : List RouterEv :=
  [.accept, .read 0 (.got (burst.flatMap Frame.encode)), .hangups [4], .read 0 (.got (burst.flatMap Frame.encode)), .fd 1 true]

theorem br_alike : LossAlike (fun i => i == 1) (fun i => i == 4) brCalm brRough :=
  .accept (.read 0 _ rfl (.hangRight [4] (by decide) (.read 0 _ rfl (.fdRight 1 true rfl .nil))))

theorem br_noLog : NoLogIn (fun i => i == 4) br0 := by
  intro i e he hv
  simp only [beq_iff_eq] at hv
  subst hv
  have h4 : br0.eps[4]? = none := by decide
  rw [h4] at he
  cases he

end Sample

/-- In the rough history the first write to the TCP client finds the connection broken; the client of the server is gone after the
first segment. The UDP endpoint (3) and the log (2) get in both histories what they get in the other one. -/
example : ∃ w w' as, runRouterNow (Sample.rlEnv false) (fun _ _ => false) Sample.br0 Sample.brCalm = some (w, as) ∧
    runRouterNow { Sample.rlEnv false with wres := fun k => if k = 0 then -32 else 1 } (fun i _ => i == 1) Sample.br0 Sample.brRough = some (w', as) ∧
    Undisturbed (fun i => i == 1) (fun i => i == 4) w w' ∧ as.length = 6 ∧
    w.out.map Sent.ep = [1, 2, 3, 4, 2, 0, 1, 2, 3, 4, 1, 2, 3, 4, 2, 0, 1, 2, 3, 4] ∧
    w'.out.map Sent.ep = [1, 2, 3, 4, 2, 0, 1, 2, 3, 4, 1, 2, 3, 2, 0, 1, 2, 3] := by
  cases h : runRouterNow (Sample.rlEnv false) (fun _ _ => false) Sample.br0 Sample.brCalm with
  | none => exact absurd (congrArg Option.isSome h) (by decide +kernel)
  | some x =>
    obtain ⟨w', hw', hs⟩ := C135_undisturbed (Sample.rlEnv false) (fun k => if k = 0 then -32 else 1) _ (fun i _ => i == 1)
      (fun _ _ h => by cases h) (fun _ _ h => h) _ _ Sample.br_alike _ _ Sample.br_noLog (undisturbed_refl _) x.1 x.2 h
    have h1 : (runRouterNow (Sample.rlEnv false) (fun _ _ => false) Sample.br0 Sample.brCalm).map
        (fun x => (x.2.length, x.1.out.map Sent.ep)) = 
          some (6, [1, 2, 3, 4, 2, 0, 1, 2, 3, 4, 1, 2, 3, 4, 2, 0, 1, 2, 3, 4]) := by decide +kernel
    have h2 : (runRouterNow { Sample.rlEnv false with wres := fun k => if k = 0 then -32 else 1 } (fun i _ => i == 1) Sample.br0
        Sample.brRough).map (fun x => x.1.out.map Sent.ep) =
          some [1, 2, 3, 4, 2, 0, 1, 2, 3, 4, 1, 2, 3, 2, 0, 1, 2, 3] := by decide +kernel
    rw [h] at h1
    rw [hw'] at h2
    simp only [Option.map, Option.some.injEq, Prod.mk.injEq] at h1 h2
    exact ⟨x.1, w', x.2, rfl, hw', hs, h1.1, h1.2, h2⟩

/-- If the client that reconnects is closed in the middle of the first segment, it stays closed, and the traffic is that of the main model. -/
example : ∃ w as, runRouterNow { Sample.rlEnv false with wres := fun k => if k = 0 then -32 else 1 } (fun i _ => i == 1) Sample.br0 Sample.brCalm =
      some (w, as) ∧ (w.eps.map Ep.fdOpen) = [true, false, true, true, true] ∧
    ∃ w', runRouter { Sample.rlEnv false with wres := fun k => if k = 0 then -32 else 1 } Sample.br0 Sample.brCalm = some (w', as) ∧
      Undisturbed (fun i => i == 1) (fun _ => false) w w' := by
  cases h : runRouterNow { Sample.rlEnv false with wres := fun k => if k = 0 then -32 else 1 } (fun i _ => i == 1) Sample.br0 Sample.brCalm with
  | none => exact absurd (congrArg Option.isSome h) (by decide +kernel)
  | some x =>
    have h1 : (runRouterNow { Sample.rlEnv false with wres := fun k => if k = 0 then -32 else 1 } (fun i _ => i == 1) Sample.br0
        Sample.brCalm).map (fun x => x.1.eps.map Ep.fdOpen) = some [true, false, true, true, true] := by decide +kernel
    rw [h] at h1
    simp only [Option.map, Option.some.injEq] at h1
    refine ⟨x.1, x.2, rfl, h1, C135_later (U := fun i => i == 1) _ (fun i _ => i == 1) (fun _ _ h => h) _ ?_ _ _ _ h⟩
    intro i io hm
    simp only [Sample.brCalm, List.mem_cons, List.not_mem_nil, or_false, reduceCtorEq, false_or, RouterEv.read.injEq] at hm
    rcases hm with ⟨rfl, _⟩ | ⟨rfl, _⟩ <;> rfl

end Verif
