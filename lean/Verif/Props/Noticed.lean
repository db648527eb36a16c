import Verif.Props.Segments

/-
C84, C29 inside the router: what the kernel answers to the writes of a whole event – through learning, routing and the messages
generated by log endpoints – decides for which endpoints the router asks to be woken, and whether it looks for broken TCP
connections.
-/

namespace Verif

open Spec

variable {σ : Type}

/-- What matters for the answer to a write: the kinds of the endpoints and which descriptors are open. -/
def links (w : World σ) : List (EpKind × Bool) := w.eps.map (fun e => (e.kind, e.fdOpen))

/-- What the kernel answered to the write `o.1`, the `o.2`-th one of the history: nothing if there was no system call, because
the endpoint is a log or has no connection. -/
def kernelAnswer (env : Env σ) (ls : List (EpKind × Bool)) (o : Sent × Nat) : Option Int :=
  match ls[o.1.ep]? with
  | some (.log, _) => none
  | some (_, true) => some (env.wres o.2)
  | _ => none

/-- `new` are the writes that lead from `w` to `w'`; the router asks to be woken for those endpoints whose write would have
blocked, in this order, and remembers whether one found a broken pipe. -/
structure Noticed (env : Env σ) (w w' : World σ) (new : List Sent) : Prop where
  links : links w' = links w
  out : w'.out = w.out ++ new
  asked : w'.pollOut = w.pollOut ++
    ((new.zipIdx w.out.length).filter (fun o => kernelAnswer env (Verif.links w) o == some (-11))).map (fun o => o.1.ep)
  broke : w'.hangup = (w.hangup || (new.zipIdx w.out.length).any (fun o => kernelAnswer env (Verif.links w) o == some (-32)))

theorem Noticed.refl (env : Env σ) (w : World σ) : Noticed env w w [] := ⟨rfl, by simp, by simp, by simp⟩

theorem Noticed.trans {env : Env σ} {w w' w'' : World σ} {a b : List Sent} (x : Noticed env w w' a) (y : Noticed env w' w'' b) :
    Noticed env w w'' (a ++ b) := by
  have hl : w'.out.length = w.out.length + a.length := by rw [x.out, List.length_append]
  refine ⟨y.links.trans x.links, by rw [y.out, x.out, List.append_assoc], ?_, ?_⟩
  · rw [y.asked, x.asked, x.links, hl, List.zipIdx_append, List.filter_append, List.map_append, List.append_assoc]
  · rw [y.broke, x.broke, x.links, hl, List.zipIdx_append, List.any_append, Bool.or_assoc]

theorem foldl_noticed {env : Env σ} {route : World σ → Msg → World σ} (hr : ∀ w m, ∃ new, Noticed env w (route w m) new) :
    ∀ (gs : List Msg) (w : World σ), ∃ new, Noticed env w (gs.foldl route w) new
  | [], w => ⟨[], .refl env w⟩
  | g :: gs, w => by
    obtain ⟨a, ha⟩ := hr w g
    obtain ⟨b, hb⟩ := foldl_noticed hr gs (route w g)
    exact ⟨a ++ b, ha.trans hb⟩

theorem links_get (w : World σ) (i : Nat) : (links w)[i]? = (w.eps[i]?).map (fun e => (e.kind, e.fdOpen)) := by
  simp [links]

theorem writeMsg_noticed (env : Env σ) {route : World σ → Msg → World σ} (hr : ∀ w m, ∃ new, Noticed env w (route w m) new)
    (gen : Bool) (w : World σ) (i : Nat) (m : Msg) : ∃ new, Noticed env w (writeMsg env route gen w i m).1 new := by
  unfold writeMsg
  split
  · rename_i hk
    obtain ⟨new, h⟩ := foldl_noticed hr (env.log i (w.logs i) m).2.1
      { w with
        out := w.out ++ [{ ep := i, bytes := m.data, gen := gen }]
        logs := fun j => if j = i then (env.log i (w.logs i) m).1 else w.logs j }
    have ha : kernelAnswer env (links w) ({ ep := i, bytes := m.data, gen := gen }, w.out.length) = none := by
      unfold kernelAnswer
      rw [links_get]
      cases he : w.eps[i]? with
      | none => rfl
      | some e =>
        rw [he] at hk
        simp only [Option.map_some, Option.some.injEq] at hk
        simp [hk]
    refine ⟨[{ ep := i, bytes := m.data, gen := gen }] ++ new, Noticed.trans ?_ h⟩
    refine ⟨rfl, rfl, ?_, ?_⟩ <;> simp [ha]
  · rename_i hk
    refine ⟨[{ ep := i, bytes := m.data, gen := gen }], rfl, rfl, ?_, ?_⟩
    all_goals
      cases he : w.eps[i]? with
      | none => simp [kernelAnswer, links_get, he, negEAGAIN, negEPIPE]
      | some e =>
        obtain ⟨k, g, fo, hfo⟩ : ∃ k g fo, e.kind = k ∧ e.group = g ∧ e.fdOpen = fo := ⟨_, _, _, rfl, rfl, rfl⟩
        rw [he] at hk
        have hk' : e.kind ≠ .log := by
          intro h
          exact hk (by rw [Option.map_some, h])
        cases ho : e.fdOpen <;> cases hkk : e.kind <;>
          first
            | exact absurd hkk hk'
            | (simp [kernelAnswer, links_get, he, ho, hkk, negEAGAIN, negEPIPE]; try (split <;> simp_all))

theorem routeLoop_noticed (env : Env σ) {route : World σ → Msg → World σ} (hr : ∀ w m, ∃ new, Noticed env w (route w m) new)
    (gen : Bool) : ∀ (is : List Nat) (w : World σ) (m : Msg) (u : Bool), ∃ new, Noticed env w (routeLoop env route gen is w m u).1 new
  | [], w, m, u => ⟨[], .refl env w⟩
  | i :: is, w, m, u => by
    unfold routeLoop
    split
    · exact routeLoop_noticed env hr gen is w m u
    · split
      · obtain ⟨a, ha⟩ := writeMsg_noticed env hr gen w i m
        obtain ⟨b, hb⟩ := routeLoop_noticed env hr gen is (writeMsg env route gen w i m).1
          { m with data := (writeMsg env route gen w i m).2 } false
        exact ⟨a ++ b, ha.trans hb⟩
      · exact routeLoop_noticed env hr gen is w m false
      · exact routeLoop_noticed env hr gen is w m u

theorem routeMsg_noticed (env : Env σ) : ∀ (d : Nat) (gen : Bool) (w : World σ) (m : Msg),
    ∃ new, Noticed env w (routeMsg env d gen w m) new
  | 0, gen, w, m => ⟨[], .refl env w⟩
  | d + 1, gen, w, m => by
    obtain ⟨new, h⟩ := routeLoop_noticed env (routeMsg_noticed env d true) gen w.active w m true
    refine ⟨new, ?_⟩
    unfold routeMsg
    simp only []
    split
    · exact ⟨h.links, h.out, h.asked, h.broke⟩
    · exact h

theorem links_addSysComp (id : UInt16) : ∀ (fuel : Nat) (h h' : List Ep) (i : Nat), addSysComp fuel h i id = some h' →
    h'.map (fun e => (e.kind, e.fdOpen)) = h.map (fun e => (e.kind, e.fdOpen))
  | 0, h, h', i, hh => by simp [addSysComp] at hh
  | fuel + 1, h, h', i, hh => by
    unfold addSysComp at hh
    cases he : h[i]? with
    | none => rw [he] at hh; cases hh; rfl
    | some e =>
      rw [he] at hh
      simp only [] at hh
      split at hh
      · cases hh; rfl
      · have hset : (h.set i { e with learned := e.learned ++ [id] }).map (fun e => (e.kind, e.fdOpen)) =
            h.map (fun e => (e.kind, e.fdOpen)) := by
          rw [List.map_set]
          refine List.ext_getElem? (fun k => ?_)
          rw [List.getElem?_set]
          split
          · rename_i hk; subst hk; obtain ⟨hl, hx⟩ := List.getElem?_eq_some_iff.mp he; simp [hl, hx]
          · rfl
        rw [← hset]
        generalize h.set i { e with learned := e.learned ++ [id] } = g at hh
        generalize e.members = ms at hh
        clear hset
        induction ms generalizing g with
        | nil => simp only [List.foldlM_nil, Option.pure_def, Option.some.injEq] at hh; rw [hh]
        | cons j ms ih =>
          simp only [List.foldlM_cons, Option.bind_eq_bind, Option.bind_eq_some_iff] at hh
          obtain ⟨g', h1, h2⟩ := hh
          rw [ih g' h2, links_addSysComp id fuel g g' j h1]

theorem handleMsg_noticed (env : Env σ) {w w' : World σ} {i : Nat} {m : Msg} {b : Bool} (h : handleMsg env w i m = some (w', b)) :
    ∃ new, Noticed env w w' new := by
  unfold handleMsg at h
  split at h
  · cases h; exact ⟨[], .refl env w⟩
  · split at h
    · cases h
    · simp only [] at h
      split at h
      · cases h; exact ⟨[], rfl, by simp, by simp, by simp⟩
      · split at h
        · cases h; exact ⟨[], rfl, by simp, by simp, by simp⟩
        · split at h
          · cases h
          · rename_i d _ _ _ _ _ eps' ha
            cases h
            obtain ⟨new, hn⟩ := routeMsg_noticed env 2 false { w with dedup := d, checks := w.checks + 1, eps := eps' } m
            have hl : links { w with dedup := d, checks := w.checks + 1, eps := eps' } = links w := links_addSysComp _ _ _ _ _ ha
            exact ⟨new, hn.links.trans hl, hn.out, by rw [hn.asked, hl], by rw [hn.broke, hl]⟩

theorem runMsgs_noticed (env : Env σ) (i : Nat) : ∀ (ms : List Msg) {w w' : World σ} {as : List Arrival},
    runMsgs env i w ms = some (w', as) → ∃ new, Noticed env w w' new
  | [], w, w', as, h => by cases h; exact ⟨[], .refl env w⟩
  | m :: ms, w, w', as, h => by
    unfold runMsgs at h
    cases hm : handleMsg env w i m with
    | none => rw [hm] at h; cases h
    | some r =>
      rw [hm] at h
      simp only [] at h
      cases hr : runMsgs env i r.1 ms with
      | none => rw [hr] at h; cases h
      | some q =>
        rw [hr] at h
        cases h
        obtain ⟨a, ha⟩ := handleMsg_noticed env (w' := r.1) (b := r.2) hm
        obtain ⟨b, hb⟩ := runMsgs_noticed env i ms (w' := q.1) (as := q.2) hr
        exact ⟨a ++ b, ha.trans hb⟩

/-- The events in which messages are written. -/
theorem step_noticed (env : Env σ) {w w' : World σ} {ev : RouterEv} {as : List Arrival} (hs : routerStep env w ev = some (w', as))
    (hev : (∃ i io, ev = .read i io) ∨ ∃ i c, ev = .logCall i c) : ∃ new, Noticed env w w' new := by
  rcases hev with ⟨i, io, rfl⟩ | ⟨i, c, rfl⟩
  · simp only [routerStep, handleRead] at hs
    cases he : w.eps[i]? with
    | none => rw [he] at hs; cases hs; exact ⟨[], .refl env w⟩
    | some e =>
      rw [he] at hs
      simp only [] at hs
      obtain ⟨new, hn⟩ := runMsgs_noticed env i _ hs
      have hl : links { w with eps := w.eps.set i { e with rx := (drain env.tbl e.fdOpen (rxBufMax + 1) e.rx io).1 } } = links w := by
        unfold links
        simp only [List.map_set]
        refine List.ext_getElem? (fun k => ?_)
        rw [List.getElem?_set]
        split
        · rename_i hk; subst hk; obtain ⟨hl, hx⟩ := List.getElem?_eq_some_iff.mp he; simp [hl, hx]
        · rfl
      exact ⟨new, hn.links.trans hl, hn.out, by rw [hn.asked, hl], by rw [hn.broke, hl]⟩
  · simp only [routerStep, Option.some.injEq, Prod.mk.injEq] at hs
    obtain ⟨rfl, _⟩ := hs
    unfold logCall
    split
    · obtain ⟨new, hn⟩ := foldl_noticed (env := env) (routeMsg_noticed env 2 true) (env.logCall i c (w.logs i)).2
        { w with logs := fun j => if j = i then (env.logCall i c (w.logs i)).1 else w.logs j }
      exact ⟨new, hn.links, hn.out, hn.asked, hn.broke⟩
    · exact ⟨[], .refl env w⟩

/-- **C84**, from routing: when a link is readable or a timer of a log fires, the router asks to be woken for exactly those
endpoints of which a write would have blocked (`-EAGAIN`), however the write came about. -/
theorem C84_asked (env : Env σ) {w w' : World σ} {ev : RouterEv} {as : List Arrival} (hs : routerStep env w ev = some (w', as)) :
    ∃ new, w'.out = w.out ++ new ∧
      w'.pollOut = w.pollOut ++
        ((new.zipIdx w.out.length).filter (fun o => kernelAnswer env (links w) o == some (-11))).map (fun o => o.1.ep) := by
  cases ev with
  | read i io => obtain ⟨new, h⟩ := step_noticed env hs (.inl ⟨i, io, rfl⟩); exact ⟨new, h.out, h.asked⟩
  | logCall i c => obtain ⟨new, h⟩ := step_noticed env hs (.inr ⟨i, c, rfl⟩); exact ⟨new, h.out, h.asked⟩
  | accept => cases hs; exact ⟨[], by simp, by simp⟩
  | hangups gone => cases hs; exact ⟨[], by simp, by simp⟩
  | aggregate =>
    simp only [routerStep, Option.some.injEq, Prod.mk.injEq] at hs
    obtain ⟨rfl, _⟩ := hs
    unfold aggregate
    split <;> exact ⟨[], by simp, by simp⟩
  | fd i o =>
    simp only [routerStep] at hs
    split at hs <;> (cases hs; exact ⟨[], by simp, by simp⟩)

/-- **C29**, from routing: broken connections are looked for after an event iff that was pending, or a write of the event found a
broken pipe (`-EPIPE`), however the write came about; looking for them settles it. -/
theorem C29_noticed (env : Env σ) {w w' : World σ} {ev : RouterEv} {as : List Arrival} (hs : routerStep env w ev = some (w', as)) :
    ∃ new, w'.out = w.out ++ new ∧
      (w'.hangup = true ↔ (∀ gone, ev ≠ .hangups gone) ∧
        (w.hangup = true ∨ ∃ o ∈ new.zipIdx w.out.length, kernelAnswer env (links w) o = some (-32))) := by
  cases ev with
  | read i io =>
    obtain ⟨new, h⟩ := step_noticed env hs (.inl ⟨i, io, rfl⟩)
    exact ⟨new, h.out, by rw [h.broke]; simp⟩
  | logCall i c =>
    obtain ⟨new, h⟩ := step_noticed env hs (.inr ⟨i, c, rfl⟩)
    exact ⟨new, h.out, by rw [h.broke]; simp⟩
  | accept => cases hs; exact ⟨[], by simp, by simp⟩
  | hangups gone => cases hs; exact ⟨[], by simp, by simp⟩
  | aggregate =>
    simp only [routerStep, Option.some.injEq, Prod.mk.injEq] at hs
    obtain ⟨rfl, _⟩ := hs
    unfold aggregate
    split <;> exact ⟨[], by simp, by simp⟩
  | fd i o =>
    simp only [routerStep] at hs
    split at hs <;> (cases hs; exact ⟨[], by simp, by simp⟩)

/-- Three writes: one would block, one finds a broken pipe, one goes through. -/
example :
    let env : Env Unit := { tbl := fun _ => none, hashFn := fun _ => 0, clock := fun _ => 0,
                            wres := fun n => if n = 0 then -11 else if n = 1 then -32 else 21, log := fun _ s m => (s, [], m.data) }
    let w : World Unit := { eps := [{ kind := .uart }, { kind := .udp }, { kind := .tcp }, { kind := .uart }], active := [0, 1, 2, 3],
                            logs := fun _ => () }
    (routerStep env w (.read 0 (.got [254, 0, 0, 1, 1, 9, 0, 0]))).map
      (fun r => (r.1.out.map Sent.ep, r.1.pollOut, r.1.hangup)) = some ([1, 2, 3], [1], true) := by decide +kernel

end Verif
