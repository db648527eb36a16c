import Verif.Lemmas.Loop
import Verif.Spec.Loop

/- Steps, batches and iterations of the poll loop preserve the invariants. -/

namespace Verif
open Spec

theorem hang_inv {s : LoopSt} (H : LInv s) : LInv { s with hangup := true } :=
  ⟨H.poll, H.eps, H.tim, H.slots, H.retry, H.valid, fun _ _ _ _ _ _ => rfl⟩

theorem hang_mono (s : LoopSt) : Mono s { s with hangup := true } :=
  ⟨fun _ o h => ⟨o, h, .refl o⟩, ⟨[], by simp⟩, Nat.le_refl _, fun _ o h => .inr ⟨o, h, rfl⟩⟩

theorem hang_conn {s : LoopSt} {p rt} (C : Conn s p rt) : Conn { s with hangup := true } p rt :=
  ⟨C.pos, C.ep, C.obj⟩

/-- What every step of a batch guarantees; `ok`: reconnect timers could be created. -/
structure StepOk (ok : Prop) (s s' : LoopSt) : Prop where
  inv : LInv s'
  mono : Mono s s'
  conn : ok → ∀ p rt, Conn s p rt → Conn s' p rt

theorem StepOk.refl {s : LoopSt} (H : LInv s) : StepOk True s s := ⟨H, .refl s, fun _ _ _ h => h⟩

theorem StepOk.trans {o1 o2 : Prop} {a b c : LoopSt} (h1 : StepOk o1 a b) (h2 : StepOk o2 b c) :
    StepOk (o1 ∧ o2) a c :=
  ⟨h2.inv, h1.mono.trans h2.mono, fun h p rt C => h2.conn h.2 p rt (h1.conn h.1 p rt C)⟩

theorem StepOk.weaken {o1 o2 : Prop} {a b : LoopSt} (h : StepOk o1 a b) (w : o2 → o1) : StepOk o2 a b :=
  ⟨h.inv, h.mono, fun k => h.conn (w k)⟩

theorem step_hang {ok : Prop} {s s' : LoopSt} (h : StepOk ok s s') : StepOk ok s { s' with hangup := true } :=
  ⟨hang_inv h.inv, h.mono.trans (hang_mono s'), fun k p rt C => hang_conn (h.conn k p rt C)⟩

theorem step_sched {s : LoopSt} (H : LInv s) {p : Nat} {v rt mem} (hp : s.obj p = some (.tcp true v rt mem))
    (hr : rt > 0) (ok : Bool) : StepOk (ok = true) s (s.scheduleReconnect p rt mem ok) := by
  refine ⟨sched_inv H hp hr ok, sched_mono hp hr ok, ?_⟩
  intro h q rtq C
  subst h
  exact sched_conn C hp

theorem step_invalid {s : LoopSt} (H : LInv s) {p : Nat} {v rt mem} (hp : s.obj p = some (.tcp true v rt mem))
    (hr : ¬ rt > 0) : StepOk True s { s.put p (some (.tcp true false rt mem)) with hangup := true } := by
  refine ⟨putTcp_inv H hp true false s.poll true (fun r h => .inr h) (fun h => absurd h hr) (fun _ => rfl)
    (fun _ => rfl), putTcp_mono hp true false s.poll true (fun _ => ⟨rfl, fun _ => rfl⟩), ?_⟩
  intro _ q rtq C
  refine putTcp_conn C hp ?_ true false s.poll true (fun _ _ => Iff.rfl)
  intro e
  subst e
  obtain ⟨a, b, h, _⟩ := C.obj
  rw [hp] at h
  cases h
  exact hr C.pos

theorem act_step {s : LoopSt} (H : LInv s) (a : Act) : ∃ s', s.act a = some s' ∧ StepOk (ActOk a) s s' := by
  cases a with
  | write q r ok =>
    simp only [LoopSt.act]
    by_cases hq : q ∈ s.endpoints
    · rw [if_pos hq]
      obtain ⟨o, ho, _⟩ := H.eps q hq
      rw [ho]
      have hk : StepOk (ActOk (.write q r ok)) s s := (StepOk.refl H).weaken (fun _ => trivial)
      cases o with
      | timer _ _ _ => exact ⟨s, rfl, hk⟩
      | plain _ => exact ⟨s, rfl, hk⟩
      | tcp fd v rt mem =>
        cases fd with
        | false => exact ⟨s, rfl, hk⟩
        | true =>
          by_cases he : r = .epipe
          · simp only [he, if_true]
            refine ⟨_, rfl, ?_⟩
            by_cases hr : rt > 0
            · simp only [if_pos hr]
              exact step_hang (step_sched H ho hr ok)
            · simp only [if_neg hr]
              exact (step_invalid H ho hr).weaken (fun _ => trivial)
          · simp only [if_neg he]; exact ⟨s, rfl, hk⟩
    · rw [if_neg hq]; exact ⟨s, rfl, (StepOk.refl H).weaken (fun _ => trivial)⟩
  | setSlot k ms ok =>
    refine ⟨_, rfl, ?_⟩
    cases ok with
    | false =>
      refine ⟨⟨H.poll, H.eps, H.tim, ?_, H.retry, H.valid, H.flag⟩,
        ⟨fun _ o h => ⟨o, h, .refl o⟩, ⟨[], by simp [LoopSt.addTimeout]⟩, Nat.le_refl _, fun _ o h => .inr ⟨o, h, rfl⟩⟩,
        fun _ p rt C => ⟨C.pos, C.ep, C.obj⟩⟩
      intro j t h
      simp only [addTimeout_false] at h
      split at h
      · cases h
      · exact H.slots j t h
    | true =>
      have H1 := addTimeout_inv H ms (.slot k) (by intro e h; cases h)
      refine ⟨⟨H1.poll, H1.eps, H1.tim, ?_, H1.retry, H1.valid, H1.flag⟩, ?_, ?_⟩
      · intro j t h
        by_cases e : j = k
        · subst e
          simp only [if_true] at h
          cases h
          exact ⟨ms, by
            show (s.addTimeout ms (.slot j) true).1.obj _ = _
            rw [addTimeout_obj, if_pos rfl]⟩
        · simp only [if_neg e] at h
          exact H1.slots j t h
      · have M := addTimeout_mono s ms (.slot k)
        exact ⟨M.obj, M.eps, M.len, M.own⟩
      · intro _ p rt C
        have C1 := addTimeout_conn C ms (.slot k) (by simp)
        exact ⟨C1.pos, C1.ep, C1.obj⟩
  | clearSlot k =>
    simp only [LoopSt.act]
    cases hs : s.slots k with
    | none => exact ⟨s, rfl, (StepOk.refl H).weaken (fun _ => trivial)⟩
    | some t =>
      obtain ⟨ms, ht⟩ := H.slots k t hs
      refine ⟨_, by simp only [LoopSt.delTimeout, ht, Option.map_some]; rfl, ?_⟩
      refine ⟨putTimer_inv H ht true ms _ ?_ (by simp), putTimer_mono ht true ms _ (by simp),
        fun _ p rt C => putTimer_conn C (by simp) ht true ms _⟩
      intro j u h
      split at h
      · cases h
      · rename_i hjk
        refine ⟨h, ?_⟩
        intro e
        subst e
        obtain ⟨m, h2⟩ := H.slots j u h
        rw [ht] at h2
        cases h2
        exact absurd rfl hjk
  | modSlot k ms =>
    simp only [LoopSt.act]
    cases hs : s.slots k with
    | none => exact ⟨s, rfl, (StepOk.refl H).weaken (fun _ => trivial)⟩
    | some t =>
      obtain ⟨m, ht⟩ := H.slots k t hs
      refine ⟨_, by simp only [LoopSt.modTimeout, ht]; rfl, ?_⟩
      exact ⟨putTimer_inv H ht false ms s.slots (fun j u h => ⟨h, fun _ => rfl⟩) (by simp),
        putTimer_mono ht false ms s.slots (by simp), fun _ p rt C => putTimer_conn C (by simp) ht false ms s.slots⟩

theorem acts_step : ∀ (as : List Act) {s : LoopSt}, LInv s →
    ∃ s', s.acts as = some s' ∧ StepOk (∀ a ∈ as, ActOk a) s s'
  | [], s, H => ⟨s, rfl, (StepOk.refl H).weaken (fun _ => trivial)⟩
  | a :: as, s, H => by
    obtain ⟨s1, e1, h1⟩ := act_step H a
    obtain ⟨s2, e2, h2⟩ := acts_step as h1.inv
    refine ⟨s2, by simp [LoopSt.acts, e1, e2], (h1.trans h2).weaken ?_⟩
    intro h
    exact ⟨h a List.mem_cons_self, fun b hb => h b (List.mem_cons_of_mem _ hb)⟩

theorem step_accept {s : LoopSt} (H : LInv s) (ok : Bool) : StepOk True s (s.accept ok) := by
  cases ok with
  | false => exact StepOk.refl H
  | true =>
    have ho : ∀ q, (s.accept true).obj q =
        if q = s.heap.length then some (.tcp true true 0 []) else s.obj q := by
      intro q; exact obj_append s q (some (.tcp true true 0 []))
    have hf := fresh s
    have hold : ∀ p o, s.obj p = some o → (s.accept true).obj p = some o := by
      intro p o h
      rw [ho, if_neg (fun e => by rw [e, hf] at h; cases h)]; exact h
    have hnt : ∀ t r m cb, (s.accept true).obj t = some (.timer r m cb) ↔ s.obj t = some (.timer r m cb) := by
      intro t r m cb
      rw [ho]
      split
      · rename_i e; subst e; rw [hf]; simp
      · rfl
    refine ⟨⟨?_, ?_, ?_, ?_, ?_, ?_, ?_⟩, ⟨?_, ?_, ?_, ?_⟩, ?_⟩
    · intro p hp
      rcases List.mem_cons.mp (show p ∈ s.heap.length :: s.poll from hp) with rfl | hp
      · exact ⟨_, by rw [ho, if_pos rfl]⟩
      · obtain ⟨o, h⟩ := H.poll p hp; exact ⟨o, hold p o h⟩
    · intro p hp
      rcases List.mem_append.mp (show p ∈ s.endpoints ++ [s.heap.length] from hp) with hp | hp
      · obtain ⟨o, h, h'⟩ := H.eps p hp; exact ⟨o, hold p o h, h'⟩
      · cases List.mem_singleton.mp hp
        exact ⟨_, by rw [ho, if_pos rfl], by intro _ _ _ h; cases h⟩
    · intro t
      rw [show (s.accept true).timers = s.timers from rfl, H.tim]
      simp only [hnt]
    · intro k t h; obtain ⟨m, h⟩ := H.slots k t h; exact ⟨m, hold _ _ h⟩
    · intro t m e h
      obtain ⟨a, b, c, d, h, h'⟩ := H.retry t m e ((hnt _ _ _ _).mp h)
      exact ⟨a, b, c, d, hold _ _ h, h'⟩
    · intro p a b c d h hr
      rw [ho] at h
      split at h
      · cases h; rfl
      · exact H.valid p a b c d h hr
    · intro p hp a c d h
      rw [ho] at h
      split at h
      · cases h
      · rename_i hne
        rcases List.mem_append.mp (show p ∈ s.endpoints ++ [s.heap.length] from hp) with hp | hp
        · exact H.flag p hp a c d h
        · exact absurd (List.mem_singleton.mp hp) hne
    · intro p o h; exact ⟨o, hold p o h, .refl o⟩
    · exact ⟨[s.heap.length], rfl, by simp⟩
    · simp [LoopSt.accept]
    · intro p o h
      rw [ho] at h
      split at h
      · cases h; exact .inl rfl
      · exact .inr ⟨o, h, rfl⟩
    · intro _ p rt C
      obtain ⟨hp, hep, a, b, h, h1, h2⟩ := C
      refine ⟨hp, List.mem_append_left _ hep, a, b, hold _ _ h, ?_, ?_⟩
      · intro e
        obtain ⟨x, y⟩ := h1 e
        exact ⟨List.mem_cons_of_mem _ x, fun t m h => y t m ((hnt _ _ _ _).mp h)⟩
      · intro e
        obtain ⟨x, t, y, z, w⟩ := h2 e
        refine ⟨?_, t, hold _ _ y, List.mem_cons_of_mem _ z, fun t' m h => w t' m ((hnt _ _ _ _).mp h)⟩
        intro hm
        rcases List.mem_cons.mp (show p ∈ s.heap.length :: s.poll from hm) with e | hm
        · rw [e, hf] at h; cases h
        · exact x hm

/-- The reconnect callback. -/
theorem step_retry {s : LoopSt} (H : LInv s) {t e : Nat} {ms v rt mem fd} (ht : s.obj t = some (.timer false ms (.retry e)))
    (he : s.obj e = some (.tcp fd v rt mem)) (hr : rt > 0) :
    StepOk True s { s.put e (some (.tcp false v rt mem)) with poll := s.poll, hangup := s.hangup } ∧
    ∃ s', (LoopSt.obj { s.put e (some (.tcp true true rt mem)) with poll := e :: s.poll.filter (· ≠ e) } t =
        some (.timer false ms (.retry e))) ∧
      s' = ({ s.put e (some (.tcp true true rt mem)) with poll := e :: s.poll.filter (· ≠ e) } : LoopSt).put t
        (some (.timer true ms (.retry e))) ∧ StepOk True s s' := by
  have hv := H.valid _ _ _ _ _ he hr
  subst hv
  have hte : t ≠ e := fun x => by rw [x, he] at ht; cases ht
  have hpoll : ∀ r, r ≠ e → (r ∈ e :: s.poll.filter (· ≠ e) ↔ r ∈ s.poll) := by
    intro r h; simp [h, List.mem_filter]
  constructor
  · refine ⟨putTcp_inv H he false true _ _ (fun r h => .inr h) (fun _ => rfl) id (by simp),
      putTcp_mono he false true _ _ (fun h => absurd hr (by omega)), ?_⟩
    intro _ p rtp C
    by_cases hpe : p = e
    · subst hpe
      obtain ⟨hp, hep, a, b, h, h1, h2⟩ := C
      rw [he] at h
      cases h
      cases fd with
      | true => exact absurd ht ((h1 rfl).2 t ms)
      | false =>
        have ho : ∀ r, LoopSt.obj { s.put p (some (.tcp false true rt mem)) with poll := s.poll, hangup := s.hangup } r
            = s.obj r := by
          intro r
          rw [show LoopSt.obj { s.put p (some (.tcp false true rt mem)) with poll := s.poll, hangup := s.hangup } r = _
            from obj_put s p r _ (obj_lt he)]
          split
          · rename_i e; rw [e, he]
          · rfl
        refine ⟨hp, hep, false, mem, by rw [ho]; exact he, by simp, ?_⟩
        intro _
        simp only [ho]
        exact h2 rfl
    · exact putTcp_conn C he hpe false true _ _ (fun _ _ => Iff.rfl)
  · have H1 : LInv { s.put e (some (.tcp true true rt mem)) with poll := e :: s.poll.filter (· ≠ e), hangup := s.hangup } :=
      putTcp_inv H he true true _ _ (by
        intro r h
        rcases List.mem_cons.mp h with h | h
        · exact .inl h
        · exact .inr (List.mem_filter.mp h).1) (fun _ => rfl) id (by simp)
    have M1 := putTcp_mono he true true (e :: s.poll.filter (· ≠ e)) s.hangup (fun h => absurd hr (by omega))
    have ho1 : ∀ r, LoopSt.obj { s.put e (some (.tcp true true rt mem)) with
        poll := e :: s.poll.filter (· ≠ e), hangup := s.hangup } r = if r = e then some (.tcp true true rt mem) else s.obj r :=
      fun r => obj_put s e r _ (obj_lt he)
    have ht1 : LoopSt.obj { s.put e (some (.tcp true true rt mem)) with poll := e :: s.poll.filter (· ≠ e), hangup := s.hangup } t =
        some (.timer false ms (.retry e)) := by rw [ho1, if_neg hte]; exact ht
    refine ⟨_, ht1, rfl, ?_⟩
    have hslot : ∀ k u, s.slots k = some u → s.slots k = some u ∧ (u = t → true = false) := by
      intro k u h
      refine ⟨h, fun x => ?_⟩
      obtain ⟨m, h2⟩ := H.slots k u h
      rw [x, ht] at h2
      cases h2
    refine ⟨putTimer_inv H1 ht1 true ms s.slots hslot (by simp), M1.trans (putTimer_mono ht1 true ms s.slots (by simp)), ?_⟩
    intro _ p rtp C
    by_cases hpe : p = e
    · subst hpe
      obtain ⟨hp, hep, a, b, h, h1, h2⟩ := C
      rw [he] at h
      cases h
      have ho2 : ∀ r, (({ s.put p (some (.tcp true true rt mem)) with
          poll := p :: s.poll.filter (· ≠ p), hangup := s.hangup } : LoopSt).put t
          (some (.timer true ms (.retry p)))).obj r = if r = t then some (.timer true ms (.retry p)) else
            if r = p then some (.tcp true true rt mem) else s.obj r := by
        intro r
        rw [obj_put _ _ _ _ (obj_lt ht1)]
        split
        · rfl
        · exact ho1 r
      cases fd with
      | true => exact absurd ht ((h1 rfl).2 t ms)
      | false =>
        obtain ⟨_, u, _, _, hu⟩ := h2 rfl
        have htu := hu t ms ht
        subst htu
        refine ⟨hp, hep, true, mem, ?_, fun _ => ⟨List.mem_cons_self, ?_⟩, by simp⟩
        · exact (ho2 p).trans (by rw [if_neg (Ne.symm hte), if_pos rfl])
        · intro t' m h
          replace h := (ho2 t').symm.trans h
          split at h
          · cases h
          · rename_i hne
            split at h
            · cases h
            · exact hne (hu t' m h)
    · exact putTimer_conn (putTcp_conn C he hpe true true _ _ hpoll) (by simpa using Ne.symm hpe) ht1 true ms s.slots

theorem handleIn_step {s : LoopSt} (H : LInv s) {p : Nat} {o} (hp : s.obj p = some o) (as : List Act) (stop : RStop)
    (expired connOk ok : Bool) :
    ∃ s', s.handleIn p as stop expired connOk ok = some s' ∧ StepOk (ok = true ∧ ∀ a ∈ as, ActOk a) s s' := by
  unfold LoopSt.handleIn
  rw [hp]
  obtain ⟨s1, e1, h1⟩ := acts_step as H
  cases o with
  | plain mem => exact ⟨s1, e1, h1.weaken (fun h => h.2)⟩
  | tcp fd v rt mem =>
    simp only [e1]
    obtain ⟨o', ho', hs⟩ := h1.mono.obj p _ hp
    rw [ho']
    have h1' : StepOk (ok = true ∧ ∀ a ∈ as, ActOk a) s s1 := h1.weaken (fun h => h.2)
    cases o' with
    | timer _ _ _ => exact absurd hs (by simp [SameObj])
    | plain _ => exact absurd hs (by simp [SameObj])
    | tcp fd' v' rt' mem' =>
      cases fd' with
      | false =>
        cases v' with
        | true => exact ⟨s1, rfl, h1'⟩
        | false => exact ⟨_, rfl, step_hang h1'⟩
      | true =>
        cases stop with
        | again => exact ⟨s1, rfl, h1'⟩
        | err =>
          cases v' with
          | true => exact ⟨s1, rfl, h1'⟩
          | false => exact ⟨_, rfl, step_hang h1'⟩
        | eof =>
          simp only
          by_cases hr : rt' > 0
          · rw [if_pos hr]
            exact ⟨_, rfl, (h1.trans (step_sched h1.inv ho' hr ok)).weaken (fun h => ⟨h.2, h.1⟩)⟩
          · rw [if_neg hr]
            exact ⟨_, rfl, (h1.trans (step_invalid h1.inv ho' hr)).weaken (fun h => ⟨h.2, trivial⟩)⟩
  | timer rm ms cb =>
    simp only
    by_cases hx : expired = true ∧ rm = false
    · rw [if_pos hx]
      obtain ⟨_, rfl⟩ := hx
      cases cb with
      | slot k => exact ⟨s1, e1, h1.weaken (fun h => h.2)⟩
      | retry e =>
        obtain ⟨fd, v, rt, mem, he, hr⟩ := H.retry p ms e hp
        simp only [he]
        obtain ⟨hA, s', ht, hs', hB⟩ := step_retry H hp he hr
        cases connOk with
        | true =>
          simp only [if_true, ht]
          exact ⟨_, rfl, hs' ▸ hB.weaken (fun _ => trivial)⟩
        | false => exact ⟨_, rfl, hA.weaken (fun _ => trivial)⟩
    · rw [if_neg hx]; exact ⟨s, rfl, (StepOk.refl H).weaken (fun _ => trivial)⟩

theorem step_exit {ok : Prop} {s s' : LoopSt} (h : StepOk ok s s') (b : Bool) : StepOk ok s { s' with exit := b } :=
  ⟨⟨h.inv.poll, h.inv.eps, h.inv.tim, h.inv.slots, h.inv.retry, h.inv.valid, h.inv.flag⟩,
    ⟨h.mono.obj, h.mono.eps, h.mono.len, h.mono.own⟩,
    fun k p rt C => ⟨(h.conn k p rt C).pos, (h.conn k p rt C).ep, (h.conn k p rt C).obj⟩⟩

/-- The object of the event exists. -/
def EvAlive (s : LoopSt) : PollEv → Prop
  | .listener _ => True
  | .obj p _ _ _ _ _ _ _ _ => ∃ o, s.obj p = some o

theorem handle_step {s : LoopSt} (H : LInv s) (e : PollEv) (he : EvAlive s e) :
    ∃ s', s.handle e = some s' ∧ StepOk (EvTimersOk e) s s' := by
  cases e with
  | listener ok => exact ⟨_, rfl, (step_accept H ok).weaken (fun _ => trivial)⟩
  | obj p isIn as stop ex co ok isOut isErr =>
    obtain ⟨o, ho⟩ := he
    have : ∃ s1, (if isIn = true then s.handleIn p as stop ex co ok else some s) = some s1 ∧
        StepOk (EvTimersOk (.obj p isIn as stop ex co ok isOut isErr)) s s1 := by
      cases isIn with
      | true => exact handleIn_step H ho as stop ex co ok
      | false => exact ⟨s, rfl, (StepOk.refl H).weaken (fun _ => trivial)⟩
    obtain ⟨s1, e1, h1⟩ := this
    simp only [LoopSt.handle, e1]
    by_cases hx : isOut = true ∨ isErr = true
    · rw [if_pos hx]
      obtain ⟨o', ho', _⟩ := h1.mono.obj p o ho
      rw [ho']
      cases o' with
      | tcp _ _ _ _ => exact ⟨s1, rfl, h1⟩
      | timer _ _ _ => exact ⟨_, rfl, step_exit h1 _⟩
      | plain _ => exact ⟨_, rfl, step_exit h1 _⟩
    · rw [if_neg hx]; exact ⟨s1, rfl, h1⟩

theorem EvAlive.mono {s s' : LoopSt} (M : Mono s s') {e : PollEv} (h : EvAlive s e) : EvAlive s' e := by
  cases e with
  | listener _ => trivial
  | obj p _ _ _ _ _ _ _ _ =>
    obtain ⟨o, h⟩ := h
    obtain ⟨o', h', _⟩ := M.obj p o h
    exact ⟨o', h'⟩

theorem Reportable.alive {s : LoopSt} (H : LInv s) {e : PollEv} (h : Reportable s e) : EvAlive s e := by
  cases e with
  | listener _ => trivial
  | obj p _ _ _ _ _ _ _ _ => exact H.poll p h

theorem handleAll_step : ∀ (evs : List PollEv) {s : LoopSt}, LInv s → (∀ e ∈ evs, EvAlive s e) →
    ∃ s', s.handleAll evs = some s' ∧ StepOk (∀ e ∈ evs, EvTimersOk e) s s'
  | [], s, H, _ => ⟨s, rfl, (StepOk.refl H).weaken (fun _ => trivial)⟩
  | e :: es, s, H, hal => by
    obtain ⟨s1, e1, h1⟩ := handle_step H e (hal e List.mem_cons_self)
    obtain ⟨s2, e2, h2⟩ := handleAll_step es h1.inv
      (fun x hx => (hal x (List.mem_cons_of_mem _ hx)).mono h1.mono)
    refine ⟨s2, by simp [LoopSt.handleAll, e1, e2], (h1.trans h2).weaken ?_⟩
    intro h
    exact ⟨h e List.mem_cons_self, fun b hb => h b (List.mem_cons_of_mem _ hb)⟩

/-! ### End of the iteration -/

theorem release_obj (s : LoopSt) (p q : Nat) :
    (s.release p).obj q = s.obj q ∨ (q = p ∧ (s.release p).obj q = none) := by
  unfold LoopSt.release
  split
  · exact .inl rfl
  · by_cases hl : p < s.heap.length
    · rw [show LoopSt.obj { s.put p none with poll := s.poll.filter (· ≠ p) } q = _ from obj_put s p q none hl]
      split
      · rename_i e; exact .inr ⟨e, rfl⟩
      · exact .inl rfl
    · left
      show ((s.heap.set p none)[q]?).join = _
      rw [List.set_eq_of_length_le (by omega)]; rfl

/-- What releasing the hung up endpoints does. -/
structure Released (gone : List Nat) (s s' : LoopSt) : Prop where
  obj : ∀ q, s'.obj q = s.obj q ∨ (q ∈ gone ∧ s'.obj q = none)
  poll : ∀ q ∈ s'.poll, q ∈ s.poll ∧ ((∃ o, s.obj q = some o) → ∃ o, s'.obj q = some o)
  keep : ∀ q, q ∉ gone → (q ∈ s'.poll ↔ q ∈ s.poll)
  eps : s'.endpoints = s.endpoints
  timers : s'.timers = s.timers
  slots : s'.slots = s.slots
  len : s'.heap.length = s.heap.length

theorem Released.refl (gone : List Nat) (s : LoopSt) : Released gone s s :=
  ⟨fun _ => .inl rfl, fun _ h => ⟨h, id⟩, fun _ _ => Iff.rfl, rfl, rfl, rfl, rfl⟩

theorem release_one (s : LoopSt) (p : Nat) : Released [p] s (s.release p) := by
  by_cases ho : s.owned p = true
  · rw [show s.release p = s by simp [LoopSt.release, ho]]; exact .refl _ _
  · have hr : s.release p = { s.put p none with poll := s.poll.filter (· ≠ p) } := by simp [LoopSt.release, ho]
    refine ⟨?_, ?_, ?_, by rw [hr]; rfl, by rw [hr]; rfl, by rw [hr]; rfl, by rw [hr]; simp [LoopSt.put]⟩
    · intro q
      rcases release_obj s p q with h | ⟨h, h'⟩
      · exact .inl h
      · exact .inr ⟨by simp [h], h'⟩
    · intro q hq
      rw [hr] at hq
      obtain ⟨h1, h2⟩ := List.mem_filter.mp hq
      refine ⟨h1, ?_⟩
      rcases release_obj s p q with h | ⟨h, _⟩
      · rw [h]; exact id
      · simp [h] at h2
    · intro q hq
      rw [hr]
      simp only [List.mem_singleton] at hq
      simp [List.mem_filter, hq]

theorem Released.comp {p : Nat} {ps : List Nat} {a b c : LoopSt} (h1 : Released [p] a b) (h2 : Released ps b c) :
    Released (p :: ps) a c := by
  refine ⟨?_, ?_, ?_, h2.eps.trans h1.eps, h2.timers.trans h1.timers, h2.slots.trans h1.slots, h2.len.trans h1.len⟩
  · intro q
    rcases h2.obj q with e | ⟨e, e'⟩
    · rcases h1.obj q with f | ⟨f, f'⟩
      · exact .inl (e.trans f)
      · exact .inr ⟨by simp_all, e.trans f'⟩
    · exact .inr ⟨List.mem_cons_of_mem _ e, e'⟩
  · intro q hq
    obtain ⟨x, y⟩ := h2.poll q hq
    obtain ⟨z, w⟩ := h1.poll q x
    exact ⟨z, fun h => y (w h)⟩
  · intro q hq
    simp only [List.mem_cons, not_or] at hq
    rw [h2.keep q hq.2, h1.keep q (by simpa using hq.1)]

theorem release_all : ∀ (ps : List Nat) (s : LoopSt), Released ps s (ps.foldl LoopSt.release s)
  | [], s => .refl _ s
  | p :: ps, s => (release_one s p).comp (release_all ps (s.release p))

theorem owned_iff (s : LoopSt) (p : Nat) : s.owned p = true ↔ ∃ q o, s.obj q = some o ∧ p ∈ ownedBy o := by
  unfold LoopSt.owned
  rw [List.any_eq_true]
  constructor
  · rintro ⟨o, ho, h⟩
    obtain ⟨q, hq, e⟩ := List.mem_iff_getElem.mp ho
    cases o with
    | none => cases h
    | some o =>
      refine ⟨q, o, by simp [LoopSt.obj, List.getElem?_eq_getElem hq, e], ?_⟩
      cases o <;> simp_all [ownedBy]
  · rintro ⟨q, o, ho, h⟩
    refine ⟨some o, ?_, ?_⟩
    · unfold LoopSt.obj at ho
      cases hx : s.heap[q]? with
      | none => rw [hx] at ho; cases ho
      | some x =>
        rw [hx] at ho
        cases ho
        exact List.mem_of_getElem? hx
    · cases o <;> simp_all [ownedBy]

theorem release_dead {s : LoopSt} {p : Nat} (h : s.owned p = false) :
    (s.release p).obj p = none ∧ p ∉ (s.release p).poll := by
  have hr : s.release p = { s.put p none with poll := s.poll.filter (· ≠ p) } := by simp [LoopSt.release, h]
  rw [hr]
  refine ⟨?_, by simp⟩
  by_cases hl : p < s.heap.length
  · rw [show LoopSt.obj { s.put p none with poll := s.poll.filter (· ≠ p) } p = _ from obj_put s p p none hl]
    simp
  · unfold LoopSt.obj LoopSt.put
    rw [List.getElem?_eq_none_iff.mpr (by simp; omega)]; rfl

theorem released_owned {gone s s'} (R : Released gone s s') {p : Nat} (h : s.owned p = false) : s'.owned p = false := by
  cases ho : s'.owned p with
  | false => rfl
  | true =>
    obtain ⟨q, o, hq, hm⟩ := (owned_iff s' p).mp ho
    have : s.owned p = true := by
      rw [owned_iff]
      rcases R.obj q with e | ⟨_, e⟩
      · exact ⟨q, o, e ▸ hq, hm⟩
      · rw [e] at hq; cases hq
    rw [this] at h; cases h

theorem released_stays {gone s s'} (R : Released gone s s') {p : Nat} (h : s.obj p = none ∧ p ∉ s.poll) :
    s'.obj p = none ∧ p ∉ s'.poll := by
  refine ⟨?_, fun hm => h.2 (R.poll p hm).1⟩
  rcases R.obj p with e | ⟨_, e⟩
  · rw [e]; exact h.1
  · exact e

theorem release_all_dead : ∀ (ps : List Nat) (s : LoopSt) (p : Nat), p ∈ ps → s.owned p = false →
    (ps.foldl LoopSt.release s).obj p = none ∧ p ∉ (ps.foldl LoopSt.release s).poll
  | q :: qs, s, p, hp, h => by
    by_cases hpq : p = q
    · subst hpq
      exact released_stays (release_all qs (s.release p)) (release_dead h)
    · have hp' : p ∈ qs := by simpa [hpq] using hp
      exact release_all_dead qs (s.release q) p hp' (released_owned (release_one s q) h)

theorem sweep_obj {s : LoopSt} (q : Nat) :
    s.sweep.obj q = if q ∈ s.timers ∧ s.marked q = true then none else s.obj q := by
  unfold LoopSt.obj LoopSt.sweep
  simp only [List.getElem?_mapIdx, List.mem_filter]
  cases s.heap[q]? with
  | none => simp
  | some o =>
    simp only [Option.map_some, Option.join_some]

theorem marked_iff {s : LoopSt} (t : Nat) : s.marked t = true ↔ ∃ ms cb, s.obj t = some (.timer true ms cb) := by
  unfold LoopSt.marked
  cases s.obj t with
  | none => simp
  | some o =>
    cases o with
    | timer r ms cb => cases r <;> simp
    | tcp _ _ _ _ => simp
    | plain _ => simp

theorem invalid_iff {s : LoopSt} (p : Nat) : s.invalid p = true ↔ ∃ fd rt mem, s.obj p = some (.tcp fd false rt mem) := by
  unfold LoopSt.invalid
  cases s.obj p with
  | none => simp
  | some o =>
    cases o with
    | tcp fd v rt mem => cases v <;> simp
    | timer _ _ _ => simp
    | plain _ => simp

/-- The state at the end of the iteration, given the state after the batch. -/
def LoopSt.finish (s : LoopSt) : LoopSt := (if s.hangup then s.processHangups else s).sweep

theorem iteration_eq (s : LoopSt) (evs : List PollEv) : s.iteration evs = (s.handleAll evs).map LoopSt.finish := rfl

/-- What the end of an iteration does to a state. -/
structure Finished (s s' : LoopSt) : Prop where
  eps : s'.endpoints = s.endpoints.filter (fun p => !s.invalid p)
  obj : ∀ q, s'.obj q = s.obj q ∨ ((s.invalid q = true ∧ q ∈ s.endpoints ∨ s.marked q = true) ∧ s'.obj q = none)
  marked : ∀ q, s.marked q = true → s'.obj q = none
  poll : ∀ q ∈ s'.poll, q ∈ s.poll ∧ ∃ o, s'.obj q = some o
  keep : ∀ q, s.invalid q = false → s.marked q = false → (q ∈ s'.poll ↔ q ∈ s.poll)
  timers : ∀ t, t ∈ s'.timers ↔ t ∈ s.timers ∧ s.marked t = false
  slots : s'.slots = s.slots
  hangup : s'.hangup = false ∨ s'.hangup = s.hangup
  dead : ∀ p ∈ s.endpoints, s.invalid p = true → s.owned p = false → s'.obj p = none ∧ p ∉ s'.poll
  len : s'.heap.length = s.heap.length

theorem finish_finished {s : LoopSt} (H : LInv s) : Finished s s.finish := by
  -- the state after the hang-ups
  have key : ∃ s1 : LoopSt, s.finish = s1.sweep ∧ Released (s.endpoints.filter s.invalid) s { s1 with endpoints := s.endpoints } ∧
      s1.endpoints = s.endpoints.filter (fun p => !s.invalid p) ∧ (s1.hangup = false ∨ s1.hangup = s.hangup) ∧
      (∀ p ∈ s.endpoints, s.invalid p = true → s.owned p = false → s1.obj p = none ∧ p ∉ s1.poll) := by
    by_cases hh : s.hangup = true
    · refine ⟨s.processHangups, by simp [LoopSt.finish, hh], ?_, ?_, .inl rfl, ?_⟩
      · have R := release_all (s.endpoints.filter s.invalid)
          { s with endpoints := s.endpoints.filter (fun p => !s.invalid p) }
        exact ⟨R.obj, R.poll, R.keep, rfl, R.timers, R.slots, R.len⟩
      · exact (release_all (s.endpoints.filter s.invalid)
          { s with endpoints := s.endpoints.filter (fun p => !s.invalid p) }).eps
      · intro p hp hi ho
        exact release_all_dead (s.endpoints.filter s.invalid)
          { s with endpoints := s.endpoints.filter (fun p => !s.invalid p) } p (List.mem_filter.mpr ⟨hp, hi⟩) ho
    · have hv : ∀ p ∈ s.endpoints, s.invalid p = false := by
        intro p hp
        cases hi : s.invalid p with
        | false => rfl
        | true =>
          obtain ⟨fd, rt, mem, h⟩ := (invalid_iff p).mp hi
          exact absurd (H.flag p hp fd rt mem h) hh
      refine ⟨s, by simp [LoopSt.finish, hh], .refl _ _, ?_, .inr rfl, ?_⟩
      · exact (List.filter_eq_self.mpr (fun p hp => by simp [hv p hp])).symm
      · intro p hp hi
        rw [hv p hp] at hi; cases hi
  obtain ⟨s1, e, R, he, hh, hd⟩ := key
  have hm1 : ∀ q, s1.marked q = s.marked q := by
    intro q
    unfold LoopSt.marked
    rcases R.obj q with x | ⟨x, y⟩
    · rw [show s1.obj q = s.obj q from x]
    · obtain ⟨_, hi⟩ := List.mem_filter.mp x
      obtain ⟨fd, rt, mem, h⟩ := (invalid_iff q).mp hi
      rw [show s1.obj q = none from y, h]
  have hmt : ∀ q, s.marked q = true → q ∈ s.timers := by
    intro q h
    obtain ⟨ms, cb, h⟩ := (marked_iff q).mp h
    exact (H.tim q).mpr ⟨_, _, _, h⟩
  have htim : s1.timers = s.timers := R.timers
  have hso : ∀ q, s.finish.obj q = if s.marked q = true then none else s1.obj q := by
    intro q
    rw [e, sweep_obj, hm1, htim]
    by_cases hm : s.marked q = true
    · rw [if_pos ⟨hmt q hm, hm⟩, if_pos hm]
    · rw [if_neg (fun h => hm h.2), if_neg hm]
  have hsp : ∀ q, q ∈ s.finish.poll ↔ q ∈ s1.poll ∧ s.marked q = false := by
    intro q
    rw [e]
    simp only [LoopSt.sweep, List.mem_filter, hm1, htim]
    constructor
    · rintro ⟨a, b⟩
      refine ⟨a, ?_⟩
      cases hm : s.marked q with
      | false => rfl
      | true => simp [hmt q hm, hm] at b
    · rintro ⟨a, b⟩
      exact ⟨a, by simp [b]⟩
  refine ⟨by rw [e]; exact he, ?_, ?_, ?_, ?_, ?_, by rw [e]; exact R.slots, by rw [e]; exact hh, ?_, ?_⟩
  · intro q
    rw [hso]
    by_cases hm : s.marked q = true
    · exact .inr ⟨.inr hm, by rw [if_pos hm]⟩
    · rw [if_neg hm]
      rcases R.obj q with x | ⟨x, y⟩
      · exact .inl x
      · obtain ⟨a, b⟩ := List.mem_filter.mp x
        exact .inr ⟨.inl ⟨b, a⟩, y⟩
  · intro q hm; rw [hso, if_pos hm]
  · intro q hq
    obtain ⟨h1, h2⟩ := (hsp q).mp hq
    obtain ⟨h3, h4⟩ := R.poll q h1
    refine ⟨h3, ?_⟩
    rw [hso, if_neg (by simp [h2])]
    exact h4 (H.poll q h3)
  · intro q hi hm
    rw [hsp]
    have := R.keep q (fun h => by rw [(List.mem_filter.mp h).2] at hi; cases hi)
    simp [hm, show q ∈ s1.poll ↔ q ∈ s.poll from this]
  · intro t
    rw [e]
    simp only [LoopSt.sweep, List.mem_filter, htim, hm1]
    simp
  · intro p hp hi ho
    obtain ⟨h1, h2⟩ := hd p hp hi ho
    refine ⟨?_, fun h => h2 ((hsp p).mp h).1⟩
    rw [hso]
    split
    · rfl
    · exact h1
  · rw [e]
    have : s1.heap.length = s.heap.length := R.len
    simp [LoopSt.sweep, this]

theorem finish_inv {s : LoopSt} (H : LInv s) : LInv s.finish ∧ ∀ p ∈ s.finish.endpoints, s.finish.invalid p = false := by
  have F := finish_finished H
  have hback : ∀ q o, s.finish.obj q = some o → s.obj q = some o ∧ s.marked q = false := by
    intro q o h
    refine ⟨?_, ?_⟩
    · rcases F.obj q with e | ⟨_, e⟩
      · rw [← e]; exact h
      · rw [e] at h; cases h
    · cases hm : s.marked q with
      | false => rfl
      | true => rw [F.marked q hm] at h; cases h
  have hfwd : ∀ q o, s.obj q = some o → s.invalid q = false → s.marked q = false → s.finish.obj q = some o := by
    intro q o h hi hm
    rcases F.obj q with e | ⟨e, _⟩
    · rw [e]; exact h
    · rcases e with ⟨e, _⟩ | e
      · rw [hi] at e; cases e
      · rw [hm] at e; cases e
  have hti : ∀ q r ms cb, s.obj q = some (.timer r ms cb) → s.invalid q = false := by
    intro q r ms cb h; simp [LoopSt.invalid, h]
  refine ⟨⟨fun p hp => (F.poll p hp).2, ?_, ?_, ?_, ?_, ?_, ?_⟩, ?_⟩
  · intro p hp
    rw [F.eps] at hp
    obtain ⟨h1, h2⟩ := List.mem_filter.mp hp
    obtain ⟨o, h3, h4⟩ := H.eps p h1
    refine ⟨o, hfwd p o h3 (by simpa using h2) ?_, h4⟩
    cases hm : s.marked p with
    | false => rfl
    | true =>
      obtain ⟨ms, cb, h5⟩ := (marked_iff p).mp hm
      rw [h3] at h5
      cases h5
      exact absurd rfl (h4 _ _ _)
  · intro t
    rw [F.timers]
    constructor
    · rintro ⟨h1, h2⟩
      obtain ⟨r, ms, cb, h⟩ := (H.tim t).mp h1
      exact ⟨r, ms, cb, hfwd t _ h (hti t r ms cb h) h2⟩
    · rintro ⟨r, ms, cb, h⟩
      obtain ⟨h1, h2⟩ := hback t _ h
      exact ⟨(H.tim t).mpr ⟨r, ms, cb, h1⟩, h2⟩
  · intro k t h
    rw [F.slots] at h
    obtain ⟨ms, h⟩ := H.slots k t h
    exact ⟨ms, hfwd t _ h (hti _ _ _ _ h) (by simp [LoopSt.marked, h])⟩
  · intro t ms e h
    obtain ⟨h1, _⟩ := hback t _ h
    obtain ⟨fd, v, rt, mem, h2, hr⟩ := H.retry t ms e h1
    have hv := H.valid _ _ _ _ _ h2 hr
    subst hv
    exact ⟨fd, true, rt, mem, hfwd e _ h2 (by simp [LoopSt.invalid, h2]) (by simp [LoopSt.marked, h2]), hr⟩
  · intro p fd v rt mem h
    exact H.valid p fd v rt mem (hback p _ h).1
  · intro p hp fd rt mem h
    rw [F.eps] at hp
    have h1 := (hback p _ h).1
    simp [LoopSt.invalid, h1] at hp
  · intro p hp
    rw [F.eps] at hp
    have := (List.mem_filter.mp hp).2
    cases hi : s.finish.invalid p with
    | false => rfl
    | true =>
      obtain ⟨fd, rt, mem, h⟩ := (invalid_iff p).mp hi
      have h1 := (hback p _ h).1
      simp [LoopSt.invalid, h1] at this

theorem finish_conn {s : LoopSt} (H : LInv s) {p rt} (C : Conn s p rt) : Conn s.finish p rt := by
  have F := finish_finished H
  have hback : ∀ q o, s.finish.obj q = some o → s.obj q = some o := by
    intro q o h
    rcases F.obj q with e | ⟨_, e⟩
    · rw [← e]; exact h
    · rw [e] at h; cases h
  obtain ⟨hp, hep, fd, mem, h, h1, h2⟩ := C
  have hi : s.invalid p = false := by simp [LoopSt.invalid, h]
  have hm : s.marked p = false := by simp [LoopSt.marked, h]
  have hfwd : ∀ q o, s.obj q = some o → s.invalid q = false → s.marked q = false → s.finish.obj q = some o := by
    intro q o h hi hm
    rcases F.obj q with e | ⟨e, _⟩
    · rw [e]; exact h
    · rcases e with ⟨e, _⟩ | e
      · rw [hi] at e; cases e
      · rw [hm] at e; cases e
  refine ⟨hp, ?_, fd, mem, hfwd p _ h hi hm, ?_, ?_⟩
  · rw [F.eps]; exact List.mem_filter.mpr ⟨hep, by simp [hi]⟩
  · intro e
    obtain ⟨a, b⟩ := h1 e
    exact ⟨(F.keep p hi hm).mpr a, fun t ms h => b t ms (hback t _ h)⟩
  · intro e
    obtain ⟨a, t, b, c, d⟩ := h2 e
    have ti : s.invalid t = false := by simp [LoopSt.invalid, b]
    have tm : s.marked t = false := by simp [LoopSt.marked, b]
    exact ⟨fun h => a ((F.keep p hi hm).mp h), t, hfwd t _ b ti tm, (F.keep t ti tm).mpr c,
      fun t' ms h => d t' ms (hback t' _ h)⟩

/-! ### Configuration -/

/-- Appending an endpoint `o` (not a timer, valid), registered in the poll set or not. -/
theorem append_ep {s : LoopSt} (H : LInv s) (o : Obj) (hnt : ∀ r ms cb, o ≠ .timer r ms cb)
    (hval : ∀ fd v rt mem, o = .tcp fd v rt mem → v = true) (poll : List Nat)
    (hpoll : poll = s.heap.length :: s.poll ∨ poll = s.poll) :
    LInv { s with heap := s.heap ++ [some o], endpoints := s.endpoints ++ [s.heap.length], poll := poll } ∧
    ∀ p rt, Conn s p rt → Conn { s with heap := s.heap ++ [some o], endpoints := s.endpoints ++ [s.heap.length], poll := poll } p rt := by
  have ho : ∀ q, LoopSt.obj { s with heap := s.heap ++ [some o], endpoints := s.endpoints ++ [s.heap.length], poll := poll } q =
      if q = s.heap.length then some o else s.obj q := fun q => obj_append s q (some o)
  have hf := fresh s
  have hold : ∀ p x, s.obj p = some x → LoopSt.obj { s with heap := s.heap ++ [some o], endpoints := s.endpoints ++ [s.heap.length], poll := poll } p = some x := by
    intro p x h
    rw [ho, if_neg (fun e => by rw [e, hf] at h; cases h)]; exact h
  have hnt : ∀ t r m cb, LoopSt.obj { s with heap := s.heap ++ [some o], endpoints := s.endpoints ++ [s.heap.length], poll := poll } t = some (.timer r m cb) ↔ s.obj t = some (.timer r m cb) := by
    intro t r m cb
    rw [ho]
    split
    · rename_i e; subst e; rw [hf]; simp [hnt]
    · rfl
  have hin : ∀ q ∈ poll, q = s.heap.length ∨ q ∈ s.poll := by
    intro q hq
    rcases hpoll with e | e <;> rw [e] at hq
    · exact List.mem_cons.mp hq
    · exact .inr hq
  have hin2 : ∀ q ∈ s.poll, q ∈ poll := by
    intro q hq
    rcases hpoll with e | e <;> rw [e]
    · exact List.mem_cons_of_mem _ hq
    · exact hq
  refine ⟨⟨?_, ?_, ?_, ?_, ?_, ?_, ?_⟩, ?_⟩
  · intro p hp
    rcases hin p hp with rfl | hp
    · exact ⟨_, by rw [ho, if_pos rfl]⟩
    · obtain ⟨x, h⟩ := H.poll p hp; exact ⟨x, hold p x h⟩
  · intro p hp
    rcases List.mem_append.mp (show p ∈ s.endpoints ++ [s.heap.length] from hp) with hp | hp
    · obtain ⟨x, h, h'⟩ := H.eps p hp; exact ⟨x, hold p x h, h'⟩
    · cases List.mem_singleton.mp hp
      exact ⟨_, by rw [ho, if_pos rfl], by assumption⟩
  · intro t
    rw [show LoopSt.timers { s with heap := s.heap ++ [some o], endpoints := s.endpoints ++ [s.heap.length], poll := poll }
      = s.timers from rfl, H.tim]
    simp only [hnt]
  · intro k t h; obtain ⟨m, h⟩ := H.slots k t h; exact ⟨m, hold _ _ h⟩
  · intro t m e h
    obtain ⟨a, b, c, d, h, h'⟩ := H.retry t m e ((hnt _ _ _ _).mp h)
    exact ⟨a, b, c, d, hold _ _ h, h'⟩
  · intro p a b c d h hr
    rw [ho] at h
    split at h
    · cases h; exact hval _ _ _ _ rfl
    · exact H.valid p a b c d h hr
  · intro p hp a c d h
    rw [ho] at h
    split at h
    · cases h; cases hval _ _ _ _ rfl
    · rename_i hne
      rcases List.mem_append.mp (show p ∈ s.endpoints ++ [s.heap.length] from hp) with hp | hp
      · exact H.flag p hp a c d h
      · exact absurd (List.mem_singleton.mp hp) hne
  · intro p rt C
    obtain ⟨hp, hep, a, b, h, h1, h2⟩ := C
    refine ⟨hp, List.mem_append_left _ hep, a, b, hold _ _ h, ?_, ?_⟩
    · intro e
      obtain ⟨x, y⟩ := h1 e
      exact ⟨hin2 _ x, fun t m h => y t m ((hnt _ _ _ _).mp h)⟩
    · intro e
      obtain ⟨x, t, y, z, w⟩ := h2 e
      refine ⟨?_, t, hold _ _ y, hin2 _ z, fun t' m h => w t' m ((hnt _ _ _ _).mp h)⟩
      intro hm
      rcases hin p hm with e | hm
      · rw [e, hf] at h; cases h
      · exact x hm

/-- Setting up one endpoint keeps the invariants and establishes the connection invariant of a new TCP client. -/
theorem addEndpoint_step {s : LoopSt} (H : LInv s) (c : EpConf) :
    LInv (s.addEndpoint c) ∧ (ConfOk c → ∀ p rt, Conn s p rt → Conn (s.addEndpoint c) p rt) ∧
    (ConfOk c → ∀ retry co ok mem, c = .tcp retry co ok mem → retry > 0 → Conn (s.addEndpoint c) s.heap.length retry) := by
  cases c with
  | plain mem =>
    obtain ⟨h1, h2⟩ := append_ep H (.plain mem) (by simp) (by simp) _ (.inl rfl)
    exact ⟨h1, fun _ => h2, by intro _ _ _ _ _ h; cases h⟩
  | tcp retry co ok mem =>
    have hnp : ∀ (poll : List Nat) (t : Nat) (ms : UInt32), LoopSt.obj { s with
        heap := s.heap ++ [some (.tcp co true retry mem)], endpoints := s.endpoints ++ [s.heap.length], poll := poll } t ≠
        some (.timer false ms (.retry s.heap.length)) := by
      intro poll t ms h
      have h := (obj_append s t (some (.tcp co true retry mem))).symm.trans h
      split at h
      · cases h
      · obtain ⟨_, _, _, _, h, _⟩ := H.retry _ _ _ h
        rw [fresh] at h; cases h
    have hself : ∀ (poll : List Nat), LoopSt.obj { s with
        heap := s.heap ++ [some (.tcp co true retry mem)], endpoints := s.endpoints ++ [s.heap.length], poll := poll }
        s.heap.length = some (.tcp co true retry mem) := by
      intro poll
      exact (obj_append s s.heap.length (some (.tcp co true retry mem))).trans (if_pos rfl)
    cases co with
    | true =>
      obtain ⟨h1, h2⟩ := append_ep H (.tcp true true retry mem) (by simp) (by simp) _ (.inl rfl)
      refine ⟨h1, fun _ => h2, ?_⟩
      intro _ _ _ _ _ h hr
      cases h
      exact ⟨hr, List.mem_append_right _ (List.mem_singleton.mpr rfl), true, mem, hself _,
        fun _ => ⟨List.mem_cons_self, hnp _⟩, by simp⟩
    | false =>
      obtain ⟨h1, h2⟩ := append_ep H (.tcp false true retry mem) (by simp) (by simp) _ (.inr rfl)
      by_cases hr : retry > 0
      · have hs : s.addEndpoint (.tcp retry false ok mem) = LoopSt.scheduleReconnect { s with
            heap := s.heap ++ [some (.tcp false true retry mem)], endpoints := s.endpoints ++ [s.heap.length], poll := s.poll }
            s.heap.length retry mem ok := by simp [LoopSt.addEndpoint, hr]
        rw [hs]
        refine ⟨sched_inv h1 (hself _) hr ok, ?_, ?_⟩
        · intro hok p rt C
          cases (show ok = true from hok)
          refine sched_other (h2 p rt C) (hself _) ?_
          intro e
          obtain ⟨_, _, h, _⟩ := C.obj
          rw [e, fresh] at h; cases h
        · intro hok _ _ _ _ h _
          cases h
          cases (show ok = true from hok)
          exact sched_self (hself _) hr (List.mem_append_right _ (List.mem_singleton.mpr rfl)) (hnp _)
      · have hs : s.addEndpoint (.tcp retry false ok mem) = { s with
            heap := s.heap ++ [some (.tcp false true retry mem)], endpoints := s.endpoints ++ [s.heap.length], poll := s.poll } := by
          simp [LoopSt.addEndpoint, hr]
        rw [hs]
        exact ⟨h1, fun _ => h2, by intro _ _ _ _ _ h hr'; cases h; exact absurd hr' hr⟩

theorem empty_inv : LInv {} := by
  have : ∀ p, LoopSt.obj {} p = none := fun p => by simp [LoopSt.obj]
  refine ⟨by simp, by simp, by simp [this], by simp, by simp [this], by simp [this], by simp⟩

/-- The object at an old address is untouched by setting up another endpoint. -/
theorem addEndpoint_old {s : LoopSt} (c : EpConf) {p : Nat} (hp : p < s.heap.length) :
    (s.addEndpoint c).obj p = s.obj p := by
  cases c with
  | plain mem => exact (obj_append s p (some (.plain mem))).trans (if_neg (by omega))
  | tcp retry co ok mem =>
    have hap : ∀ (poll : List Nat), LoopSt.obj { s with
        heap := s.heap ++ [some (.tcp co true retry mem)], endpoints := s.endpoints ++ [s.heap.length], poll := poll } p
        = s.obj p := fun poll => (obj_append s p (some (.tcp co true retry mem))).trans (if_neg (by omega))
    cases co with
    | true => exact hap _
    | false =>
      by_cases hr : retry > 0
      · have hs : s.addEndpoint (.tcp retry false ok mem) = LoopSt.scheduleReconnect { s with
            heap := s.heap ++ [some (.tcp false true retry mem)], endpoints := s.endpoints ++ [s.heap.length], poll := s.poll }
            s.heap.length retry mem ok := by simp [LoopSt.addEndpoint, hr]
        rw [hs, sched_split]
        have h1 : LoopSt.obj { LoopSt.put { s with
            heap := s.heap ++ [some (.tcp false true retry mem)], endpoints := s.endpoints ++ [s.heap.length], poll := s.poll }
            s.heap.length (some (.tcp false true retry mem)) with
            poll := s.poll.filter (· ≠ s.heap.length), hangup := s.hangup } p = s.obj p :=
          (obj_put _ _ _ _ (by simp)).trans ((if_neg (by omega)).trans (hap _))
        cases ok with
        | false => exact h1
        | true => exact (addTimeout_obj _ _ _ _).trans ((if_neg (by simp [LoopSt.put]; omega)).trans h1)
      · have hs : s.addEndpoint (.tcp retry false ok mem) = { s with
            heap := s.heap ++ [some (.tcp false true retry mem)], endpoints := s.endpoints ++ [s.heap.length], poll := s.poll } := by
          simp [LoopSt.addEndpoint, hr]
        rw [hs]; exact hap _

/-- The object of the newest endpoint. -/
theorem addEndpoint_new {s : LoopSt} (c : EpConf) {p : Nat} (hp : s.heap.length ≤ p) {fd v rt mem}
    (h : (s.addEndpoint c).obj p = some (.tcp fd v rt mem)) : p = s.heap.length ∧ ∃ co ok, c = .tcp rt co ok mem := by
  cases c with
  | plain ms =>
    have h := (obj_append s p (some (.plain ms))).symm.trans h
    split at h
    · cases h
    · exact absurd (obj_lt h) (by omega)
  | tcp retry co ok ms =>
    have hap : ∀ (poll : List Nat), LoopSt.obj { s with
        heap := s.heap ++ [some (.tcp co true retry ms)], endpoints := s.endpoints ++ [s.heap.length], poll := poll } p
        = if p = s.heap.length then some (.tcp co true retry ms) else s.obj p :=
      fun poll => obj_append s p (some (.tcp co true retry ms))
    have hfin : ∀ {fd' v'}, (if p = s.heap.length then some (Obj.tcp fd' v' retry ms) else s.obj p) = some (.tcp fd v rt mem) →
        p = s.heap.length ∧ ∃ co' ok', EpConf.tcp retry co ok ms = .tcp rt co' ok' mem := by
      intro fd' v' h
      split at h
      · cases h; exact ⟨by assumption, _, _, rfl⟩
      · exact absurd (obj_lt h) (by omega)
    cases co with
    | true => exact hfin ((hap _).symm.trans h)
    | false =>
      by_cases hr : retry > 0
      · have hs : s.addEndpoint (.tcp retry false ok ms) = LoopSt.scheduleReconnect { s with
            heap := s.heap ++ [some (.tcp false true retry ms)], endpoints := s.endpoints ++ [s.heap.length], poll := s.poll }
            s.heap.length retry ms ok := by simp [LoopSt.addEndpoint, hr]
        rw [hs, sched_split] at h
        have h1 : LoopSt.obj { LoopSt.put { s with
            heap := s.heap ++ [some (.tcp false true retry ms)], endpoints := s.endpoints ++ [s.heap.length], poll := s.poll }
            s.heap.length (some (.tcp false true retry ms)) with
            poll := s.poll.filter (· ≠ s.heap.length), hangup := s.hangup } p =
            if p = s.heap.length then some (.tcp false true retry ms) else s.obj p := by
          refine (obj_put _ _ _ _ (by simp)).trans ?_
          split
          · rfl
          · rw [hap]; rename_i e; rw [if_neg e]
        cases ok with
        | false => exact hfin (h1.symm.trans h)
        | true =>
          have h := (addTimeout_obj _ _ _ _).symm.trans h
          split at h
          · cases h
          · exact hfin (h1.symm.trans h)
      · have hs : s.addEndpoint (.tcp retry false ok ms) = { s with
            heap := s.heap ++ [some (.tcp false true retry ms)], endpoints := s.endpoints ++ [s.heap.length], poll := s.poll } := by
          simp [LoopSt.addEndpoint, hr]
        rw [hs] at h
        exact hfin ((hap _).symm.trans h)

theorem configured_from : ∀ (cs : List EpConf) (s : LoopSt), LInv s →
    LInv (cs.foldl LoopSt.addEndpoint s) ∧ ((∀ c ∈ cs, ConfOk c) →
      (∀ p fd v rt mem, s.obj p = some (.tcp fd v rt mem) → rt > 0 → Conn s p rt) →
      ∀ p fd v rt mem, (cs.foldl LoopSt.addEndpoint s).obj p = some (.tcp fd v rt mem) → rt > 0 →
        Conn (cs.foldl LoopSt.addEndpoint s) p rt)
  | [], s, H => ⟨H, fun _ h => h⟩
  | c :: cs, s, H => by
    obtain ⟨h1, h2, h3⟩ := addEndpoint_step H c
    obtain ⟨h4, h5⟩ := configured_from cs (s.addEndpoint c) h1
    refine ⟨h4, ?_⟩
    intro hok hs
    have hc := hok c List.mem_cons_self
    refine h5 (fun x hx => hok x (List.mem_cons_of_mem _ hx)) ?_
    intro p fd v rt mem h hr
    by_cases hp : p < s.heap.length
    · rw [addEndpoint_old c hp] at h
      exact h2 hc p rt (hs p fd v rt mem h hr)
    · obtain ⟨rfl, co, ok, rfl⟩ := addEndpoint_new c (Nat.le_of_not_lt hp) h
      exact h3 hc rt co ok mem rfl hr

theorem configured_inv (cs : List EpConf) : LInv (LoopSt.configured cs) := (configured_from cs {} empty_inv).1

theorem configured_conn (cs : List EpConf) (hok : ∀ c ∈ cs, ConfOk c) {p fd v rt mem}
    (h : (LoopSt.configured cs).obj p = some (.tcp fd v rt mem)) (hr : rt > 0) : Conn (LoopSt.configured cs) p rt := by
  refine (configured_from cs {} empty_inv).2 hok ?_ p fd v rt mem h hr
  intro q _ _ _ _ h
  simp [LoopSt.obj] at h

/-! ### Runs -/

theorem iteration_step {s : LoopSt} (H : LInv s) (evs : List PollEv) (hr : ∀ e ∈ evs, Reportable s e) :
    ∃ s1, s.handleAll evs = some s1 ∧ s.iteration evs = some s1.finish ∧
      StepOk (∀ e ∈ evs, EvTimersOk e) s s1 := by
  obtain ⟨s1, e1, h1⟩ := handleAll_step evs H (fun e he => Reportable.alive H (hr e he))
  exact ⟨s1, e1, by rw [iteration_eq, e1]; rfl, h1⟩

theorem runs_inv {s s' : LoopSt} {bs} (R : Runs s bs s') (H : LInv s) : LInv s' := by
  induction R with
  | done s => exact H
  | batch hr hi _ ih =>
    obtain ⟨s1, _, e, h⟩ := iteration_step H _ hr
    rw [hi] at e
    cases e
    exact ih (finish_inv h.inv).1

theorem runs_conn {s s' : LoopSt} {bs} (R : Runs s bs s') (H : LInv s) (hok : ∀ b ∈ bs, ∀ e ∈ b, EvTimersOk e)
    {p rt} (C : Conn s p rt) : Conn s' p rt := by
  induction R with
  | done s => exact C
  | batch hr hi _ ih =>
    obtain ⟨s1, _, e, h⟩ := iteration_step H _ hr
    rw [hi] at e
    cases e
    exact ih (finish_inv h.inv).1 (fun b hb => hok b (List.mem_cons_of_mem _ hb))
      (finish_conn h.inv (h.conn (hok _ List.mem_cons_self) p rt C))

theorem runsFrom_inv {cs setup bs s} (R : RunsFrom cs setup bs s) : LInv s := by
  obtain ⟨s0, e0, R⟩ := R
  obtain ⟨s1, e1, h1⟩ := acts_step setup (configured_inv cs)
  rw [e0] at e1
  cases e1
  exact runs_inv R h1.inv

end Verif
