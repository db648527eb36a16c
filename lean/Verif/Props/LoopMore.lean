import Verif.Props.Loop

/- C33 for whole iterations of the event loop; C101: which errors end the loop. -/

namespace Verif

open Verif.Spec

theorem finish_timers (s : LoopSt) : s.finish.timers.Sublist s.timers := by
  unfold LoopSt.finish
  by_cases hh : s.hangup = true
  · rw [if_pos hh]
    have R := release_all (s.endpoints.filter s.invalid)
      { s with endpoints := s.endpoints.filter (fun p => !s.invalid p) }
    have : s.processHangups.timers = s.timers := R.timers
    unfold LoopSt.sweep
    rw [this]
    exact List.filter_sublist
  · rw [if_neg hh]
    exact List.filter_sublist

/-- **C33** for the event loop: whatever the handlers of a batch do, after the iteration exactly the timers that were not cancelled are
registered, in the order they had, still set up as they were and still polled if they were; the cancelled ones are destroyed. -/
theorem C33_iteration {cs setup bs s} (R : RunsFrom cs setup bs s) (evs : List PollEv) (hr : ∀ e ∈ evs, Reportable s e) :
    ∃ s1 s', s.handleAll evs = some s1 ∧ s.iteration evs = some s' ∧ s'.timers.Sublist s1.timers ∧
      (∀ t, t ∈ s'.timers ↔ ∃ ms cb, s1.obj t = some (.timer false ms cb)) ∧
      (∀ t ms cb, s1.obj t = some (.timer true ms cb) → s'.obj t = none ∧ t ∉ s'.poll) ∧
      ∀ t ms cb, s1.obj t = some (.timer false ms cb) → s'.obj t = some (.timer false ms cb) ∧ (t ∈ s'.poll ↔ t ∈ s1.poll) := by
  have H := runsFrom_inv R
  obtain ⟨s1, e1, h1⟩ := handleAll_step evs H (fun e he => Reportable.alive H (hr e he))
  have F := finish_finished h1.inv
  refine ⟨s1, s1.finish, e1, by rw [iteration_eq, e1]; rfl, finish_timers s1, ?_, ?_, ?_⟩
  · intro t
    rw [F.timers, h1.inv.tim]
    constructor
    · rintro ⟨⟨r, ms, cb, ho⟩, hm⟩
      cases r with
      | false => exact ⟨ms, cb, ho⟩
      | true => rw [(marked_iff t).mpr ⟨ms, cb, ho⟩] at hm; cases hm
    · rintro ⟨ms, cb, ho⟩
      refine ⟨⟨false, ms, cb, ho⟩, ?_⟩
      simp [LoopSt.marked, ho]
  · intro t ms cb ho
    have hm := F.marked t ((marked_iff t).mpr ⟨ms, cb, ho⟩)
    refine ⟨hm, fun hp => ?_⟩
    obtain ⟨_, o, h⟩ := F.poll t hp
    rw [hm] at h; cases h
  · intro t ms cb ho
    have hi : s1.invalid t = false := by simp [LoopSt.invalid, ho]
    have hm : s1.marked t = false := by simp [LoopSt.marked, ho]
    refine ⟨?_, F.keep t hi hm⟩
    rcases F.obj t with h | ⟨h | h, _⟩
    · rw [h, ho]
    · rw [hi] at h; cases h.1
    · rw [hm] at h; cases h

open Sample in
/-- In the second batch the reconnect timer at address 3 is cancelled (the connection is there again). -/
example : ((loop1.handleAll batch2).map fun s1 => (s1.timers, s1.obj 3)) = some ([3], some (.timer true 5000 (.retry 1))) ∧
    (loop1.iteration batch2).map (fun s => (s.timers, s.obj 3)) = some ([], none) := by decide

/-! ### C101 -/

/-- An error is reported for an object the router depends on: no TCP connection. -/
def Spec.Fails (s : LoopSt) : PollEv → Prop
  | .listener _ => False
  | .obj p _ _ _ _ _ _ _ isErr => isErr = true ∧ ∀ fd v rt mem, s.obj p ≠ some (.tcp fd v rt mem)

theorem act_exit {s s' : LoopSt} {a : Act} (h : s.act a = some s') : s'.exit = s.exit := by
  cases a with
  | write q r ok =>
    simp only [LoopSt.act] at h
    split at h
    · split at h
      · cases h
      · split at h
        · cases h
          dsimp only
          split
          · unfold LoopSt.scheduleReconnect LoopSt.addTimeout
            split <;> rfl
          · rfl
        · cases h; rfl
      · cases h; rfl
    · cases h; rfl
  | setSlot k ms ok =>
    simp only [LoopSt.act, Option.some.injEq] at h
    subst h
    unfold LoopSt.addTimeout
    split <;> rfl
  | clearSlot k =>
    simp only [LoopSt.act] at h
    split at h
    · cases h; rfl
    · unfold LoopSt.delTimeout at h
      split at h
      · cases h; rfl
      · cases h
  | modSlot k ms =>
    simp only [LoopSt.act] at h
    split at h
    · cases h; rfl
    · unfold LoopSt.modTimeout at h
      split at h
      · cases h; rfl
      · cases h

theorem acts_exit : ∀ {as : List Act} {s s' : LoopSt}, s.acts as = some s' → s'.exit = s.exit
  | [], s, s', h => by simp only [LoopSt.acts, Option.some.injEq] at h; rw [h]
  | a :: as, s, s', h => by
    simp only [LoopSt.acts] at h
    obtain ⟨s1, h1, h2⟩ := Option.bind_eq_some_iff.mp h
    rw [acts_exit h2, act_exit h1]

theorem sched_exit (s : LoopSt) (p : Nat) (rt : Int) (mem : List Nat) (ok : Bool) :
    (s.scheduleReconnect p rt mem ok).exit = s.exit := by
  unfold LoopSt.scheduleReconnect LoopSt.addTimeout
  split <;> rfl

theorem handleIn_exit {s s' : LoopSt} {p as stop ex co ok} (h : s.handleIn p as stop ex co ok = some s') :
    s'.exit = s.exit := by
  unfold LoopSt.handleIn at h
  split at h
  · cases h
  · exact acts_exit h
  · split at h
    · cases h
    · rename_i s1 hs1
      have he := acts_exit hs1
      split at h
      · split at h
        · cases h; exact he
        · split at h <;> (cases h; exact he)
        · split at h
          · cases h; rw [sched_exit]; exact he
          · cases h; exact he
      · split at h <;> (cases h; exact he)
      · cases h
  · split at h
    · split at h
      · exact acts_exit h
      · split at h
        · split at h
          · dsimp only at h
            split at h
            · cases h; rfl
            · cases h
          · cases h; rfl
        · cases h
    · cases h; rfl

theorem sameObj_tcp {o o' : Obj} (h : SameObj o o') :
    (∀ fd v rt mem, o ≠ .tcp fd v rt mem) ↔ ∀ fd v rt mem, o' ≠ .tcp fd v rt mem := by
  cases o with
  | tcp fd v rt mem =>
    cases o' with
    | tcp fd' v' rt' mem' =>
      exact ⟨fun k => absurd rfl (k fd v rt mem), fun k => absurd rfl (k fd' v' rt' mem')⟩
    | timer _ _ _ => exact absurd h (by simp [SameObj])
    | plain _ => exact absurd h (by simp [SameObj])
  | timer _ _ _ =>
    cases o' with
    | tcp _ _ _ _ => exact absurd h (by simp [SameObj])
    | timer _ _ _ => simp
    | plain _ => simp
  | plain _ =>
    cases o' with
    | tcp _ _ _ _ => exact absurd h (by simp [SameObj])
    | timer _ _ _ => simp
    | plain _ => simp

theorem handle_exit {s s' : LoopSt} (H : LInv s) {e : PollEv} (ha : EvAlive s e) (h : s.handle e = some s') :
    s'.exit = true ↔ s.exit = true ∨ Fails s e := by
  cases e with
  | listener ok =>
    simp only [LoopSt.handle, Option.some.injEq] at h
    subst h
    unfold LoopSt.accept Fails
    split <;> simp
  | obj p isIn as stop ex co ok isOut isErr =>
    obtain ⟨o, ho⟩ := ha
    have : ∃ s1, (if isIn = true then s.handleIn p as stop ex co ok else some s) = some s1 ∧ Mono s s1 ∧ s1.exit = s.exit := by
      cases isIn with
      | true =>
        obtain ⟨s1, e1, h1⟩ := handleIn_step H ho as stop ex co ok
        exact ⟨s1, e1, h1.mono, handleIn_exit e1⟩
      | false => exact ⟨s, rfl, .refl s, rfl⟩
    obtain ⟨s1, e1, M, hx⟩ := this
    obtain ⟨o', ho', hsame⟩ := M.obj p o ho
    simp only [LoopSt.handle, e1] at h
    have hf : Fails s (.obj p isIn as stop ex co ok isOut isErr) ↔ isErr = true ∧ ∀ fd v rt mem, o' ≠ .tcp fd v rt mem := by
      show (isErr = true ∧ ∀ fd v rt mem, s.obj p ≠ some (.tcp fd v rt mem)) ↔ _
      rw [ho]
      refine and_congr_right fun _ => ?_
      simpa using sameObj_tcp hsame
    rw [hf]
    split at h
    · rename_i hor
      rw [ho'] at h
      cases o' with
      | tcp fd v rt mem =>
        cases h
        rw [hx]
        refine ⟨.inl, ?_⟩
        rintro (h | ⟨_, h⟩)
        · exact h
        · exact absurd rfl (h fd v rt mem)
      | timer r ms cb =>
        cases h
        simp [hx]
      | plain mem =>
        cases h
        simp [hx]
    · rename_i hor
      cases h
      rw [hx]
      refine ⟨.inl, ?_⟩
      rintro (h | ⟨h, _⟩)
      · exact h
      · exact absurd (.inr h) hor

theorem Fails.mono {s s' : LoopSt} (M : Mono s s') {e : PollEv} (ha : EvAlive s e) : Fails s' e ↔ Fails s e := by
  cases e with
  | listener _ => exact Iff.rfl
  | obj p isIn as stop ex co ok isOut isErr =>
    obtain ⟨o, ho⟩ := ha
    obtain ⟨o', ho', hsame⟩ := M.obj p o ho
    show (isErr = true ∧ ∀ fd v rt mem, s'.obj p ≠ some (.tcp fd v rt mem)) ↔
      (isErr = true ∧ ∀ fd v rt mem, s.obj p ≠ some (.tcp fd v rt mem))
    rw [ho, ho']
    refine and_congr_right fun _ => ?_
    simpa using (sameObj_tcp hsame).symm

theorem handleAll_exit : ∀ {evs : List PollEv} {s s' : LoopSt}, LInv s → (∀ e ∈ evs, EvAlive s e) →
    s.handleAll evs = some s' → (s'.exit = true ↔ s.exit = true ∨ ∃ e ∈ evs, Fails s e)
  | [], s, s', _, _, h => by
    simp only [LoopSt.handleAll, Option.some.injEq] at h
    simp [h]
  | e :: es, s, s', H, hal, h => by
    simp only [LoopSt.handleAll] at h
    obtain ⟨s1, h1, h2⟩ := Option.bind_eq_some_iff.mp h
    obtain ⟨s1', e1, st⟩ := handle_step H e (hal e List.mem_cons_self)
    rw [h1] at e1; cases e1
    rw [handleAll_exit st.inv (fun x hx => (hal x (List.mem_cons_of_mem _ hx)).mono st.mono) h2,
      handle_exit H (hal e List.mem_cons_self) h1, or_assoc]
    apply or_congr_right
    constructor
    · rintro (h | ⟨x, hx, h⟩)
      · exact ⟨e, List.mem_cons_self, h⟩
      · exact ⟨x, List.mem_cons_of_mem _ hx, (Fails.mono st.mono (hal x (List.mem_cons_of_mem _ hx))).mp h⟩
    · rintro ⟨x, hx, hf⟩
      rcases List.mem_cons.mp hx with rfl | hx
      · exact .inl hf
      · exact .inr ⟨x, hx, (Fails.mono st.mono (hal x (List.mem_cons_of_mem _ hx))).mpr hf⟩

theorem foldl_release_exit : ∀ (ps : List Nat) (s : LoopSt), (ps.foldl LoopSt.release s).exit = s.exit
  | [], _ => rfl
  | p :: ps, s => by
    rw [List.foldl_cons, foldl_release_exit ps]
    unfold LoopSt.release
    split <;> rfl

theorem finish_exit (s : LoopSt) : s.finish.exit = s.exit := by
  unfold LoopSt.finish
  split
  · show s.processHangups.exit = _
    unfold LoopSt.processHangups
    exact foldl_release_exit _ _
  · rfl

/-- **C101** (which errors count): in every reachable state and for every batch of events, the router gives up exactly if an error is
reported for a descriptor that is no TCP connection; whatever happens on TCP connections never makes it give up. -/
theorem C101_gives_up {cs setup bs s} (R : RunsFrom cs setup bs s) (evs : List PollEv) (hr : ∀ e ∈ evs, Reportable s e) :
    ∃ s', s.iteration evs = some s' ∧ (s'.exit = true ↔ s.exit = true ∨ ∃ e ∈ evs, Fails s e) := by
  have H := runsFrom_inv R
  obtain ⟨s1, e1, h1⟩ := handleAll_step evs H (fun e he => Reportable.alive H (hr e he))
  refine ⟨s1.finish, by rw [iteration_eq, e1]; rfl, ?_⟩
  rw [finish_exit]
  exact handleAll_exit H (fun e he => Reportable.alive H (hr e he)) e1

open Sample in
/-- An error on the TCP client 2 is survived, one on the serial port or UDP socket 0 is not. -/
example : (loop1.iteration [.obj 2 false [] .again false false true false true]).map (·.exit) = some false ∧
    (loop1.iteration [.obj 0 false [] .again false false true false true]).map (·.exit) = some true ∧
    Fails loop1 (.obj 0 false [] .again false false true false true) :=
  ⟨by decide, by decide, rfl, by intro fd v rt mem; simp [show loop1.obj 0 = some (.plain []) by decide]⟩

end Verif
