import Verif.Props.Lifetime

/- C29, continued: a grouped TCP connection whose peer hung up stays in the poll set for ever. -/

namespace Verif
open Spec

/-- An open TCP connection without reconnect, polled. -/
def OncePolled (s : LoopSt) (p : Nat) : Prop :=
  (∃ v rt mem, s.obj p = some (.tcp true v rt mem) ∧ rt ≤ 0) ∧ p ∈ s.poll

theorem oncePolled_put {s : LoopSt} {p q : Nat} {o : Obj} (h : OncePolled s p) (hlt : q < s.heap.length) (hne : p ≠ q) :
    OncePolled (s.put q (some o)) p := by
  obtain ⟨⟨v, rt, mem, hp, hr⟩, hm⟩ := h
  exact ⟨⟨v, rt, mem, by rw [obj_put s q p (some o) hlt, if_neg hne, hp], hr⟩, hm⟩

theorem oncePolled_invalid {s : LoopSt} {p q : Nat} {v rt mem} (h : OncePolled s p) (hq : s.obj q = some (.tcp true v rt mem)) :
    OncePolled (s.put q (some (.tcp true false rt mem))) p := by
  by_cases e : p = q
  · subst e
    obtain ⟨⟨v', rt', mem', hp, hr⟩, hm⟩ := h
    rw [hp] at hq
    cases hq
    exact ⟨⟨false, _, _, by rw [obj_put s p p _ (obj_lt hp), if_pos rfl], hr⟩, hm⟩
  · exact oncePolled_put h (obj_lt hq) e

theorem oncePolled_addTimeout {s : LoopSt} {p : Nat} (h : OncePolled s p) (ms : UInt32) (cb : TCb) (ok : Bool) :
    OncePolled (s.addTimeout ms cb ok).1 p := by
  cases ok with
  | false => exact h
  | true =>
    obtain ⟨⟨v, rt, mem, hp, hr⟩, hm⟩ := h
    refine ⟨⟨v, rt, mem, ?_, hr⟩, List.mem_cons_of_mem _ hm⟩
    rw [addTimeout_obj]
    have := obj_lt hp
    rw [if_neg (by omega), hp]

theorem oncePolled_sched {s : LoopSt} {p q : Nat} {fd v rt mem} (h : OncePolled s p)
    (hq : s.obj q = some (.tcp fd v rt mem)) (hr : rt > 0) (ok : Bool) : OncePolled (s.scheduleReconnect q rt mem ok) p := by
  have hne : p ≠ q := by
    rintro rfl
    obtain ⟨⟨v', rt', mem', hp, hr'⟩, _⟩ := h
    rw [hp] at hq
    cases hq
    omega
  have h1 := oncePolled_put (o := .tcp false true rt mem) h (obj_lt hq) hne
  refine oncePolled_addTimeout (s := { s.put q (some (.tcp false true rt mem)) with poll := s.poll.filter (· ≠ q) })
    ⟨h1.1, ?_⟩ _ _ ok
  exact List.mem_filter.mpr ⟨h.2, by simpa using hne⟩

/-- Not a timer. -/
theorem OncePolled.ne {s : LoopSt} {p t : Nat} {r ms cb} (h : OncePolled s p) (ht : s.obj t = some (.timer r ms cb)) : p ≠ t := by
  rintro rfl
  obtain ⟨⟨v, rt, mem, hp, _⟩, _⟩ := h
  rw [hp] at ht
  cases ht

theorem oncePolled_act {s s' : LoopSt} {p : Nat} (h : OncePolled s p) {a : Act} (ha : s.act a = some s') :
    OncePolled s' p := by
  cases a with
  | write q r ok =>
    simp only [LoopSt.act] at ha
    split at ha
    · split at ha
      · cases ha
      · rename_i hq
        split at ha
        · cases ha
          by_cases hr : (‹Int› : Int) > 0
          · rw [if_pos hr]; exact oncePolled_sched h hq hr ok
          · rw [if_neg hr]; exact oncePolled_invalid h hq
        · cases ha; exact h
      · cases ha; exact h
    · cases ha; exact h
  | setSlot k ms ok =>
    simp only [LoopSt.act] at ha
    cases ha
    exact oncePolled_addTimeout h ms _ ok
  | clearSlot k =>
    simp only [LoopSt.act] at ha
    split at ha
    · cases ha; exact h
    · simp only [LoopSt.delTimeout] at ha
      split at ha
      · rename_i hq
        cases ha
        exact oncePolled_put h (obj_lt hq) (h.ne hq)
      · cases ha
  | modSlot k ms =>
    simp only [LoopSt.act] at ha
    split at ha
    · cases ha; exact h
    · simp only [LoopSt.modTimeout] at ha
      split at ha
      · rename_i hq
        cases ha
        exact oncePolled_put h (obj_lt hq) (h.ne hq)
      · cases ha

theorem oncePolled_acts : ∀ {as : List Act} {s s' : LoopSt} {p : Nat}, OncePolled s p → s.acts as = some s' →
    OncePolled s' p
  | [], _, _, _, h, ha => by cases ha; exact h
  | a :: as, s, s', p, h, ha => by
    simp only [LoopSt.acts] at ha
    cases h1 : s.act a with
    | none => rw [h1] at ha; cases ha
    | some s1 => rw [h1] at ha; exact oncePolled_acts (oncePolled_act h h1) ha

theorem oncePolled_handleIn {s s' : LoopSt} {p q as stop ex co ok} (H : LInv s) (h : OncePolled s p)
    (hs : s.handleIn q as stop ex co ok = some s') : OncePolled s' p := by
  unfold LoopSt.handleIn at hs
  split at hs
  · cases hs
  · exact oncePolled_acts h hs
  · split at hs
    · cases hs
    · rename_i s1 h1
      have h2 := oncePolled_acts h h1
      split at hs
      · rename_i hq
        split at hs
        · cases hs; exact h2
        · split at hs <;> (cases hs; exact h2)
        · split at hs
          · rename_i hr; cases hs; exact oncePolled_sched h2 hq hr ok
          · cases hs; exact oncePolled_invalid h2 hq
      · split at hs <;> (cases hs; exact h2)
      · cases hs
  · rename_i rm ms cb ht
    split at hs
    · rename_i hex
      split at hs
      · exact oncePolled_acts h hs
      · rename_i _ e
        have hrm : rm = false := hex.2
        subst hrm
        have hne : p ≠ e := by
          rintro rfl
          obtain ⟨fd, v, rt, mem, he, hrt⟩ := H.retry _ _ _ ht
          obtain ⟨⟨v', rt', mem', hp, hr'⟩, _⟩ := h
          rw [hp] at he
          cases he
          omega
        split at hs
        · rename_i rt mem he
          have h1 : ∀ o, OncePolled (s.put e (some o)) p := fun o => oncePolled_put h (obj_lt he) hne
          split at hs
          · simp only [] at hs
            split at hs
            · rename_i hq
              cases hs
              have hin : p ∈ e :: s.poll.filter (· ≠ e) :=
                List.mem_cons_of_mem _ (List.mem_filter.mpr ⟨h.2, by simpa using hne⟩)
              have h3 : OncePolled { s.put e (some (.tcp true true rt mem)) with poll := e :: s.poll.filter (· ≠ e) } p :=
                ⟨(h1 _).1, hin⟩
              exact oncePolled_put h3 (obj_lt hq) (h3.ne hq)
            · cases hs
          · cases hs
            exact h1 _
        · cases hs
    · cases hs; exact h

theorem oncePolled_handle {s s' : LoopSt} {p : Nat} {e : PollEv} (H : LInv s) (h : OncePolled s p) (hs : s.handle e = some s') :
    OncePolled s' p := by
  cases e with
  | listener ok =>
    simp only [LoopSt.handle] at hs
    cases hs
    cases ok with
    | false => exact h
    | true =>
      obtain ⟨⟨v, rt, mem, hp, hr⟩, hm⟩ := h
      refine ⟨⟨v, rt, mem, ?_, hr⟩, List.mem_cons_of_mem _ hm⟩
      refine (obj_append s p (some (.tcp true true 0 []))).trans ?_
      have := obj_lt hp
      rw [if_neg (by omega), hp]
  | obj q isIn as stop ex co ok isOut isErr =>
    simp only [LoopSt.handle] at hs
    split at hs
    · cases hs
    · rename_i s1 h1
      have h2 : OncePolled s1 p := by
        cases isIn with
        | true => exact oncePolled_handleIn H h h1
        | false => cases h1; exact h
      split at hs
      · split at hs
        · cases hs
        · cases hs; exact h2
        · cases hs; exact h2
      · cases hs; exact h2

theorem oncePolled_handleAll : ∀ {evs : List PollEv} {s s' : LoopSt} {p : Nat}, LInv s → (∀ e ∈ evs, EvAlive s e) →
    OncePolled s p → s.handleAll evs = some s' → OncePolled s' p
  | [], _, _, _, _, _, h, ha => by cases ha; exact h
  | e :: evs, s, s', p, H, hal, h, ha => by
    obtain ⟨s1, e1, S⟩ := handle_step H e (hal e List.mem_cons_self)
    simp only [LoopSt.handleAll, e1, Option.bind_some] at ha
    exact oncePolled_handleAll S.inv (fun x hx => (hal x (List.mem_cons_of_mem _ hx)).mono S.mono)
      (oncePolled_handle H h e1) ha

/-- What is not among the endpoints is not destroyed at the end of an iteration, and stays polled. -/
theorem finish_keeps {s : LoopSt} (H : LInv s) {p : Nat} (h : OncePolled s p) (hn : p ∉ s.endpoints) :
    OncePolled s.finish p := by
  obtain ⟨⟨v, rt, mem, hp, hr⟩, hm⟩ := h
  have hmark : s.marked p = false := by
    cases hi : s.marked p with
    | false => rfl
    | true => obtain ⟨ms, cb, he⟩ := (marked_iff p).mp hi; rw [hp] at he; cases he
  have F := finish_finished H
  have ho : s.finish.obj p = some (.tcp true v rt mem) := by
    rcases F.obj p with e | ⟨e, _⟩
    · rw [e, hp]
    · rcases e with ⟨_, e⟩ | e
      · exact absurd e hn
      · rw [hmark] at e; cases e
  refine ⟨⟨v, rt, mem, ho, hr⟩, ?_⟩
  -- after the hang-ups
  have h1 : p ∈ (if s.hangup then s.processHangups else s).poll ∧
      (if s.hangup then s.processHangups else s).marked p = false := by
    split
    · have R := release_all (s.endpoints.filter s.invalid)
        { s with endpoints := s.endpoints.filter (fun p => !s.invalid p) }
      have hng : p ∉ s.endpoints.filter s.invalid := fun h => hn (List.mem_filter.mp h).1
      refine ⟨(R.keep p hng).mpr hm, ?_⟩
      have : s.processHangups.obj p = some (.tcp true v rt mem) := by
        rcases R.obj p with e | ⟨e, _⟩
        · exact e.trans hp
        · exact absurd e hng
      simp [LoopSt.marked, this]
    · exact ⟨hm, hmark⟩
  show p ∈ ((if s.hangup then s.processHangups else s).sweep).poll
  refine List.mem_filter.mpr ⟨h1.1, ?_⟩
  simp only [decide_eq_true_eq]
  intro h2
  have := (List.mem_filter.mp h2).2
  rw [h1.2] at this
  cases this

/-- **C29 is false for ever** of group members: let a TCP connection without reconnect be open and polled but not among the
endpoints any more (as after the hang-up in `C29_violated`). Then whatever happens it stays so: its descriptor is open and polled
after every further history, although no message is ever offered to it. -/
theorem C29_violated_for_ever {cs setup bs s} (R : RunsFrom cs setup bs s) {p : Nat} (h : OncePolled s p) (hn : p ∉ s.endpoints)
    {bs' s'} (R' : Runs s bs' s') : OncePolled s' p ∧ p ∉ s'.endpoints := by
  have H := runsFrom_inv R
  clear R
  induction R' with
  | done s => exact ⟨h, hn⟩
  | @batch s evs bs s' s'' hr hi _ ih =>
    obtain ⟨s1, ha, e, S⟩ := iteration_step H _ hr
    rw [hi] at e
    cases e
    have h1 := oncePolled_handleAll H (fun x hx => Reportable.alive H (hr x hx)) h ha
    have hlt : p < s.heap.length := by obtain ⟨⟨_, _, _, hp, _⟩, _⟩ := h; exact obj_lt hp
    have hn1 : p ∉ s1.endpoints := by
      obtain ⟨new, en, hnew⟩ := S.mono.eps
      rw [en]
      intro hm
      rcases List.mem_append.mp hm with hm | hm
      · exact hn hm
      · exact absurd (hnew p hm) (by omega)
    refine ih (finish_keeps S.inv h1 hn1) ?_ (finish_inv S.inv).1
    rw [(finish_finished S.inv).eps]
    exact fun hm => hn1 (List.mem_filter.mp hm).1

/-- The situation after the hang-up of a grouped connection meets the hypotheses. -/
example : ∃ s, RunsFrom Sample.groupConf [] [Sample.groupBatch] s ∧ OncePolled s 0 ∧ 0 ∉ s.endpoints := by
  obtain ⟨s1, _, e1, h1, h2, h3, -⟩ := C29_violated
  refine ⟨s1, ⟨_, rfl, .batch ?_ e1 (.done _)⟩, ⟨⟨_, _, _, h3, by decide⟩, h2⟩, h1⟩
  intro e he
  simp only [Sample.groupBatch, List.mem_cons, List.not_mem_nil, or_false] at he
  subst he
  show 0 ∈ (LoopSt.configured Sample.groupConf).poll
  decide

end Verif
