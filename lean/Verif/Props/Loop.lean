import Verif.Lemmas.LoopStep

/- Properties C28, C29, C32 of the poll loop. -/

namespace Verif
open Spec

/-! ### C32 -/

/-- **C32**, use-after-free freedom: in every state the router can reach, whatever batch of events the kernel
reports and whatever the handlers do, processing the batch never touches a destroyed endpoint or timer (`none` is
the outcome of such an access: an event, a timer callback, a write or a `Timeout *` member referring to one). -/
theorem C32_no_use_after_free {cs setup bs s} (R : RunsFrom cs setup bs s) (evs : List PollEv)
    (hr : ∀ e ∈ evs, Reportable s e) : ∃ s', s.iteration evs = some s' := by
  obtain ⟨s1, _, e, _⟩ := iteration_step (runsFrom_inv R) evs hr
  exact ⟨_, e⟩

/-- **C32**, destruction is deferred: no prefix of the batch destroys anything that existed before the batch. -/
theorem C32_nothing_destroyed_in_batch {cs setup bs s} (R : RunsFrom cs setup bs s) (pre post : List PollEv)
    (hr : ∀ e ∈ pre ++ post, Reportable s e) :
    ∃ s', s.handleAll pre = some s' ∧ ∀ p o, s.obj p = some o → ∃ o', s'.obj p = some o' := by
  have H := runsFrom_inv R
  obtain ⟨s1, e, h⟩ := handleAll_step pre H
    (fun x hx => Reportable.alive H (hr x (List.mem_append_left _ hx)))
  refine ⟨s1, e, fun p o ho => ?_⟩
  obtain ⟨o', h1, _⟩ := h.mono.obj p o ho
  exact ⟨o', h1⟩

/-- **C32**, destroyed objects are not polled: in every reachable state everything in the poll set, in the endpoint
list, in the timer list and in the `Timeout *` members exists. -/
theorem C32_no_dangling {cs setup bs s} (R : RunsFrom cs setup bs s) :
    (∀ p ∈ s.poll, ∃ o, s.obj p = some o) ∧ (∀ p ∈ s.endpoints, ∃ o, s.obj p = some o) ∧
    (∀ t ∈ s.timers, ∃ o, s.obj t = some o) ∧
    (∀ k t, s.slots k = some t → ∃ ms, s.obj t = some (.timer false ms (.slot k))) := by
  have H := runsFrom_inv R
  refine ⟨H.poll, fun p hp => ?_, fun t ht => ?_, H.slots⟩
  · obtain ⟨o, h, _⟩ := H.eps p hp; exact ⟨o, h⟩
  · obtain ⟨r, ms, cb, h⟩ := (H.tim t).mp ht; exact ⟨_, h⟩

/-! ### C28 -/

/-- **C28**, with the restriction that creating timers succeeds (otherwise no reconnect is scheduled, see
`C28_timer_failure_witness`) and the retry time fits 32-bit milliseconds (otherwise see `C28_violated`): in every
reachable state, a TCP client configured with `RetryTimeout > 0` is offered messages, and either it is connected and
polled with no reconnect pending, or it is disconnected with exactly one reconnect timer, armed with its (positive)
retry time, pending. -/
theorem C28_reconnect_partial {cs setup bs s} (R : RunsFrom cs setup bs s) (hc : ∀ c ∈ cs, ConfOk c)
    (hs : ∀ a ∈ setup, ActOk a) (hb : ∀ b ∈ bs, ∀ e ∈ b, EvTimersOk e) {p fd v rt mem}
    (hp : (LoopSt.configured cs).obj p = some (.tcp fd v rt mem)) (h0 : rt > 0) (h1 : rt ≤ 4294967) :
    p ∈ s.endpoints ∧ (Connected s p ∨ (Waiting s p ∧ (retryMs rt).toNat = 1000 * rt ∧
      ∃ fd v mem, s.obj p = some (.tcp fd v rt mem))) := by
  obtain ⟨s0, e0, R⟩ := R
  obtain ⟨s1, e1, h2⟩ := acts_step setup (configured_inv cs)
  rw [e0] at e1
  cases e1
  have C := runs_conn R h2.inv hb (h2.conn hs p rt (configured_conn cs hc hp h0))
  obtain ⟨_, hep, fd', mem', ho, hA, hB⟩ := C
  refine ⟨hep, ?_⟩
  cases fd' with
  | true => exact .inl ⟨⟨_, _, _, ho⟩, hA rfl⟩
  | false =>
    refine .inr ⟨⟨_, _, _, ho, hB rfl⟩, ?_, _, _, _, ho⟩
    have : (1000 * rt % 4294967296) = 1000 * rt := Int.emod_eq_of_lt (by omega) (by omega)
    unfold retryMs
    rw [this, UInt32.toNat_ofNat']
    omega

/-- **C28**, the pending reconnect works: when its timer fires and connecting succeeds, the endpoint is connected;
when connecting fails, it keeps waiting for the same timer (which is periodic). -/
theorem C28_fires {cs setup bs s} (R : RunsFrom cs setup bs s) {p t ms}
    (ht : s.obj t = some (.timer false ms (.retry p))) (hw : Waiting s p) (connOk timerOk : Bool) :
    ∃ s', s.handleIn t [] .again true connOk timerOk = some s' ∧
      (connOk = true → Connected s' p) ∧ (connOk = false → Waiting s' p) := by
  have H := runsFrom_inv R
  obtain ⟨v, rt, mem, ho, hnp, u, hu, hup, huniq⟩ := hw
  obtain ⟨fd, v', rt', mem', h, hr⟩ := H.retry t ms p ht
  rw [ho] at h
  cases h
  have hv := H.valid _ _ _ _ _ ho hr
  subst hv
  have htu := huniq t ms ht
  subst htu
  obtain ⟨hA, s', hs1, hs2, hB⟩ := step_retry H ht ho hr
  have hte : t ≠ p := fun x => by rw [x, ho] at ht; cases ht
  cases connOk with
  | true =>
    refine ⟨s', ?_, fun _ => ?_, by simp⟩
    · simp only [LoopSt.handleIn, ht, ho, true_and, if_true]
      rw [hs1, hs2]
    · have hob : ∀ r, s'.obj r = if r = t then some (.timer true ms (.retry p)) else
          if r = p then some (.tcp true true rt mem) else s.obj r := by
        intro r
        rw [hs2, obj_put _ _ _ _ (obj_lt hs1)]
        split
        · rfl
        · exact obj_put s p r _ (obj_lt ho)
      refine ⟨⟨_, _, _, (hob p).trans (by rw [if_neg (Ne.symm hte), if_pos rfl])⟩, by rw [hs2]; exact List.mem_cons_self, ?_⟩
      intro q m hq
      rw [hob] at hq
      split at hq
      · cases hq
      · rename_i hne
        split at hq
        · cases hq
        · exact hne (huniq q m hq)
  | false =>
    refine ⟨_, by simp only [LoopSt.handleIn, ht, ho, true_and, if_true]; rfl, by simp, fun _ => ?_⟩
    have hob : ∀ r, (s.put p (some (.tcp false true rt mem))).obj r = s.obj r := by
      intro r
      rw [obj_put _ _ _ _ (obj_lt ho)]
      split
      · rename_i e; rw [e, ho]
      · rfl
    exact ⟨true, rt, mem, (hob p).trans ho, hnp, t, (hob t).trans hu, hup, fun q m h => huniq q m ((hob q).symm.trans h)⟩

/-- **C28**, `RetryTimeout ≤ 0`: in every reachable state no reconnect timer is pending for the endpoint, and no
batch reopens its descriptor. -/
theorem C28_no_retry {cs setup bs s} (R : RunsFrom cs setup bs s) {p fd v rt mem}
    (hp : s.obj p = some (.tcp fd v rt mem)) (h0 : rt ≤ 0) :
    (∀ t ms, s.obj t ≠ some (.timer false ms (.retry p))) ∧
    ∀ evs, (∀ e ∈ evs, Reportable s e) → ∀ s', s.iteration evs = some s' →
      s'.obj p = none ∨ ∃ v', s'.obj p = some (.tcp fd v' rt mem) := by
  have H := runsFrom_inv R
  refine ⟨?_, ?_⟩
  · intro t ms h
    obtain ⟨_, _, _, _, h1, h2⟩ := H.retry t ms p h
    rw [hp] at h1
    cases h1
    omega
  · intro evs hr s' hs'
    obtain ⟨s1, _, e, h⟩ := iteration_step H evs hr
    rw [hs'] at e
    cases e
    obtain ⟨o, ho, hso⟩ := h.mono.obj p _ hp
    rcases (finish_finished h.inv).obj p with e | ⟨_, e⟩
    · rw [e, ho]
      cases o with
      | tcp fd' v' rt' mem' =>
        obtain ⟨rfl, rfl, hx⟩ := hso
        obtain ⟨rfl, _⟩ := hx h0
        exact .inr ⟨v', rfl⟩
      | timer _ _ _ => exact absurd hso (by simp [SameObj])
      | plain _ => exact absurd hso (by simp [SameObj])
    · exact .inl e

/-- **C28 is false** for large retry times: with `RetryTimeout = 2^29` the milliseconds wrap to 0, which disarms the
timer (`timerfd_settime` with zero), so the endpoint never reconnects. -/
theorem C28_violated : retryMs 536870912 = 0 ∧
    (LoopSt.configured [.tcp 536870912 false true []]).obj 1 = some (.timer false 0 (.retry 0)) := by decide

/-- **C28**: when the reconnect timer cannot be created, the endpoint stays disconnected without a timer. -/
theorem C28_timer_failure_witness :
    (LoopSt.configured [.tcp 5 false false []]).obj 0 = some (.tcp false true 5 []) ∧
    (LoopSt.configured [.tcp 5 false false []]).timers = [] ∧ (LoopSt.configured [.tcp 5 false false []]).poll = [] := by
  decide

namespace Sample

/-- A UDP endpoint (0), a TCP client with a 5 s retry (1) and one without retry (2). -/
def loopConf : List EpConf := [.plain [], .tcp 5 true true [], .tcp 0 true true []]

/-- UART/UDP input is routed to the client, whose connection turns out broken; a client connects. -/
def batch1 : List PollEv :=
  [.obj 0 true [.write 1 .epipe true, .write 2 .ok true] .again true true true false false, .listener true]

/-- The reconnect timer (at address 3) fires and the connection is re-established; the accepted client (4) closes. -/
def batch2 : List PollEv :=
  [.obj 3 true [] .again true true true false false, .obj 4 true [] .eof true true true false false]

/-- The accepted client (4) and the client without retry (2) close while messages are written to both. -/
def batch3 : List PollEv :=
  [.obj 4 true [.write 2 .epipe true] .eof true true true false false,
   .obj 2 true [.write 4 .epipe true] .eof true true true false true]

/-- State after `batch1`. -/
def loop1 : LoopSt := ((LoopSt.configured loopConf).iteration batch1).getD {}

/-- State after `batch2`. -/
def loop2 : LoopSt := (loop1.iteration batch2).getD {}

theorem loop1_run : (LoopSt.configured loopConf).iteration batch1 = some loop1 := by
  have : ((LoopSt.configured loopConf).iteration batch1).isSome = true := by decide
  unfold loop1
  cases h : (LoopSt.configured loopConf).iteration batch1 with
  | none => rw [h] at this; cases this
  | some s => rfl

theorem loop2_run : loop1.iteration batch2 = some loop2 := by
  have : (loop1.iteration batch2).isSome = true := by decide
  unfold loop2
  cases h : loop1.iteration batch2 with
  | none => rw [h] at this; cases this
  | some s => rfl

theorem batch1_reportable : ∀ e ∈ batch1, Reportable (LoopSt.configured loopConf) e := by
  intro e he
  simp only [batch1, List.mem_cons, List.not_mem_nil, or_false] at he
  rcases he with rfl | rfl
  · show 0 ∈ _; decide
  · trivial

theorem batch2_reportable : ∀ e ∈ batch2, Reportable loop1 e := by
  intro e he
  simp only [batch2, List.mem_cons, List.not_mem_nil, or_false] at he
  rcases he with rfl | rfl
  · show 3 ∈ _; decide
  · show 4 ∈ _; decide

theorem batch3_reportable : ∀ e ∈ batch3, Reportable loop1 e := by
  intro e he
  simp only [batch3, List.mem_cons, List.not_mem_nil, or_false] at he
  rcases he with rfl | rfl
  · show 4 ∈ _; decide
  · show 2 ∈ _; decide

theorem loop1_reached : RunsFrom loopConf [] [batch1] loop1 :=
  ⟨_, rfl, .batch batch1_reportable loop1_run (.done _)⟩

theorem loop2_reached : RunsFrom loopConf [] [batch1, batch2] loop2 :=
  ⟨_, rfl, .batch batch1_reportable loop1_run (.batch batch2_reportable loop2_run (.done _))⟩

end Sample

open Sample in
/-- After the first batch the client is waiting, with its timer at address 3 and a new client at address 4. -/
example : Waiting loop1 1 ∧ loop1.endpoints = [0, 1, 2, 4] ∧ loop1.poll = [4, 3, 2, 0] ∧
    loop1.obj 3 = some (.timer false 5000 (.retry 1)) ∧ ∃ s', loop1.iteration batch2 = some s' := by
  refine ⟨⟨true, 5, [], by decide, by decide, 3, by decide, by decide, ?_⟩, by decide, by decide, by decide,
    C32_no_use_after_free loop1_reached batch2 batch2_reportable⟩
  intro t ms h
  have hl : t < 5 := obj_lt h
  have : t = 0 ∨ t = 1 ∨ t = 2 ∨ t = 3 ∨ t = 4 := by omega
  rcases this with rfl | rfl | rfl | rfl | rfl
  · exact absurd h (by simp [show loop1.obj 0 = some (.plain []) by decide])
  · exact absurd h (by simp [show loop1.obj 1 = some (.tcp false true 5 []) by decide])
  · exact absurd h (by simp [show loop1.obj 2 = some (.tcp true true 0 []) by decide])
  · rfl
  · exact absurd h (by simp [show loop1.obj 4 = some (.tcp true true 0 []) by decide])

open Sample in
/-- After the second batch the client is connected again, the timer is destroyed, the closed client is gone. -/
example : 1 ∈ loop2.endpoints ∧ loop2.obj 1 = some (.tcp true true 5 []) ∧ loop2.obj 3 = none ∧ loop2.obj 4 = none ∧
    loop2.poll = [1, 2, 0] ∧ loop2.endpoints = [0, 1, 2] := by decide

open Sample in
example : ∀ c ∈ loopConf, ConfOk c := by
  intro c hc
  simp only [loopConf, List.mem_cons, List.not_mem_nil, or_false] at hc
  rcases hc with rfl | rfl | rfl
  · trivial
  · rfl
  · rfl

/-! ### C29 -/

theorem put_invalid {s : LoopSt} {p q : Nat} {o : Obj} (hq : q < s.heap.length)
    (h : (s.put q (some o)).invalid p = true) : s.invalid p = true ∨ (p = q ∧ ∃ fd rt mem, o = .tcp fd false rt mem) := by
  obtain ⟨fd, rt, mem, h⟩ := (invalid_iff p).mp h
  rw [obj_put _ _ _ _ hq] at h
  split at h
  · rename_i e; cases h; exact .inr ⟨e, fd, rt, mem, rfl⟩
  · exact .inl ((invalid_iff p).mpr ⟨fd, rt, mem, h⟩)

theorem addTimeout_invalid {s : LoopSt} {p : Nat} {ms cb ok} (h : (s.addTimeout ms cb ok).1.invalid p = true) :
    s.invalid p = true := by
  cases ok with
  | false => exact h
  | true =>
    obtain ⟨fd, rt, mem, h⟩ := (invalid_iff p).mp h
    rw [addTimeout_obj] at h
    split at h
    · cases h
    · exact (invalid_iff p).mpr ⟨fd, rt, mem, h⟩

theorem sched_invalid {s : LoopSt} {p q : Nat} {rt mem ok} (hq : q < s.heap.length)
    (h : (s.scheduleReconnect q rt mem ok).invalid p = true) : s.invalid p = true := by
  rw [sched_split] at h
  have h := addTimeout_invalid h
  rcases put_invalid hq (show (s.put q (some (.tcp false true rt mem))).invalid p = true from h) with h | ⟨_, _, _, _, h⟩
  · exact h
  · cases h

theorem act_invalid {s s' : LoopSt} {a : Act} (ha : s.act a = some s') {p : Nat} (h : s'.invalid p = true) :
    s.invalid p = true ∨ ∃ ok, a = .write p .epipe ok := by
  cases a with
  | write q r ok =>
    simp only [LoopSt.act] at ha
    split at ha
    · split at ha
      · cases ha
      · rename_i v rt mem hq
        split at ha
        · rename_i hr
          subst hr
          cases ha
          split at h
          · exact .inl (sched_invalid (obj_lt hq) h)
          · rcases put_invalid (obj_lt hq) (show (s.put q (some (.tcp true false rt mem))).invalid p = true from h) with h | ⟨e, _⟩
            · exact .inl h
            · exact .inr ⟨ok, by rw [e]⟩
        · cases ha; exact .inl h
      · cases ha; exact .inl h
    · cases ha; exact .inl h
  | setSlot k ms ok =>
    cases ha
    exact .inl (addTimeout_invalid (ms := ms) (cb := .slot k) (ok := ok) h)
  | clearSlot k =>
    simp only [LoopSt.act] at ha
    split at ha
    · cases ha; exact .inl h
    · unfold LoopSt.delTimeout at ha
      split at ha
      · rename_i ht
        cases ha
        rcases put_invalid (obj_lt ht) (show (s.put _ (some (.timer true _ _))).invalid p = true from h) with h | ⟨_, _, _, _, h⟩
        · exact .inl h
        · cases h
      · cases ha
  | modSlot k ms =>
    simp only [LoopSt.act] at ha
    split at ha
    · cases ha; exact .inl h
    · unfold LoopSt.modTimeout at ha
      split at ha
      · rename_i ht
        cases ha
        rcases put_invalid (obj_lt ht) (show (s.put _ (some (.timer _ _ _))).invalid p = true from h) with h | ⟨_, _, _, _, h⟩
        · exact .inl h
        · cases h
      · cases ha

theorem acts_invalid : ∀ {as : List Act} {s s' : LoopSt}, s.acts as = some s' → ∀ {p : Nat}, s'.invalid p = true →
    s.invalid p = true ∨ ∃ ok, .write p .epipe ok ∈ as
  | [], s, s', h, p, hi => by cases h; exact .inl hi
  | a :: as, s, s', h, p, hi => by
    unfold LoopSt.acts at h
    cases ha : s.act a with
    | none => rw [ha] at h; cases h
    | some s1 =>
      rw [ha] at h
      rcases acts_invalid (show s1.acts as = some s' from h) hi with h1 | ⟨ok, h1⟩
      · rcases act_invalid ha h1 with h2 | ⟨ok, rfl⟩
        · exact .inl h2
        · exact .inr ⟨ok, List.mem_cons_self⟩
      · exact .inr ⟨ok, List.mem_cons_of_mem _ h1⟩

theorem handleIn_invalid {s s' : LoopSt} {q as stop ex co ok}
    (h : s.handleIn q as stop ex co ok = some s') {p : Nat} (hi : s'.invalid p = true) :
    s.invalid p = true ∨ (q = p ∧ stop = .eof) ∨ ∃ ok, .write p .epipe ok ∈ as := by
  have done : ∀ {s1 : LoopSt}, s.acts as = some s1 → s1.invalid p = true →
      s.invalid p = true ∨ (q = p ∧ stop = .eof) ∨ ∃ ok, .write p .epipe ok ∈ as := by
    intro s1 h1 h2
    rcases acts_invalid h1 h2 with h | h
    · exact .inl h
    · exact .inr (.inr h)
  unfold LoopSt.handleIn at h
  split at h
  · cases h
  · exact done h hi
  · split at h
    · cases h
    · rename_i s1 hs1
      split at h
      · rename_i hq
        split at h
        · cases h; exact done hs1 hi
        · split at h <;> cases h <;> exact done hs1 hi
        · split at h
          · cases h; exact done hs1 (sched_invalid (obj_lt hq) hi)
          · cases h
            rcases put_invalid (obj_lt hq) (show (s1.put q (some (.tcp true false _ _))).invalid p = true from hi) with h | ⟨e, _⟩
            · exact done hs1 h
            · exact .inr (.inl ⟨e.symm, rfl⟩)
      · split at h <;> cases h <;> exact done hs1 hi
      · cases h
  · rename_i hq
    split at h
    · split at h
      · exact done h hi
      · split at h
        · rename_i he
          split at h
          · simp only at h
            split at h
            · rename_i ht
              cases h
              rcases put_invalid (obj_lt ht) hi with h | ⟨_, _, _, _, h⟩
              · rcases put_invalid (obj_lt he) (show (s.put _ (some (.tcp true true _ _))).invalid p = true from h) with h | ⟨_, _, _, _, h⟩
                · exact .inl h
                · cases h
              · cases h
            · cases h
          · cases h
            rcases put_invalid (obj_lt he) hi with h | ⟨e, _, _, _, h⟩
            · exact .inl h
            · cases h
              exact .inl ((invalid_iff p).mpr ⟨_, _, _, e ▸ he⟩)
        · cases h
    · cases h; exact .inl hi

theorem handle_invalid {s s' : LoopSt} {e : PollEv} (h : s.handle e = some s') {p : Nat}
    (hi : s'.invalid p = true) : s.invalid p = true ∨ HangsUp p e := by
  cases e with
  | listener ok =>
    cases h
    refine .inl ?_
    cases ok with
    | false => exact hi
    | true =>
      obtain ⟨fd, rt, mem, h⟩ := (invalid_iff p).mp hi
      have h := (obj_append s p (some (.tcp true true 0 []))).symm.trans h
      split at h
      · cases h
      · exact (invalid_iff p).mpr ⟨fd, rt, mem, h⟩
  | obj q isIn as stop ex co ok isOut isErr =>
    have key : ∃ s1, (if isIn = true then s.handleIn q as stop ex co ok else some s) = some s1 ∧ s1.invalid p = true := by
      simp only [LoopSt.handle] at h
      split at h
      · cases h
      · rename_i s1 hs1
        refine ⟨s1, hs1, ?_⟩
        split at h
        · split at h
          · cases h
          · cases h; exact hi
          · cases h; exact hi
        · cases h; exact hi
    obtain ⟨s1, h1, h2⟩ := key
    cases isIn with
    | false => cases h1; exact .inl h2
    | true =>
      rcases handleIn_invalid h1 h2 with h | h
      · exact .inl h
      · exact .inr ⟨rfl, h⟩

theorem handleAll_invalid : ∀ {evs : List PollEv} {s s' : LoopSt}, LInv s → (∀ e ∈ evs, EvAlive s e) →
    s.handleAll evs = some s' → ∀ {p : Nat}, s'.invalid p = true → s.invalid p = true ∨ ∃ e ∈ evs, HangsUp p e
  | [], s, s', _, _, h, p, hi => by cases h; exact .inl hi
  | e :: es, s, s', H, hal, h, p, hi => by
    obtain ⟨s1, e1, h1⟩ := handle_step H e (hal e List.mem_cons_self)
    simp only [LoopSt.handleAll, e1, Option.bind_some] at h
    rcases handleAll_invalid h1.inv (fun x hx => (hal x (List.mem_cons_of_mem _ hx)).mono h1.mono) h hi with h2 | ⟨x, hx, h2⟩
    · rcases handle_invalid e1 h2 with h3 | h3
      · exact .inl h3
      · exact .inr ⟨e, List.mem_cons_self, h3⟩
    · exact .inr ⟨x, List.mem_cons_of_mem _ hx, h2⟩

theorem mono_tcp {s s' : LoopSt} (M : Mono s s') {p fd v rt mem} (h : s.obj p = some (.tcp fd v rt mem)) (h0 : rt ≤ 0) :
    ∃ v', s'.obj p = some (.tcp fd v' rt mem) ∧ (v = false → v' = false) := by
  obtain ⟨o, ho, hs⟩ := M.obj p _ h
  cases o with
  | tcp fd' v' rt' mem' =>
    obtain ⟨rfl, rfl, hx⟩ := hs
    obtain ⟨rfl, hv⟩ := hx h0
    exact ⟨v', ho, hv⟩
  | timer _ _ _ => exact absurd hs (by simp [SameObj])
  | plain _ => exact absurd hs (by simp [SameObj])

theorem mono_ep {s s' : LoopSt} (M : Mono s s') {p : Nat} (h : p ∈ s.endpoints) : p ∈ s'.endpoints := by
  obtain ⟨n, e, _⟩ := M.eps
  rw [e]; exact List.mem_append_left _ h

/-- The object is an endpoint, so that its handler runs whatever it reads. -/
def EvIsEp (s : LoopSt) : PollEv → Prop
  | .listener _ => True
  | .obj p _ _ _ _ _ _ _ _ => p ∈ s.endpoints

theorem acts_hang {p rt mem} (h0 : rt ≤ 0) : ∀ {as : List Act} {s : LoopSt}, LInv s → p ∈ s.endpoints →
    ∀ {v s'}, s.obj p = some (.tcp true v rt mem) → s.acts as = some s' → (∃ ok, .write p .epipe ok ∈ as) →
    s'.obj p = some (.tcp true false rt mem)
  | a :: as, s, H, hep, v, s', ho, h, ⟨ok, hm⟩ => by
    obtain ⟨s1, e1, h1⟩ := act_step H a
    simp only [LoopSt.acts, e1, Option.bind_some] at h
    obtain ⟨v1, ho1, _⟩ := mono_tcp h1.mono ho h0
    rcases List.mem_cons.mp hm with rfl | hm
    · obtain ⟨s2, e2, h2⟩ := acts_step as h1.inv
      rw [h] at e2
      cases e2
      have : s1.obj p = some (.tcp true false rt mem) := by
        simp only [LoopSt.act, if_pos hep, ho, if_true] at e1
        rw [if_neg (by omega)] at e1
        cases e1
        exact (obj_put s p p _ (obj_lt ho)).trans (if_pos rfl)
      obtain ⟨v2, ho2, hv2⟩ := mono_tcp h2.mono this h0
      rw [hv2 rfl] at ho2
      exact ho2
    · exact acts_hang h0 h1.inv (mono_ep h1.mono hep) ho1 h ⟨ok, hm⟩

theorem handleIn_hang {s s' : LoopSt} (H : LInv s) {p q rt mem v} (h0 : rt ≤ 0) (hep : p ∈ s.endpoints)
    (hq : q ∈ s.endpoints) (ho : s.obj p = some (.tcp true v rt mem)) {as stop ex co ok}
    (h : s.handleIn q as stop ex co ok = some s')
    (hh : (q = p ∧ stop = .eof) ∨ ∃ ok, .write p .epipe ok ∈ as) : s'.obj p = some (.tcp true false rt mem) := by
  obtain ⟨s2, e2, h2⟩ := acts_step as H
  unfold LoopSt.handleIn at h
  split at h
  · cases h
  · rename_i hqo
    rcases hh with ⟨rfl, _⟩ | hh
    · rw [ho] at hqo; cases hqo
    · exact acts_hang h0 H hep ho h hh
  · rename_i hqo
    rw [e2] at h
    simp only at h
    obtain ⟨v1, ho1, hv1⟩ := mono_tcp h2.mono ho h0
    have hw : (∃ ok, .write p .epipe ok ∈ as) → s2.obj p = some (.tcp true false rt mem) :=
      fun hm => acts_hang h0 H hep ho e2 hm
    split at h
    · rename_i v3 rt3 mem3 hq3
      split at h
      · cases h
        rcases hh with ⟨_, hh⟩ | hh
        · cases hh
        · exact hw hh
      · have : s2.obj p = some (.tcp true false rt mem) := by
          rcases hh with ⟨_, hh⟩ | hh
          · cases hh
          · exact hw hh
        split at h <;> cases h <;> exact this
      · by_cases hqp : q = p
        · subst hqp
          rw [ho1] at hq3
          cases hq3
          rw [if_neg (by omega)] at h
          cases h
          exact (obj_put s2 q q _ (obj_lt ho1)).trans (if_pos rfl)
        · have hw' := hw (by rcases hh with ⟨e, _⟩ | hh; exact absurd e hqp; exact hh)
          split at h
          · rename_i hr3
            cases h
            obtain ⟨v4, ho4, hv4⟩ := mono_tcp (sched_mono hq3 hr3 ok) hw' h0
            rw [hv4 rfl] at ho4
            exact ho4
          · cases h
            exact (obj_put s2 q p _ (obj_lt hq3)).trans ((if_neg (Ne.symm hqp)).trans hw')
    · rename_i hq3
      have hqp : q ≠ p := fun e => by rw [e, ho1] at hq3; cases hq3
      have hw' := hw (by rcases hh with ⟨e, _⟩ | hh; exact absurd e hqp; exact hh)
      split at h <;> cases h <;> exact hw'
    · cases h
  · rename_i hqo
    obtain ⟨o, hqo', hn⟩ := H.eps q hq
    rw [hqo] at hqo'
    cases hqo'
    exact absurd rfl (hn _ _ _)

theorem handleAll_hang {p rt mem} (h0 : rt ≤ 0) : ∀ {evs : List PollEv} {s s' : LoopSt}, LInv s →
    (∀ e ∈ evs, EvAlive s e) → p ∈ s.endpoints → ∀ {v}, s.obj p = some (.tcp true v rt mem) →
    s.handleAll evs = some s' → (∃ e ∈ evs, HangsUp p e ∧ EvIsEp s e) → s'.obj p = some (.tcp true false rt mem)
  | e :: es, s, s', H, hal, hep, v, ho, h, ⟨x, hx, hh, hxe⟩ => by
    obtain ⟨s1, e1, h1⟩ := handle_step H e (hal e List.mem_cons_self)
    have hal' : ∀ x ∈ es, EvAlive s1 x := fun x hx => (hal x (List.mem_cons_of_mem _ hx)).mono h1.mono
    simp only [LoopSt.handleAll, e1, Option.bind_some] at h
    obtain ⟨v1, ho1, _⟩ := mono_tcp h1.mono ho h0
    rcases List.mem_cons.mp hx with rfl | hx
    · have : s1.obj p = some (.tcp true false rt mem) := by
        cases x with
        | listener _ => exact absurd hh (by simp [HangsUp])
        | obj q isIn as stop ex co ok isOut isErr =>
          obtain ⟨rfl, hh⟩ := hh
          simp only [LoopSt.handle, if_true] at e1
          split at e1
          · cases e1
          · rename_i s2 hs2
            have h2 := handleIn_hang H h0 hep hxe ho hs2 hh
            split at e1
            · split at e1
              · cases e1
              · cases e1; exact h2
              · cases e1; exact h2
            · cases e1; exact h2
      obtain ⟨s2, e2, h2⟩ := handleAll_step es h1.inv hal'
      rw [h] at e2
      cases e2
      obtain ⟨v2, ho2, hv2⟩ := mono_tcp h2.mono this h0
      rw [hv2 rfl] at ho2
      exact ho2
    · refine handleAll_hang h0 h1.inv hal' (mono_ep h1.mono hep) ho1 h ⟨x, hx, hh, ?_⟩
      cases x with
      | listener _ => trivial
      | obj q _ _ _ _ _ _ _ _ => exact mono_ep h1.mono hxe

theorem mono_owned {s s' : LoopSt} (M : Mono s s') {p : Nat} (h : s.owned p = false) : s'.owned p = false := by
  cases ho : s'.owned p with
  | false => rfl
  | true =>
    obtain ⟨q, o, hq, hm⟩ := (owned_iff s' p).mp ho
    rcases M.own q o hq with e | ⟨o', h1, e⟩
    · rw [e] at hm; cases hm
    · have : s.owned p = true := (owned_iff s p).mpr ⟨q, o', h1, by rw [e]; exact hm⟩
      rw [this] at h; cases h

/-- **C29**, removal: take any reachable state, any endpoint `p` which is an open TCP connection without reconnect,
and any batch in which reading `p` gives end of file, or a message of some endpoint written to `p` fails with
`EPIPE`. After the batch `p` is not offered messages any more. If no group member owns `p`, it is destroyed
(its descriptor closed, see `~TcpEndpoint`) and not polled. (For a group member see `C29_violated`.) -/
theorem C29_removed_partial {cs setup bs s} (R : RunsFrom cs setup bs s) (evs : List PollEv)
    (hr : ∀ e ∈ evs, Reportable s e) {p rt mem v} (hep : p ∈ s.endpoints)
    (ho : s.obj p = some (.tcp true v rt mem)) (h0 : rt ≤ 0) (hh : ∃ e ∈ evs, HangsUp p e ∧ EvIsEp s e) {s'}
    (hs' : s.iteration evs = some s') :
    p ∉ s'.endpoints ∧ (s.owned p = false → s'.obj p = none ∧ p ∉ s'.poll) := by
  have H := runsFrom_inv R
  obtain ⟨s1, e1, e, h⟩ := iteration_step H evs hr
  rw [hs'] at e
  cases e
  have hf := handleAll_hang h0 H (fun e he => Reportable.alive H (hr e he)) hep ho e1 hh
  have hi : s1.invalid p = true := (invalid_iff p).mpr ⟨_, _, _, hf⟩
  have F := finish_finished h.inv
  refine ⟨?_, fun hn => F.dead p (mono_ep h.mono hep) hi (mono_owned h.mono hn)⟩
  rw [F.eps]
  simp [hi]

theorem runs_valid {s s' : LoopSt} {bs} (R : Runs s bs s') (H : LInv s) (hne : bs ≠ []) :
    ∀ p ∈ s'.endpoints, s'.invalid p = false := by
  induction R with
  | done s => exact absurd rfl hne
  | @batch a b c evs rest hr hi R' ih =>
    obtain ⟨s1, _, e, h⟩ := iteration_step H _ hr
    rw [hi] at e
    cases e
    cases rest with
    | nil => cases R'; exact (finish_inv h.inv).2
    | cons _ _ => exact ih (finish_inv h.inv).1 (by simp)

theorem addEndpoint_hangup (s : LoopSt) (c : EpConf) : (s.addEndpoint c).hangup = s.hangup := by
  cases c with
  | plain _ => rfl
  | tcp retry co ok mem =>
    simp only [LoopSt.addEndpoint]
    split
    · rfl
    · split
      · rw [sched_split]; cases ok <;> rfl
      · rfl

theorem configured_hangup (cs : List EpConf) : (LoopSt.configured cs).hangup = false := by
  have : ∀ (cs : List EpConf) (s : LoopSt), (cs.foldl LoopSt.addEndpoint s).hangup = s.hangup := by
    intro cs
    induction cs with
    | nil => intro s; rfl
    | cons c cs ih => intro s; rw [List.foldl_cons, ih, addEndpoint_hangup]
  exact this cs {}

/-- **C29**, only such clients: every endpoint about which the batch reports no hang-up remains, and the remaining
ones are in unchanged order, followed by the clients accepted meanwhile. -/
theorem C29_others_remain {cs setup bs s} (R : RunsFrom cs setup bs s) (hsetup : ∀ p r ok, .write p r ok ∉ setup)
    (evs : List PollEv) (hr : ∀ e ∈ evs, Reportable s e) {s'} (hs' : s.iteration evs = some s') :
    (∃ new, List.Sublist s'.endpoints (s.endpoints ++ new) ∧ ∀ p ∈ new, s.heap.length ≤ p) ∧
    ∀ p ∈ s.endpoints, (∀ e ∈ evs, ¬ HangsUp p e) → p ∈ s'.endpoints := by
  have H := runsFrom_inv R
  obtain ⟨s1, e1, e, h⟩ := iteration_step H evs hr
  rw [hs'] at e
  cases e
  have F := finish_finished h.inv
  have hvalid : ∀ p ∈ s.endpoints, s.invalid p = false := by
    intro p hp
    obtain ⟨s0, e0, R⟩ := R
    cases bs with
    | cons b bs =>
      obtain ⟨sa, ea, ha⟩ := acts_step setup (configured_inv cs)
      rw [e0] at ea
      cases ea
      exact runs_valid R ha.inv (by simp) p hp
    | nil =>
      cases R
      cases hi : s.invalid p with
      | false => rfl
      | true =>
        rcases acts_invalid e0 hi with h | ⟨ok, h⟩
        · obtain ⟨fd, rt, mem, h⟩ := (invalid_iff p).mp h
          obtain ⟨sa, ea, ha⟩ := acts_step setup (configured_inv cs)
          rw [e0] at ea
          cases ea
          obtain ⟨n, en, hn⟩ := ha.mono.eps
          rw [en] at hp
          rcases List.mem_append.mp hp with hp | hp
          · have := (configured_inv cs).flag p hp fd rt mem h
            rw [configured_hangup] at this
            cases this
          · exact absurd (obj_lt h) (Nat.not_lt.mpr (hn p hp))
        · exact absurd h (hsetup _ _ _)
  refine ⟨?_, ?_⟩
  · obtain ⟨new, e, hn⟩ := h.mono.eps
    refine ⟨new, ?_, hn⟩
    rw [F.eps, ← e]
    exact List.filter_sublist
  · intro p hp hno
    rw [F.eps]
    refine List.mem_filter.mpr ⟨mono_ep h.mono hp, ?_⟩
    cases hi : s1.invalid p with
    | false => rfl
    | true =>
      rcases handleAll_invalid H (fun e he => Reportable.alive H (hr e he)) e1 hi with h2 | ⟨x, hx, h2⟩
      · rw [hvalid p hp] at h2; cases h2
      · exact absurd h2 (hno x hx)

open Sample in
/-- In `batch3` both the accepted client (4) and the client without retry (2) hang up: they are removed and
destroyed; the others remain in order. -/
example : ∃ s', loop1.iteration batch3 = some s' ∧ (2 ∉ s'.endpoints ∧ s'.obj 2 = none ∧ 2 ∉ s'.poll) ∧ 4 ∉ s'.endpoints ∧
    0 ∈ s'.endpoints ∧ 1 ∈ s'.endpoints := by
  obtain ⟨s', hs'⟩ := C32_no_use_after_free loop1_reached batch3 batch3_reportable
  have h2 := C29_removed_partial loop1_reached batch3 batch3_reportable (p := 2) (rt := 0) (mem := []) (v := true)
    (by decide) (by decide) (by decide) ⟨_, List.mem_cons_self, ⟨rfl, .inr ⟨true, by simp⟩⟩, by show 4 ∈ _; decide⟩ hs'
  have h4 := C29_removed_partial loop1_reached batch3 batch3_reportable (p := 4) (rt := 0) (mem := []) (v := true)
    (by decide) (by decide) (by decide) ⟨_, List.mem_cons_self, ⟨rfl, .inl ⟨rfl, rfl⟩⟩, by show 4 ∈ _; decide⟩ hs'
  have hO := (C29_others_remain loop1_reached (by simp) batch3 batch3_reportable hs').2
  have hno : ∀ p, p ≠ 2 → p ≠ 4 → ∀ e ∈ batch3, ¬ HangsUp p e := by
    intro p h2 h4 e he
    simp only [batch3, List.mem_cons, List.not_mem_nil, or_false] at he
    rcases he with rfl | rfl <;> simp [HangsUp, h2, h4, Ne.symm h2, Ne.symm h4]
  exact ⟨s', hs', ⟨h2.1, h2.2 (by decide)⟩, h4.1, hO 0 (by decide) (hno 0 (by decide) (by decide)),
    hO 1 (by decide) (hno 1 (by decide) (by decide))⟩

namespace Sample

/-- Two TCP clients without retry in one group: each owns the other. -/
def groupConf : List EpConf := [.tcp 0 true true [1], .tcp 0 true true [0]]

/-- The first one is closed by its peer. -/
def groupBatch : List PollEv := [.obj 0 true [] .eof true true true false false]

end Sample

open Sample in
/-- **C29 is false** of group members: after its peer closed the connection the endpoint is not offered messages,
but the other group member still owns it, so its descriptor stays open and in the poll set. The next `epoll_wait`
reports the end of file again (busy loop): the batch is still possible, and leads to the same situation. -/
theorem C29_violated : ∃ s1 s2, (LoopSt.configured groupConf).iteration groupBatch = some s1 ∧
    0 ∉ s1.endpoints ∧ 0 ∈ s1.poll ∧ s1.obj 0 = some (.tcp true false 0 [1]) ∧ (∀ e ∈ groupBatch, Reportable s1 e) ∧
    s1.iteration groupBatch = some s2 ∧ 0 ∈ s2.poll ∧ s2.obj 0 = some (.tcp true false 0 [1]) := by
  have h1 : ((LoopSt.configured groupConf).iteration groupBatch).isSome = true := by decide
  obtain ⟨s1, e1⟩ := Option.isSome_iff_exists.mp h1
  have h2 : (((LoopSt.configured groupConf).iteration groupBatch).bind (fun s => s.iteration groupBatch)).isSome = true := by
    decide
  rw [e1] at h2
  obtain ⟨s2, e2⟩ := Option.isSome_iff_exists.mp h2
  have k1 : ∀ s, (LoopSt.configured groupConf).iteration groupBatch = some s →
      0 ∉ s.endpoints ∧ 0 ∈ s.poll ∧ s.obj 0 = some (.tcp true false 0 [1]) := by
    intro s hs
    have : (((LoopSt.configured groupConf).iteration groupBatch).all (fun s =>
      decide (0 ∉ s.endpoints ∧ 0 ∈ s.poll ∧ s.obj 0 = some (.tcp true false 0 [1])))) = true := by decide
    rw [hs] at this
    simpa using this
  have k2 : ∀ s, ((LoopSt.configured groupConf).iteration groupBatch).bind (fun s => s.iteration groupBatch) = some s →
      0 ∈ s.poll ∧ s.obj 0 = some (.tcp true false 0 [1]) := by
    intro s hs
    have : ((((LoopSt.configured groupConf).iteration groupBatch).bind (fun s => s.iteration groupBatch)).all (fun s =>
      decide (0 ∈ s.poll ∧ s.obj 0 = some (.tcp true false 0 [1])))) = true := by decide
    rw [hs] at this
    simpa using this
  obtain ⟨a, b, c⟩ := k1 s1 e1
  obtain ⟨d, f⟩ := k2 s2 (by rw [e1]; exact e2)
  refine ⟨s1, s2, e1, a, b, c, ?_, e2, d, f⟩
  intro e he
  simp only [groupBatch, List.mem_cons, List.not_mem_nil, or_false] at he
  subst he
  exact b

end Verif
