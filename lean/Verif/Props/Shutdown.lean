import Verif.Model.Shutdown
import Verif.Props.Loop

/- Property C113: the end of the router is memory safe and frees every timer exactly once. -/

namespace Verif
open Spec

/-! ### The timer list has no duplicates -/

/-- Neither list has duplicates. -/
def ListsOk (s : LoopSt) : Prop :=
  s.timers.Nodup ∧ (∀ t ∈ s.timers, t < s.heap.length) ∧ s.endpoints.Nodup ∧ ∀ p ∈ s.endpoints, p < s.heap.length

theorem ListsOk.nodup {s : LoopSt} (h : ListsOk s) : s.timers.Nodup := h.1
theorem ListsOk.lt {s : LoopSt} (h : ListsOk s) : ∀ t ∈ s.timers, t < s.heap.length := h.2.1
theorem ListsOk.epsNodup {s : LoopSt} (h : ListsOk s) : s.endpoints.Nodup := h.2.2.1
theorem ListsOk.epsLt {s : LoopSt} (h : ListsOk s) : ∀ p ∈ s.endpoints, p < s.heap.length := h.2.2.2

theorem listsOk_congr {s s' : LoopSt} (h : ListsOk s) (e : s'.timers = s.timers) (l : s'.heap.length = s.heap.length)
    (p : s'.endpoints = s.endpoints) : ListsOk s' :=
  ⟨e ▸ h.nodup, fun t ht => l ▸ h.lt t (e ▸ ht), p ▸ h.epsNodup, fun t ht => l ▸ h.epsLt t (p ▸ ht)⟩

theorem listsOk_put {s : LoopSt} (h : ListsOk s) (p : Nat) (o : Option Obj) : ListsOk (s.put p o) :=
  listsOk_congr h rfl (by simp [LoopSt.put]) rfl

theorem listsOk_add {s : LoopSt} (h : ListsOk s) (ms : UInt32) (cb : TCb) (ok : Bool) : ListsOk (s.addTimeout ms cb ok).1 := by
  cases ok with
  | false => exact h
  | true =>
    refine ⟨List.nodup_cons.mpr ⟨fun hm => absurd (h.lt _ hm) (Nat.lt_irrefl _), h.nodup⟩, ?_, h.epsNodup, ?_⟩
    · intro t ht
      have : t < s.heap.length + 1 := by
        rcases List.mem_cons.mp ht with rfl | ht
        · omega
        · have := h.lt t ht; omega
      simpa [LoopSt.addTimeout] using this
    · intro t ht
      have : t < s.heap.length + 1 := by have := h.epsLt t ht; omega
      simpa [LoopSt.addTimeout] using this

/-- A new object at the end of the heap, registered as an endpoint. -/
theorem listsOk_append {s s' : LoopSt} (h : ListsOk s) {o : Option Obj} (hh : s'.heap = s.heap ++ [o])
    (ht : s'.timers = s.timers) (he : s'.endpoints = s.endpoints ++ [s.heap.length]) : ListsOk s' := by
  have hl : s'.heap.length = s.heap.length + 1 := by rw [hh]; simp
  refine ⟨ht ▸ h.nodup, fun t hm => ?_, ?_, fun p hm => ?_⟩
  · have := h.lt t (ht ▸ hm); omega
  · rw [he, List.nodup_append]
    refine ⟨h.epsNodup, by simp, ?_⟩
    intro a ha b hb e
    have := h.epsLt a ha
    simp at hb
    omega
  · rw [he] at hm
    rcases List.mem_append.mp hm with hm | hm
    · have := h.epsLt p hm; omega
    · simp at hm; omega

theorem listsOk_sched {s : LoopSt} (h : ListsOk s) (p : Nat) (rt : Int) (mem : List Nat) (ok : Bool) :
    ListsOk (s.scheduleReconnect p rt mem ok) := by
  rw [sched_split]
  refine listsOk_add (s := { s.put p (some (.tcp false true rt mem)) with
    poll := s.poll.filter (· ≠ p), hangup := s.hangup }) ?_ _ _ ok
  exact listsOk_congr (listsOk_put h p (some (.tcp false true rt mem))) rfl rfl rfl

theorem listsOk_act {s s' : LoopSt} (h : ListsOk s) {a : Act} (ha : s.act a = some s') : ListsOk s' := by
  cases a with
  | write q r ok =>
    simp only [LoopSt.act] at ha
    split at ha
    · split at ha
      · cases ha
      · split at ha
        · cases ha
          split
          · exact listsOk_sched h q _ _ ok
          · exact listsOk_put h q _
        · cases ha; exact h
      · cases ha; exact h
    · cases ha; exact h
  | setSlot k ms ok =>
    simp only [LoopSt.act] at ha
    cases ha
    exact listsOk_add h ms (.slot k) ok
  | clearSlot k =>
    simp only [LoopSt.act] at ha
    split at ha
    · cases ha; exact h
    · simp only [LoopSt.delTimeout] at ha
      split at ha
      · cases ha; exact listsOk_put h _ _
      · cases ha
  | modSlot k ms =>
    simp only [LoopSt.act] at ha
    split at ha
    · cases ha; exact h
    · simp only [LoopSt.modTimeout] at ha
      split at ha
      · cases ha; exact listsOk_put h _ _
      · cases ha

theorem listsOk_acts : ∀ {as : List Act} {s s' : LoopSt}, ListsOk s → s.acts as = some s' → ListsOk s'
  | [], _, _, h, ha => by cases ha; exact h
  | a :: as, s, s', h, ha => by
    simp only [LoopSt.acts] at ha
    cases h1 : s.act a with
    | none => rw [h1] at ha; cases ha
    | some s1 => rw [h1] at ha; exact listsOk_acts (listsOk_act h h1) ha

theorem listsOk_handleIn {s s' : LoopSt} {q as stop ex co ok} (h : ListsOk s)
    (hs : s.handleIn q as stop ex co ok = some s') : ListsOk s' := by
  unfold LoopSt.handleIn at hs
  split at hs
  · cases hs
  · exact listsOk_acts h hs
  · split at hs
    · cases hs
    · rename_i s1 h1
      have h2 := listsOk_acts h h1
      split at hs
      · split at hs
        · cases hs; exact h2
        · split at hs <;> (cases hs; exact h2)
        · split at hs
          · cases hs; exact listsOk_sched h2 _ _ _ ok
          · cases hs; exact listsOk_put h2 _ _
      · split at hs <;> (cases hs; exact h2)
      · cases hs
  · split at hs
    · split at hs
      · exact listsOk_acts h hs
      · split at hs
        · split at hs
          · simp only [] at hs
            split at hs
            · cases hs
              exact listsOk_put (listsOk_congr (listsOk_put h _ _) rfl rfl rfl) _ _
            · cases hs
          · cases hs
            exact listsOk_put h _ _
        · cases hs
    · cases hs; exact h

theorem listsOk_handle {s s' : LoopSt} {e : PollEv} (h : ListsOk s) (hs : s.handle e = some s') : ListsOk s' := by
  cases e with
  | listener ok =>
    simp only [LoopSt.handle] at hs
    cases hs
    cases ok with
    | false => exact h
    | true => exact listsOk_append h rfl rfl rfl
  | obj q isIn as stop ex co ok isOut isErr =>
    simp only [LoopSt.handle] at hs
    split at hs
    · cases hs
    · rename_i s1 h1
      have h2 : ListsOk s1 := by
        cases isIn with
        | true => exact listsOk_handleIn h h1
        | false => cases h1; exact h
      split at hs
      · split at hs
        · cases hs
        · cases hs; exact h2
        · cases hs; exact h2
      · cases hs; exact h2

theorem listsOk_handleAll : ∀ {evs : List PollEv} {s s' : LoopSt}, ListsOk s → s.handleAll evs = some s' → ListsOk s'
  | [], _, _, h, ha => by cases ha; exact h
  | e :: evs, s, s', h, ha => by
    simp only [LoopSt.handleAll] at ha
    cases h1 : s.handle e with
    | none => rw [h1] at ha; cases ha
    | some s1 => rw [h1] at ha; exact listsOk_handleAll (listsOk_handle h h1) ha

theorem listsOk_finish {s : LoopSt} (h : ListsOk s) : ListsOk s.finish := by
  have h1 : ListsOk (if s.hangup then s.processHangups else s) := by
    split
    · have R := release_all (s.endpoints.filter s.invalid)
        { s with endpoints := s.endpoints.filter (fun p => !s.invalid p) }
      refine listsOk_congr (s := { s with endpoints := s.endpoints.filter (fun p => !s.invalid p) }) ?_ R.timers R.len R.eps
      exact ⟨h.nodup, h.lt, h.epsNodup.sublist List.filter_sublist, fun p hp => h.epsLt p (List.mem_filter.mp hp).1⟩
    · exact h
  refine ⟨h1.nodup.sublist List.filter_sublist, ?_, h1.epsNodup, ?_⟩
  · intro t ht
    have := h1.lt t (List.mem_filter.mp ht).1
    show t < (List.mapIdx _ _).length
    simpa using this
  · intro t ht
    have := h1.epsLt t ht
    show t < (List.mapIdx _ _).length
    simpa using this

theorem listsOk_addEndpoint {s : LoopSt} (h : ListsOk s) (c : EpConf) : ListsOk (s.addEndpoint c) := by
  cases c with
  | plain ms => exact listsOk_append h rfl rfl rfl
  | tcp rt co ok ms =>
    simp only [LoopSt.addEndpoint]
    split
    · exact listsOk_append h rfl rfl rfl
    · split
      · exact listsOk_sched (s := { s with
          heap := s.heap ++ [some (.tcp co true rt ms)], endpoints := s.endpoints ++ [s.heap.length] })
          (listsOk_append (o := some (.tcp co true rt ms)) h rfl rfl rfl) _ _ _ _
      · exact listsOk_append h rfl rfl rfl

theorem listsOk_runs {s s' : LoopSt} {bs} (R : Runs s bs s') (h : ListsOk s) : ListsOk s' := by
  induction R with
  | done s => exact h
  | @batch s s1 _ evs _ _ hi _ ih =>
    apply ih
    rw [iteration_eq] at hi
    cases ha : s.handleAll evs with
    | none => rw [ha] at hi; cases hi
    | some s2 =>
      rw [ha] at hi
      cases hi
      exact listsOk_finish (listsOk_handleAll h ha)

theorem listsOk_runsFrom {cs setup bs s} (R : RunsFrom cs setup bs s) : ListsOk s := by
  obtain ⟨s0, e0, R⟩ := R
  refine listsOk_runs R (listsOk_acts ?_ e0)
  have : ∀ (cs : List EpConf) (s : LoopSt), ListsOk s → ListsOk (cs.foldl LoopSt.addEndpoint s) := by
    intro cs
    induction cs with
    | nil => intro s h; exact h
    | cons c cs ih => intro s h; exact ih _ (listsOk_addEndpoint h c)
  exact this cs {} ⟨List.nodup_nil, (by intro t ht; cases ht), List.nodup_nil, (by intro t ht; cases ht)⟩

/-! ### Clearing the endpoints -/

/-- What remains true while endpoints are dropped one after the other. -/
structure Ending (s : LoopSt) : Prop where
  tim : ∀ t, t ∈ s.timers ↔ ∃ r ms cb, s.obj t = some (.timer r ms cb)
  slots : ∀ k t, s.slots k = some t → ∃ ms, s.obj t = some (.timer false ms (.slot k))
  ok : ListsOk s

theorem ending_clear : ∀ (ks : List Nat) {s : LoopSt}, Ending s → ∃ s', s.acts (ks.map .clearSlot) = some s' ∧ Ending s' ∧
    s'.timers = s.timers ∧ s'.endpoints = s.endpoints ∧ s'.poll = s.poll ∧
    ∀ p, (∀ r ms cb, s.obj p ≠ some (.timer r ms cb)) → s'.obj p = s.obj p
  | [], s, H => ⟨s, rfl, H, rfl, rfl, rfl, fun _ _ => rfl⟩
  | k :: ks, s, H => by
    simp only [List.map_cons, LoopSt.acts, LoopSt.act]
    cases hk : s.slots k with
    | none =>
      simp only [Option.bind_some]
      exact ending_clear ks H
    | some t =>
      obtain ⟨ms, ht⟩ := H.slots k t hk
      simp only [LoopSt.delTimeout, ht, Option.map_some, Option.bind_some]
      have hobj : ∀ q, (s.put t (some (.timer true ms (.slot k)))).obj q =
          if q = t then some (.timer true ms (.slot k)) else s.obj q := fun q => obj_put s t q _ (obj_lt ht)
      have H' : Ending { s.put t (some (.timer true ms (.slot k))) with
          slots := fun j => if j = k then none else s.slots j } := by
        refine ⟨?_, ?_, listsOk_congr (listsOk_put H.ok t (some (.timer true ms (.slot k)))) rfl rfl rfl⟩
        · intro q
          show q ∈ s.timers ↔ _
          rw [H.tim]
          show _ ↔ ∃ r ms' cb, (s.put t _).obj q = _
          rw [hobj]
          by_cases e : q = t
          · subst e; rw [if_pos rfl]; exact ⟨fun _ => ⟨_, _, _, rfl⟩, fun _ => ⟨_, _, _, ht⟩⟩
          · rw [if_neg e]
        · intro j q hj
          replace hj : (if j = k then none else s.slots j) = some q := hj
          by_cases ej : j = k
          · rw [if_pos ej] at hj; cases hj
          · rw [if_neg ej] at hj
            obtain ⟨m, hq⟩ := H.slots j q hj
            refine ⟨m, ?_⟩
            show (s.put t _).obj q = _
            rw [hobj]
            by_cases e : q = t
            · subst e; rw [ht] at hq; cases hq; exact absurd rfl ej
            · rw [if_neg e, hq]
      obtain ⟨s', e1, H1, e2, e3, e4, e5⟩ := ending_clear ks H'
      refine ⟨s', e1, H1, e2, e3, e4, ?_⟩
      intro p hp
      have hne : p ≠ t := by rintro rfl; exact hp _ _ _ ht
      have h0 : (s.put t (some (.timer true ms (.slot k)))).obj p = s.obj p := by rw [hobj, if_neg hne]
      rw [← h0]
      refine e5 p ?_
      intro r m cb h
      exact hp r m cb (h0 ▸ h)

theorem ending_drop {s : LoopSt} (H : Ending s) (slots : Nat → List Nat) (held : Nat → Bool) {p : Nat}
    (hp : ∃ o, s.obj p = some o ∧ ∀ r ms cb, o ≠ .timer r ms cb) :
    ∃ s', s.drop slots held p = some s' ∧ Ending s' ∧ s'.timers = s.timers ∧
      (∀ q, q ≠ p → (∀ r ms cb, s.obj q ≠ some (.timer r ms cb)) → s'.obj q = s.obj q) ∧
      (s.owned p = false → held p = false → s'.obj p = none ∧ p ∉ s'.poll) ∧ (∀ q ∈ s'.poll, q ∈ s.poll) := by
  obtain ⟨o, ho, hnt⟩ := hp
  unfold LoopSt.drop
  by_cases hh : (s.owned p || held p) = true
  · rw [if_pos hh]
    refine ⟨s, rfl, H, rfl, fun _ _ _ => rfl, ?_, fun _ h => h⟩
    intro h1 h2
    rw [h1, h2] at hh
    cases hh
  · rw [if_neg hh]
    obtain ⟨s1, e1, H1, e2, e3, e4, e5⟩ := ending_clear (slots p) H
    simp only [ho, e1, Option.map_some]
    have hp1 : s1.obj p = some o := (e5 p (fun r ms cb h => hnt r ms cb (Option.some.inj (ho.symm.trans h)))).trans ho
    have hobj : ∀ q, LoopSt.obj { s1.put p none with poll := s1.poll.filter (· ≠ p) } q = if q = p then none else s1.obj q :=
      fun q => obj_put s1 p q none (obj_lt hp1)
    refine ⟨_, rfl, ⟨?_, ?_, listsOk_congr (listsOk_put H1.ok p none) rfl rfl rfl⟩, e2, ?_, ?_, ?_⟩
    · intro q
      show q ∈ s1.timers ↔ _
      rw [H1.tim, hobj]
      by_cases e : q = p
      · subst e
        rw [if_pos rfl]
        constructor
        · rintro ⟨r, ms, cb, h⟩; rw [hp1] at h; cases h; exact absurd rfl (hnt r ms cb)
        · rintro ⟨_, _, _, h⟩; cases h
      · rw [if_neg e]
    · intro k t hk
      obtain ⟨ms, ht⟩ := H1.slots k t hk
      refine ⟨ms, ?_⟩
      rw [hobj, if_neg, ht]
      rintro rfl
      rw [hp1] at ht
      cases ht
      exact hnt _ _ _ rfl
    · intro q hq hnq
      rw [hobj, if_neg hq]
      exact e5 q hnq
    · intro _ _
      refine ⟨by rw [hobj, if_pos rfl], ?_⟩
      intro hm
      simp at hm
    · intro q hq
      have := (List.mem_filter.mp hq).1
      rwa [e4] at this

theorem owned_anti {s s' : LoopSt} (h : ∀ q o, s'.obj q = some o → (∀ r ms cb, o ≠ .timer r ms cb) → s.obj q = some o)
    {p : Nat} (ho : s.owned p = false) : s'.owned p = false := by
  cases hs : s'.owned p with
  | false => rfl
  | true =>
    obtain ⟨q, o, hq, hm⟩ := (owned_iff s' p).mp hs
    have : s.owned p = true := (owned_iff s p).mpr ⟨q, o, h q o hq (by rintro r ms cb rfl; cases hm), hm⟩
    rw [ho] at this
    cases this

theorem ending_dropAll (slots : Nat → List Nat) (held : Nat → Bool) : ∀ (ps : List Nat) {s : LoopSt}, Ending s → ps.Nodup →
    (∀ p ∈ ps, ∃ o, s.obj p = some o ∧ ∀ r ms cb, o ≠ .timer r ms cb) →
    ∃ s', s.dropAll slots held ps = some s' ∧ Ending s' ∧ s'.timers = s.timers ∧
      (∀ q o, s'.obj q = some o → (∀ r ms cb, o ≠ .timer r ms cb) → s.obj q = some o) ∧
      (∀ p ∈ ps, s.owned p = false → held p = false → s'.obj p = none ∧ p ∉ s'.poll) ∧ (∀ q ∈ s'.poll, q ∈ s.poll)
  | [], s, H, _, _ => ⟨s, rfl, H, rfl, fun _ _ h _ => h, by simp, fun _ h => h⟩
  | p :: ps, s, H, hnd, hex => by
    obtain ⟨hnp, hnd'⟩ := List.nodup_cons.mp hnd
    obtain ⟨s1, e1, H1, t1, k1, d1, l1⟩ := ending_drop H slots held (hex p List.mem_cons_self)
    have hback : ∀ q o, s1.obj q = some o → (∀ r ms cb, o ≠ .timer r ms cb) → s.obj q = some o := by
      intro q o hq hnt
      by_cases e : q = p
      · subst e
        -- kept or destroyed
        obtain ⟨o', ho', hnt'⟩ := hex q List.mem_cons_self
        by_cases hh : (s.owned q || held q) = true
        · unfold LoopSt.drop at e1; rw [if_pos hh] at e1; cases e1; exact hq
        · simp only [Bool.or_eq_true, not_or, Bool.not_eq_true] at hh
          rw [(d1 hh.1 hh.2).1] at hq
          cases hq
      · by_cases ht : ∃ r ms cb, s.obj q = some (.timer r ms cb)
        · have h2 := (H.tim q).mpr ht
          rw [← t1] at h2
          obtain ⟨r, ms, cb, h3⟩ := (H1.tim q).mp h2
          rw [hq] at h3
          cases h3
          exact absurd rfl (hnt r ms cb)
        · rw [← k1 q e (fun r ms cb h => ht ⟨r, ms, cb, h⟩)]; exact hq
    have hex1 : ∀ q ∈ ps, ∃ o, s1.obj q = some o ∧ ∀ r ms cb, o ≠ .timer r ms cb := by
      intro q hq
      obtain ⟨o, ho, hnt⟩ := hex q (List.mem_cons_of_mem _ hq)
      refine ⟨o, ?_, hnt⟩
      rw [k1 q (by rintro rfl; exact hnp hq) (fun r ms cb h => hnt r ms cb (Option.some.inj (ho.symm.trans h))), ho]
    obtain ⟨s2, e2, H2, t2, b2, d2, l2⟩ := ending_dropAll slots held ps H1 hnd' hex1
    refine ⟨s2, by simp [LoopSt.dropAll, e1, e2], H2, t2.trans t1, fun q o h hnt => hback q o (b2 q o h hnt) hnt, ?_,
      fun q hq => l1 q (l2 q hq)⟩
    intro q hq ho hh
    rcases List.mem_cons.mp hq with rfl | hq
    · have h1 := d1 ho hh
      refine ⟨?_, fun hm => h1.2 (l2 q hm)⟩
      cases h3 : s2.obj q with
      | none => rfl
      | some o =>
        by_cases ht : ∃ r ms cb, o = Obj.timer r ms cb
        · obtain ⟨r, ms, cb, rfl⟩ := ht
          have := (H2.tim q).mpr ⟨r, ms, cb, h3⟩
          rw [t2] at this
          obtain ⟨_, _, _, h4⟩ := (H1.tim q).mp this
          rw [h1.1] at h4
          cases h4
        · have := b2 q o h3 (fun r ms cb e => ht ⟨r, ms, cb, e⟩)
          rw [h1.1] at this
          cases this
    · exact d2 q hq (owned_anti hback ho) hh

/-! ### Freeing the timers -/

theorem freeTimers_ok : ∀ (ts : List Nat) {s : LoopSt}, ts.Nodup → (∀ t ∈ ts, ∃ r ms cb, s.obj t = some (.timer r ms cb)) →
    ∃ s', s.freeTimers ts = some s' ∧ s'.timers = [] ∧ s'.endpoints = s.endpoints ∧ (∀ q ∈ s'.poll, q ∈ s.poll ∧ q ∉ ts) ∧
      ∀ q, s'.obj q = if q ∈ ts then none else s.obj q
  | [], s, _, _ => ⟨_, rfl, rfl, rfl, fun _ h => ⟨h, by simp⟩, fun q => by simp [LoopSt.obj]⟩
  | t :: ts, s, hnd, hex => by
    obtain ⟨hn, hnd'⟩ := List.nodup_cons.mp hnd
    obtain ⟨r, ms, cb, ht⟩ := hex t List.mem_cons_self
    have hobj : ∀ q, LoopSt.obj { s.put t none with poll := s.poll.filter (· ≠ t) } q = if q = t then none else s.obj q :=
      fun q => obj_put s t q none (obj_lt ht)
    have hex' : ∀ q ∈ ts, ∃ r ms cb, LoopSt.obj { s.put t none with poll := s.poll.filter (· ≠ t) } q = some (.timer r ms cb) := by
      intro q hq
      rw [hobj, if_neg (by rintro rfl; exact hn hq)]
      exact hex q (List.mem_cons_of_mem _ hq)
    obtain ⟨s', e1, e2, e3, e4, e5⟩ := freeTimers_ok ts hnd' hex'
    refine ⟨s', by simp only [LoopSt.freeTimers, ht]; exact e1, e2, e3, ?_, ?_⟩
    · intro q hq
      obtain ⟨h1, h2⟩ := e4 q hq
      obtain ⟨h3, h4⟩ := List.mem_filter.mp h1
      refine ⟨h3, ?_⟩
      intro hm
      rcases List.mem_cons.mp hm with rfl | hm
      · simp at h4
      · exact h2 hm
    · intro q
      rw [e5, hobj]
      by_cases h1 : q = t
      · subst h1; simp
      · by_cases h2 : q ∈ ts <;> simp [h1, h2]

/-! ### C113 -/

theorem shutdown_ok {s : LoopSt} (L : LInv s) (T : ListsOk s) (stop : List Act) (slots : Nat → List Nat) (held : Nat → Bool) :
    ∃ s1 s', s.acts stop = some s1 ∧ LInv s1 ∧ ListsOk s1 ∧ Mono s s1 ∧ s.shutdown stop slots held = some s' ∧
      s'.endpoints = [] ∧ s'.timers = [] ∧ (∀ t r ms cb, s'.obj t ≠ some (.timer r ms cb)) ∧
      (∀ p ∈ s1.endpoints, s1.owned p = false → held p = false → s'.obj p = none ∧ p ∉ s'.poll) ∧
      ∀ q o, s'.obj q = some o → s1.obj q = some o := by
  obtain ⟨s1, e1, h1⟩ := acts_step stop L
  have T1 := listsOk_acts T e1
  obtain ⟨s2, e2, H2, t2, b2, d2, l2⟩ := ending_dropAll slots held s1.endpoints ⟨h1.inv.tim, h1.inv.slots, T1⟩ T1.epsNodup
    h1.inv.eps
  obtain ⟨s3, e3, f1, f2, f3, f4⟩ := freeTimers_ok s2.timers (s := { s2 with endpoints := [] }) H2.ok.nodup
    (fun t ht => (H2.tim t).mp ht)
  have f4' : ∀ q, s3.obj q = if q ∈ s2.timers then none else s2.obj q := f4
  have hnt : ∀ t r ms cb, s3.obj t ≠ some (.timer r ms cb) := by
    intro t r ms cb h
    rw [f4'] at h
    split at h
    · cases h
    · rename_i hn
      exact hn ((H2.tim t).mpr ⟨_, _, _, h⟩)
  refine ⟨s1, s3, e1, h1.inv, T1, h1.mono, ?_, f2, f1, hnt, ?_, ?_⟩
  · simp only [LoopSt.shutdown, LoopSt.clearEndpoints, e1, e2, Option.bind_some, Option.map_some]
    exact e3
  · intro p hp ho hh
    obtain ⟨g1, g2⟩ := d2 p hp ho hh
    refine ⟨?_, fun hm => g2 (f3 p hm).1⟩
    rw [f4', g1]
    split <;> rfl
  · intro q o hq
    have h := hq
    rw [f4'] at h
    split at h
    · cases h
    · exact b2 q o h (fun r ms cb e => hnt q r ms cb (e ▸ hq))

/-- **C113**: whatever the router did before, and whatever stopping the flight-stack logger does, the end of the main loop never
touches a destroyed object (no destructor cancels a timer that is gone, no timer is freed twice). Afterwards no endpoint is
registered, no timer exists, and every endpoint that is in no group is destroyed with its descriptor closed, unless it is the
flight-stack logger, which `_log_endpoint` still points to. -/
theorem C113_end {cs setup bs s} (R : RunsFrom cs setup bs s) (stop : List Act) (slots : Nat → List Nat) (held : Nat → Bool) :
    ∃ s', s.shutdown stop slots held = some s' ∧ s'.endpoints = [] ∧ s'.timers = [] ∧
      (∀ t r ms cb, s'.obj t ≠ some (.timer r ms cb)) ∧
      ∀ p ∈ s.endpoints, s.owned p = false → held p = false → s'.obj p = none ∧ p ∉ s'.poll := by
  obtain ⟨s1, s', _, _, _, M, e, a, b, c, d, _⟩ := shutdown_ok (runsFrom_inv R) (listsOk_runsFrom R) stop slots held
  refine ⟨s', e, a, b, c, ?_⟩
  intro p hp ho hh
  obtain ⟨new, hn, _⟩ := M.eps
  refine d p (hn ▸ List.mem_append_left _ hp) ?_ hh
  cases hs : s1.owned p with
  | false => rfl
  | true =>
    obtain ⟨q, o', hq, hm⟩ := (owned_iff s1 p).mp hs
    rcases M.own q o' hq with h0 | ⟨o, ho', he⟩
    · rw [h0] at hm; cases hm
    · have : s.owned p = true := (owned_iff s p).mpr ⟨q, o, ho', he ▸ hm⟩
      rw [ho] at this
      cases this

/-- A UDP endpoint with a running "no message" timer, a TCP client waiting for its next attempt, a pair of grouped endpoints and the
flight-stack logger: both timers go, the first two endpoints are destroyed, the others are not. -/
example : ∃ s s', RunsFrom [.plain [], .tcp 5 false true [], .plain [4], .plain [3], .plain []] [.setSlot 0 1000 true] [] s ∧
    s.timers.length = 2 ∧ s.shutdown [] (fun p => if p = 0 then [0] else []) (· == 5) = some s' ∧
    s'.heap.map Option.isSome = [false, false, false, true, true, true, false] := by
  refine ⟨_, _, ⟨_, rfl, .done _⟩, rfl, rfl, ?_⟩
  decide

/-- Freeing the timers as they are listed matters: a timer listed twice would be freed twice. -/
example : LoopSt.freeTimers { heap := [some (.timer false 1 (.slot 0))], timers := [0, 0] } [0, 0] = none := by decide

end Verif
