import Verif.Model.Loop

/- Invariants of the poll loop. -/

namespace Verif

theorem obj_lt {s : LoopSt} {p : Nat} {o : Obj} (h : s.obj p = some o) : p < s.heap.length := by
  unfold LoopSt.obj at h
  cases hp : s.heap[p]? with
  | none => rw [hp] at h; cases h
  | some x => exact (List.getElem?_eq_some_iff.mp hp).1

theorem obj_put (s : LoopSt) (p q : Nat) (o : Option Obj) (hp : p < s.heap.length) :
    (s.put p o).obj q = if q = p then o else s.obj q := by
  unfold LoopSt.obj LoopSt.put
  by_cases e : q = p
  · subst e; simp [hp]
  · simp [e, Ne.symm e]

theorem obj_append (s : LoopSt) (q : Nat) (o : Option Obj) :
    ((s.heap ++ [o])[q]?).join = if q = s.heap.length then o else s.obj q := by
  unfold LoopSt.obj
  by_cases e : q = s.heap.length
  · subst e; simp
  · rw [if_neg e]
    by_cases l : q < s.heap.length
    · rw [List.getElem?_append_left l]
    · rw [List.getElem?_eq_none_iff.mpr (by simp; omega), List.getElem?_eq_none_iff.mpr (by omega)]

/-- Invariant of the loop state. -/
structure LInv (s : LoopSt) : Prop where
  poll : ∀ p ∈ s.poll, ∃ o, s.obj p = some o
  eps : ∀ p ∈ s.endpoints, ∃ o, s.obj p = some o ∧ ∀ r ms cb, o ≠ .timer r ms cb
  tim : ∀ t, t ∈ s.timers ↔ ∃ r ms cb, s.obj t = some (.timer r ms cb)
  slots : ∀ k t, s.slots k = some t → ∃ ms, s.obj t = some (.timer false ms (.slot k))
  retry : ∀ t ms e, s.obj t = some (.timer false ms (.retry e)) →
    ∃ fd v rt mem, s.obj e = some (.tcp fd v rt mem) ∧ rt > 0
  valid : ∀ p fd v rt mem, s.obj p = some (.tcp fd v rt mem) → rt > 0 → v = true
  flag : ∀ p ∈ s.endpoints, ∀ fd rt mem, s.obj p = some (.tcp fd false rt mem) → s.hangup = true

/-- Same object, possibly in another state. -/
def SameObj : Obj → Obj → Prop
  | .timer r _ cb, .timer r' _ cb' => cb = cb' ∧ (r = true → r' = true)
  | .tcp fd v rt mem, .tcp fd' v' rt' mem' =>
    rt = rt' ∧ mem = mem' ∧ (rt ≤ 0 → fd = fd' ∧ (v = false → v' = false))
  | .plain mem, .plain mem' => mem = mem'
  | _, _ => False

theorem SameObj.refl (o : Obj) : SameObj o o := by cases o <;> simp [SameObj]

theorem SameObj.trans {a b c : Obj} (h1 : SameObj a b) (h2 : SameObj b c) : SameObj a c := by
  cases a <;> cases b <;> cases c <;> simp_all [SameObj]

/-- Group members an object owns. -/
def ownedBy : Obj → List Nat
  | .timer _ _ _ => []
  | .tcp _ _ _ mem => mem
  | .plain mem => mem

/-- During a batch nothing is destroyed. -/
structure Mono (s s' : LoopSt) : Prop where
  obj : ∀ p o, s.obj p = some o → ∃ o', s'.obj p = some o' ∧ SameObj o o'
  eps : ∃ new, s'.endpoints = s.endpoints ++ new ∧ ∀ p ∈ new, s.heap.length ≤ p
  len : s.heap.length ≤ s'.heap.length
  own : ∀ p o', s'.obj p = some o' → ownedBy o' = [] ∨ ∃ o, s.obj p = some o ∧ ownedBy o = ownedBy o'

theorem Mono.refl (s : LoopSt) : Mono s s :=
  ⟨fun _ o h => ⟨o, h, .refl o⟩, ⟨[], by simp⟩, Nat.le_refl _, fun _ o h => .inr ⟨o, h, rfl⟩⟩

theorem Mono.trans {a b c : LoopSt} (h1 : Mono a b) (h2 : Mono b c) : Mono a c := by
  refine ⟨?_, ?_, Nat.le_trans h1.len h2.len, ?_⟩
  · intro p o h
    obtain ⟨o1, h3, h4⟩ := h1.obj p o h
    obtain ⟨o2, h5, h6⟩ := h2.obj p o1 h3
    exact ⟨o2, h5, h4.trans h6⟩
  · obtain ⟨n1, e1, l1⟩ := h1.eps
    obtain ⟨n2, e2, l2⟩ := h2.eps
    refine ⟨n1 ++ n2, by rw [e2, e1, List.append_assoc], ?_⟩
    intro p hp
    rcases List.mem_append.mp hp with h | h
    · exact l1 p h
    · exact Nat.le_trans h1.len (l2 p h)
  · intro p o h
    rcases h2.own p o h with e | ⟨o1, h3, e⟩
    · exact .inl e
    · rcases h1.own p o1 h3 with e' | ⟨o2, h4, e'⟩
      · exact .inl (e ▸ e')
      · exact .inr ⟨o2, h4, e'.trans e⟩

/-- Connection invariant of a TCP client with reconnect. -/
structure Conn (s : LoopSt) (p : Nat) (rt : Int) : Prop where
  pos : rt > 0
  ep : p ∈ s.endpoints
  obj : ∃ fd mem, s.obj p = some (.tcp fd true rt mem) ∧
    (fd = true → p ∈ s.poll ∧ ∀ t ms, s.obj t ≠ some (.timer false ms (.retry p))) ∧
    (fd = false → p ∉ s.poll ∧ ∃ t, s.obj t = some (.timer false (retryMs rt) (.retry p)) ∧ t ∈ s.poll ∧
      ∀ t' ms, s.obj t' = some (.timer false ms (.retry p)) → t' = t)

/-! ### Primitive steps -/

theorem addTimeout_obj (s : LoopSt) (ms : UInt32) (cb : TCb) (q : Nat) :
    (s.addTimeout ms cb true).1.obj q =
      if q = s.heap.length then some (.timer false ms cb) else s.obj q := by
  have := obj_append s q (some (.timer false ms cb))
  simp only [LoopSt.addTimeout, if_true]
  exact this

theorem fresh (s : LoopSt) : s.obj s.heap.length = none := by
  cases h : s.obj s.heap.length with
  | none => rfl
  | some o => exact absurd (obj_lt h) (Nat.lt_irrefl _)

theorem addTimeout_inv {s : LoopSt} (H : LInv s) (ms : UInt32) (cb : TCb)
    (hcb : ∀ e, cb = .retry e → ∃ fd v rt mem, s.obj e = some (.tcp fd v rt mem) ∧ rt > 0) :
    LInv (s.addTimeout ms cb true).1 := by
  have ho := addTimeout_obj s ms cb
  have hf := fresh s
  have hold : ∀ p o, s.obj p = some o → (s.addTimeout ms cb true).1.obj p = some o := by
    intro p o h
    rw [ho, if_neg (fun e => by rw [e, hf] at h; cases h)]; exact h
  refine ⟨?_, ?_, ?_, ?_, ?_, ?_, ?_⟩
  · intro p hp
    rcases List.mem_cons.mp (show p ∈ s.heap.length :: s.poll from hp) with rfl | hp
    · exact ⟨_, by rw [ho, if_pos rfl]⟩
    · obtain ⟨o, h⟩ := H.poll p hp; exact ⟨o, hold p o h⟩
  · intro p hp; obtain ⟨o, h, h'⟩ := H.eps p hp; exact ⟨o, hold p o h, h'⟩
  · intro t
    rw [show (s.addTimeout ms cb true).1.timers = s.heap.length :: s.timers from rfl, List.mem_cons, H.tim, ho]
    by_cases e : t = s.heap.length
    · simp [e]
    · simp [e]
  · intro k t h; obtain ⟨m, h⟩ := H.slots k t h; exact ⟨m, hold _ _ h⟩
  · intro t m e h
    rw [ho] at h
    split at h
    · cases h
      obtain ⟨fd, v, rt, mem, h, h'⟩ := hcb e rfl
      exact ⟨fd, v, rt, mem, hold _ _ h, h'⟩
    · obtain ⟨fd, v, rt, mem, h, h'⟩ := H.retry t m e h
      exact ⟨fd, v, rt, mem, hold _ _ h, h'⟩
  · intro p fd v rt mem h
    rw [ho] at h
    split at h
    · cases h
    · exact H.valid p fd v rt mem h
  · intro p hp fd rt mem h
    rw [ho] at h
    split at h
    · cases h
    · exact H.flag p hp fd rt mem h

theorem addTimeout_mono (s : LoopSt) (ms : UInt32) (cb : TCb) : Mono s (s.addTimeout ms cb true).1 := by
  refine ⟨?_, ⟨[], by simp [LoopSt.addTimeout]⟩, by simp [LoopSt.addTimeout], ?_⟩
  · intro p o h
    refine ⟨o, ?_, .refl o⟩
    rw [addTimeout_obj, if_neg (fun e => by rw [e, fresh] at h; cases h)]; exact h
  · intro p o h
    rw [addTimeout_obj] at h
    split at h
    · cases h; exact .inl rfl
    · exact .inr ⟨o, h, rfl⟩

theorem addTimeout_conn {s : LoopSt} {p : Nat} {rt : Int} (C : Conn s p rt) (ms : UInt32) (cb : TCb)
    (hcb : cb ≠ .retry p) : Conn (s.addTimeout ms cb true).1 p rt := by
  have ho := addTimeout_obj s ms cb
  have hf := fresh s
  have hold : ∀ q o, s.obj q = some o → (s.addTimeout ms cb true).1.obj q = some o := by
    intro q o h
    rw [ho, if_neg (fun e => by rw [e, hf] at h; cases h)]; exact h
  have hnew : ∀ t m, (s.addTimeout ms cb true).1.obj t = some (.timer false m (.retry p)) →
      s.obj t = some (.timer false m (.retry p)) := by
    intro t m h
    rw [ho] at h
    split at h
    · cases h; exact absurd rfl hcb
    · exact h
  obtain ⟨hp, hep, fd, mem, h, h1, h2⟩ := C
  refine ⟨hp, hep, fd, mem, hold _ _ h, ?_, ?_⟩
  · intro e
    obtain ⟨a, b⟩ := h1 e
    exact ⟨List.mem_cons_of_mem _ a, fun t m h => b t m (hnew t m h)⟩
  · intro e
    obtain ⟨a, t, b, c, d⟩ := h2 e
    refine ⟨?_, t, hold _ _ b, List.mem_cons_of_mem _ c, fun t' m h => d t' m (hnew t' m h)⟩
    intro hm
    rcases List.mem_cons.mp (show p ∈ s.heap.length :: s.poll from hm) with e | hm
    · rw [e, hf] at h; cases h
    · exact a hm

/-- Changing the state of a TCP endpoint and its membership in the poll set. -/
theorem putTcp_inv {s : LoopSt} (H : LInv s) {q : Nat} {fd v rt mem} (hq : s.obj q = some (.tcp fd v rt mem))
    (fd' v' : Bool) (poll : List Nat) (hang : Bool) (hpoll : ∀ p ∈ poll, p = q ∨ p ∈ s.poll)
    (hv : rt > 0 → v' = true) (hh : s.hangup = true → hang = true) (hv2 : v' = false → hang = true) :
    LInv { s.put q (some (.tcp fd' v' rt mem)) with poll := poll, hangup := hang } := by
  have hl := obj_lt hq
  have ho : ∀ r, LoopSt.obj { s.put q (some (.tcp fd' v' rt mem)) with poll := poll, hangup := hang } r =
      if r = q then some (.tcp fd' v' rt mem) else s.obj r := fun r => obj_put s q r _ hl
  refine ⟨?_, ?_, ?_, ?_, ?_, ?_, ?_⟩
  · intro p hp
    rw [ho]
    split
    · exact ⟨_, rfl⟩
    · rename_i hne
      rcases hpoll p hp with e | h
      · exact absurd e hne
      · exact H.poll p h
  · intro p hp
    rw [ho]
    split
    · exact ⟨_, rfl, by intro _ _ _ h; cases h⟩
    · exact H.eps p hp
  · intro t
    rw [ho]
    rw [show LoopSt.timers { s.put q (some (.tcp fd' v' rt mem)) with poll := poll, hangup := hang } = s.timers from rfl,
      H.tim]
    split
    · rename_i e; subst e; rw [hq]; simp
    · rfl
  · intro k t h
    obtain ⟨m, h⟩ := H.slots k t h
    refine ⟨m, ?_⟩
    rw [ho, if_neg (fun e => by rw [e, hq] at h; cases h)]; exact h
  · intro t m e h
    rw [ho] at h
    split at h
    · cases h
    · obtain ⟨a, b, c, d, h, hr⟩ := H.retry t m e h
      rw [ho]
      split
      · rename_i e; rw [e, hq] at h; cases h; exact ⟨_, _, _, _, rfl, hr⟩
      · exact ⟨a, b, c, d, h, hr⟩
  · intro p a b c d h hr
    rw [ho] at h
    split at h
    · cases h; exact hv hr
    · exact H.valid p a b c d h hr
  · intro p hp a c d h
    rw [ho] at h
    split at h
    · cases h; exact hv2 rfl
    · exact hh (H.flag p hp a c d h)

theorem putTcp_mono {s : LoopSt} {q : Nat} {fd v rt mem} (hq : s.obj q = some (.tcp fd v rt mem))
    (fd' v' : Bool) (poll : List Nat) (hang : Bool) (hv : rt ≤ 0 → fd = fd' ∧ (v = false → v' = false)) :
    Mono s { s.put q (some (.tcp fd' v' rt mem)) with poll := poll, hangup := hang } := by
  have hl := obj_lt hq
  have ho : ∀ p, LoopSt.obj { s.put q (some (.tcp fd' v' rt mem)) with poll := poll, hangup := hang } p =
      if p = q then some (.tcp fd' v' rt mem) else s.obj p := fun p => obj_put s q p _ hl
  refine ⟨?_, ⟨[], by simp [LoopSt.put]⟩, by simp [LoopSt.put], ?_⟩
  · intro p o h
    rw [ho]
    split
    · rename_i e; subst e; rw [hq] at h; cases h; exact ⟨_, rfl, rfl, rfl, hv⟩
    · exact ⟨o, h, .refl o⟩
  · intro p o h
    rw [ho] at h
    split at h
    · rename_i e; subst e; cases h; exact .inr ⟨_, hq, rfl⟩
    · exact .inr ⟨o, h, rfl⟩

/-- The connection invariant of another endpoint does not care. -/
theorem putTcp_conn {s : LoopSt} {p q : Nat} {rtp : Int} (C : Conn s p rtp) {fd v rt mem}
    (hq : s.obj q = some (.tcp fd v rt mem)) (hne : p ≠ q) (fd' v' : Bool) (poll : List Nat) (hang : Bool)
    (hpoll : ∀ r, r ≠ q → (r ∈ poll ↔ r ∈ s.poll)) :
    Conn { s.put q (some (.tcp fd' v' rt mem)) with poll := poll, hangup := hang } p rtp := by
  have hl := obj_lt hq
  have ho : ∀ r, LoopSt.obj { s.put q (some (.tcp fd' v' rt mem)) with poll := poll, hangup := hang } r =
      if r = q then some (.tcp fd' v' rt mem) else s.obj r := fun r => obj_put s q r _ hl
  have hnt : ∀ t m, LoopSt.obj { s.put q (some (.tcp fd' v' rt mem)) with poll := poll, hangup := hang } t =
      some (.timer false m (.retry p)) → s.obj t = some (.timer false m (.retry p)) := by
    intro t m h
    rw [ho] at h
    split at h
    · cases h
    · exact h
  obtain ⟨hp, hep, a, b, h, h1, h2⟩ := C
  refine ⟨hp, hep, a, b, by rw [ho, if_neg hne]; exact h, ?_, ?_⟩
  · intro e
    obtain ⟨x, y⟩ := h1 e
    exact ⟨(hpoll p hne).mpr x, fun t m h => y t m (hnt t m h)⟩
  · intro e
    obtain ⟨x, t, y, z, w⟩ := h2 e
    have htq : t ≠ q := fun e => by rw [e, hq] at y; cases y
    exact ⟨fun h => x ((hpoll p hne).mp h), t, by rw [ho, if_neg htq]; exact y, (hpoll t htq).mpr z,
      fun t' m h => w t' m (hnt t' m h)⟩

theorem sched_split (s : LoopSt) (p : Nat) (rt : Int) (mem : List Nat) (ok : Bool) :
    s.scheduleReconnect p rt mem ok =
      (LoopSt.addTimeout { s.put p (some (.tcp false true rt mem)) with
        poll := s.poll.filter (· ≠ p), hangup := s.hangup } (retryMs rt) (.retry p) ok).1 := rfl

theorem addTimeout_false (s : LoopSt) (ms : UInt32) (cb : TCb) : s.addTimeout ms cb false = (s, none) := rfl

theorem sched_inv {s : LoopSt} (H : LInv s) {p : Nat} {fd v rt mem} (hp : s.obj p = some (.tcp fd v rt mem))
    (hr : rt > 0) (ok : Bool) : LInv (s.scheduleReconnect p rt mem ok) := by
  have h1 := putTcp_inv H hp false true (s.poll.filter (· ≠ p)) s.hangup
    (fun r h => .inr (List.mem_filter.mp h).1) (fun _ => rfl) id (by simp)
  rw [sched_split]
  cases ok with
  | false => exact h1
  | true =>
    refine addTimeout_inv h1 _ _ ?_
    intro e he
    cases he
    exact ⟨false, true, rt, mem, by rw [show LoopSt.obj { s.put p (some (.tcp false true rt mem)) with
      poll := s.poll.filter (· ≠ p), hangup := s.hangup } p = _ from obj_put s p p _ (obj_lt hp), if_pos rfl], hr⟩

theorem sched_mono {s : LoopSt} {p : Nat} {fd v rt mem} (hp : s.obj p = some (.tcp fd v rt mem)) (hr : rt > 0)
    (ok : Bool) : Mono s (s.scheduleReconnect p rt mem ok) := by
  have h1 := putTcp_mono hp false true (s.poll.filter (· ≠ p)) s.hangup (fun h => absurd hr (by omega))
  rw [sched_split]
  cases ok with
  | false => exact h1
  | true => exact h1.trans (addTimeout_mono _ _ _)

theorem sched_self {s : LoopSt} {p : Nat} {fd v rt mem} (hq : s.obj p = some (.tcp fd v rt mem)) (hr : rt > 0)
    (hep : p ∈ s.endpoints) (y : ∀ t ms, s.obj t ≠ some (.timer false ms (.retry p))) :
    Conn (s.scheduleReconnect p rt mem true) p rt := by
  rw [sched_split]
  have ho : ∀ r, LoopSt.obj { s.put p (some (.tcp false true rt mem)) with
      poll := s.poll.filter (· ≠ p), hangup := s.hangup } r =
      if r = p then some (.tcp false true rt mem) else s.obj r := fun r => obj_put s p r _ (obj_lt hq)
  have hlen : (LoopSt.heap { s.put p (some (.tcp false true rt mem)) with
      poll := s.poll.filter (· ≠ p), hangup := s.hangup }).length = s.heap.length := by simp [LoopSt.put]
  have hpl := obj_lt hq
  have ho2 := addTimeout_obj { s.put p (some (.tcp false true rt mem)) with
      poll := s.poll.filter (· ≠ p), hangup := s.hangup } (retryMs rt) (.retry p)
  refine ⟨hr, hep, false, mem, ?_, by simp, fun _ => ⟨?_, s.heap.length, ?_, ?_, ?_⟩⟩
  · rw [ho2, hlen, if_neg (by omega), ho, if_pos rfl]
  · intro hm
    rcases List.mem_cons.mp (show p ∈ _ :: _ from hm) with e | hm
    · rw [hlen] at e; omega
    · simp at hm
  · rw [ho2, hlen, if_pos rfl]
  · show s.heap.length ∈ _ :: _
    rw [hlen]; exact List.mem_cons_self
  · intro t' m h
    rw [ho2, hlen] at h
    split at h
    · assumption
    · rw [ho] at h
      split at h
      · cases h
      · exact absurd h (y t' m)

theorem sched_other {s : LoopSt} {p q : Nat} {rtp : Int} (C : Conn s p rtp) {fd v rt mem}
    (hq : s.obj q = some (.tcp fd v rt mem)) (hne : p ≠ q) : Conn (s.scheduleReconnect q rt mem true) p rtp := by
  rw [sched_split]
  have hpoll : ∀ r, r ≠ q → (r ∈ s.poll.filter (· ≠ q) ↔ r ∈ s.poll) := by
    intro r hr; simp [List.mem_filter, hr]
  exact addTimeout_conn (putTcp_conn C hq hne false true _ s.hangup hpoll) _ _ (by simpa using Ne.symm hne)

theorem sched_conn {s : LoopSt} {p q : Nat} {rtp : Int} (C : Conn s p rtp) {v rt mem}
    (hq : s.obj q = some (.tcp true v rt mem)) : Conn (s.scheduleReconnect q rt mem true) p rtp := by
  by_cases hne : p = q
  · subst hne
    obtain ⟨hp, hep, a, b, h, h1, h2⟩ := C
    rw [hq] at h; cases h
    exact sched_self hq hp hep (h1 rfl).2
  · exact sched_other C hq hne

/-- Changing a timer kept in a slot. -/
theorem putTimer_inv {s : LoopSt} (H : LInv s) {t : Nat} {r ms cb} (ht : s.obj t = some (.timer r ms cb))
    (r' : Bool) (ms' : UInt32) (slots : Nat → Option Nat)
    (hslots : ∀ k u, slots k = some u → s.slots k = some u ∧ (u = t → r' = false)) (hr : r = true → r' = true) :
    LInv { s.put t (some (.timer r' ms' cb)) with slots := slots } := by
  have hl := obj_lt ht
  have ho : ∀ q, LoopSt.obj { s.put t (some (.timer r' ms' cb)) with slots := slots } q =
      if q = t then some (.timer r' ms' cb) else s.obj q := fun q => obj_put s t q _ hl
  refine ⟨?_, ?_, ?_, ?_, ?_, ?_, ?_⟩
  · intro p hp
    rw [ho]
    split
    · exact ⟨_, rfl⟩
    · exact H.poll p hp
  · intro p hp
    obtain ⟨o, h, h'⟩ := H.eps p hp
    rw [ho, if_neg (fun e => by rw [e, ht] at h; cases h; exact h' _ _ _ rfl)]
    exact ⟨o, h, h'⟩
  · intro u
    rw [ho, show LoopSt.timers { s.put t (some (.timer r' ms' cb)) with slots := slots } = s.timers from rfl, H.tim]
    split
    · rename_i e; subst e; rw [ht]; simp
    · rfl
  · intro k u h
    obtain ⟨h1, h2⟩ := hslots k u h
    obtain ⟨m, h3⟩ := H.slots k u h1
    rw [ho]
    split
    · rename_i e
      rw [e, ht] at h3; cases h3
      rw [h2 e]; exact ⟨_, rfl⟩
    · exact ⟨m, h3⟩
  · intro u m e h
    have : ∃ m, s.obj u = some (.timer false m (.retry e)) := by
      rw [ho] at h
      split at h
      · rename_i he
        cases h
        subst he
        cases r with
        | false => exact ⟨_, ht⟩
        | true => cases hr rfl
      · exact ⟨m, h⟩
    obtain ⟨m', hm⟩ := this
    obtain ⟨a, b, c, d, h, hrt⟩ := H.retry u m' e hm
    refine ⟨a, b, c, d, ?_, hrt⟩
    rw [ho, if_neg (fun e => by rw [e, ht] at h; cases h)]; exact h
  · intro p a b c d h
    rw [ho] at h
    split at h
    · cases h
    · exact H.valid p a b c d h
  · intro p hp a c d h
    rw [ho] at h
    split at h
    · cases h
    · exact H.flag p hp a c d h

theorem putTimer_mono {s : LoopSt} {t : Nat} {r ms cb} (ht : s.obj t = some (.timer r ms cb))
    (r' : Bool) (ms' : UInt32) (slots : Nat → Option Nat) (hr : r = true → r' = true) :
    Mono s { s.put t (some (.timer r' ms' cb)) with slots := slots } := by
  have hl := obj_lt ht
  have ho : ∀ q, LoopSt.obj { s.put t (some (.timer r' ms' cb)) with slots := slots } q =
      if q = t then some (.timer r' ms' cb) else s.obj q := fun q => obj_put s t q _ hl
  refine ⟨?_, ⟨[], by simp [LoopSt.put]⟩, by simp [LoopSt.put], ?_⟩
  · intro p o h
    rw [ho]
    split
    · rename_i e; subst e; rw [ht] at h; cases h; exact ⟨_, rfl, rfl, hr⟩
    · exact ⟨o, h, .refl o⟩
  · intro p o h
    rw [ho] at h
    split at h
    · cases h; exact .inl rfl
    · exact .inr ⟨o, h, rfl⟩

theorem putTimer_conn {s : LoopSt} {p : Nat} {rtp : Int} (C : Conn s p rtp) {t : Nat} {r ms cb} (hcb : cb ≠ .retry p)
    (ht : s.obj t = some (.timer r ms cb)) (r' : Bool) (ms' : UInt32) (slots : Nat → Option Nat) :
    Conn { s.put t (some (.timer r' ms' cb)) with slots := slots } p rtp := by
  have hl := obj_lt ht
  have ho : ∀ q, LoopSt.obj { s.put t (some (.timer r' ms' cb)) with slots := slots } q =
      if q = t then some (.timer r' ms' cb) else s.obj q := fun q => obj_put s t q _ hl
  have hnt : ∀ u m, LoopSt.obj { s.put t (some (.timer r' ms' cb)) with slots := slots } u =
      some (.timer false m (.retry p)) → s.obj u = some (.timer false m (.retry p)) := by
    intro u m h
    rw [ho] at h
    split at h
    · cases h; exact absurd rfl hcb
    · exact h
  obtain ⟨hp, hep, a, b, h, h1, h2⟩ := C
  refine ⟨hp, hep, a, b, ?_, ?_, ?_⟩
  · rw [ho, if_neg (fun e => by rw [e, ht] at h; cases h)]; exact h
  · intro e
    obtain ⟨x, y⟩ := h1 e
    exact ⟨x, fun t m h => y t m (hnt t m h)⟩
  · intro e
    obtain ⟨x, u, y, z, w⟩ := h2 e
    refine ⟨x, u, ?_, z, fun t' m h => w t' m (hnt t' m h)⟩
    rw [ho, if_neg (fun e => by rw [e, ht] at y; cases y; exact hcb rfl)]; exact y

end Verif
