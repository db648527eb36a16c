import Verif.Spec.Timer

/- Properties C33, C34, C35: timers. -/

namespace Verif

open Spec

theorem chain_frame {h h' : THeap} {hd ps} (c : Chain h hd ps) (hf : ∀ p ∈ ps, h' p = h p) : Chain h' hd ps := by
  induction c with
  | nil => exact .nil
  | cons hp _ ih => exact .cons (by rw [hf _ (by simp)]; exact hp) (ih (fun q hq => hf q (by simp [hq])))

theorem put_same (h : THeap) (p : Nat) (n) : h.put p n p = n := by simp [THeap.put]

theorem put_other (h : THeap) {p q : Nat} (n) (hq : q ≠ p) : h.put p n q = h q := by simp [THeap.put, hq]

theorem holds_drop {h : THeap} {p : Nat} {n : TNode} {t : Timer} {ts : List Timer}
    (H : Holds h (some p) (t :: ts)) (hp : h p = some n) : Holds (h.put p none) n.next ts := by
  obtain ⟨c, nd, nodes, only⟩ := H
  simp only [List.map_cons, List.nodup_cons] at nd
  cases c with
  | cons hp' c =>
    rw [hp] at hp'; cases hp'
    refine ⟨chain_frame c ?_, nd.2, ?_, ?_⟩
    · intro q hq
      exact put_other _ _ (fun e => nd.1 (e ▸ hq))
    · intro t' ht'
      have : t'.addr ≠ t.addr := fun e => nd.1 (e ▸ List.mem_map_of_mem ht')
      rw [put_other _ _ this]
      exact nodes t' (by simp [ht'])
    · intro q hq
      by_cases e : q = t.addr
      · rw [e, put_same]
      · rw [put_other _ _ e]; exact only q (by simp [e, hq])

theorem delHead_spec : ∀ (ts : List Timer) (fuel : Nat) (h : THeap) (hd : Option Nat) (tr : List Nat),
    Holds h hd ts → ts.length < fuel →
    ∃ h' hd', delHead fuel h hd tr = some (h', hd', tr ++ (ts.takeWhile (·.cancelled)).map Timer.fd) ∧
      Holds h' hd' (ts.dropWhile (·.cancelled)) := by
  intro ts
  induction ts with
  | nil =>
    intro fuel h hd tr H hf
    cases fuel with
    | zero => omega
    | succ fuel =>
      have : hd = none := by cases H.chain; rfl
      subst this
      exact ⟨h, none, by simp [delHead], H⟩
  | cons t ts ih =>
    intro fuel h hd tr H hf
    cases fuel with
    | zero => omega
    | succ fuel =>
      have hd' : hd = some t.addr := by cases H.chain; rfl
      subst hd'
      obtain ⟨n, hn, hfd, hrm⟩ := H.node t (by simp)
      unfold delHead
      simp only [hn]
      cases hc : t.cancelled with
      | false =>
        rw [hrm, hc]
        exact ⟨h, some t.addr, by simp [hc], by simpa [hc] using H⟩
      | true =>
        rw [hrm, hc]
        obtain ⟨h', hd', h1, h2⟩ := ih fuel _ _ (tr ++ [n.fd]) (holds_drop H hn) (by simp at hf; omega)
        refine ⟨h', hd', ?_, by simpa [hc] using h2⟩
        rw [if_pos rfl, h1]
        simp [hc, hfd]

theorem chain_splice {h : THeap} {p c : Nat} {pn n : TNode} {ys : List Nat} (hp : h p = some pn) (hc : h c = some n) :
    ∀ (xs : List Nat) (hd : Option Nat), Chain h hd (xs ++ p :: c :: ys) → (xs ++ p :: c :: ys).Nodup →
    Chain ((h.put p (some { pn with next := n.next })).put c none) hd (xs ++ p :: ys) := by
  intro xs
  induction xs with
  | nil =>
    intro hd ch nd
    simp only [List.nil_append, List.nodup_cons, List.mem_cons, not_or] at nd
    obtain ⟨⟨hpc, hpy⟩, hcy, _⟩ := nd
    cases ch with
    | cons hp' ch =>
      rw [hp] at hp'; cases hp'
      generalize pn.next = nx at ch
      cases ch with
      | cons hc' ch =>
        rw [hc] at hc'; cases hc'
        refine .cons (n := { pn with next := n.next }) ?_ (chain_frame ch ?_)
        · rw [put_other _ _ hpc, put_same]
        · intro q hq
          have h1 : q ≠ c := fun e => hcy (e ▸ hq)
          have h2 : q ≠ p := fun e => hpy (e ▸ hq)
          rw [put_other _ _ h1, put_other _ _ h2]
  | cons x xs ih =>
    intro hd ch nd
    simp only [List.cons_append, List.nodup_cons] at nd
    cases ch with
    | cons hx ch =>
      refine .cons ?_ (ih _ ch nd.2)
      have h1 : x ≠ c := fun e => nd.1 (by simp [e])
      have h2 : x ≠ p := fun e => nd.1 (by simp [e])
      rw [put_other _ _ h1, put_other _ _ h2]; exact hx

theorem holds_splice {h : THeap} {hd : Option Nat} {pre : List Timer} {pv c : Timer} {cs : List Timer} {pn n : TNode}
    (H : Holds h hd (pre ++ pv :: c :: cs)) (hp : h pv.addr = some pn) (hc : h c.addr = some n) :
    Holds ((h.put pv.addr (some { pn with next := n.next })).put c.addr none) hd (pre ++ pv :: cs) := by
  obtain ⟨ch, nd, nodes, only⟩ := H
  simp only [List.map_append, List.map_cons] at ch nd only
  have nd' := nd
  rw [List.nodup_append] at nd'
  obtain ⟨_, nd2, disj⟩ := nd'
  simp only [List.nodup_cons, List.mem_cons, not_or] at nd2
  obtain ⟨⟨hpc, hpcs⟩, hccs, _⟩ := nd2
  refine ⟨?_, ?_, ?_, ?_⟩
  · simpa using chain_splice hp hc _ _ ch nd
  · simp only [List.map_append, List.map_cons]
    refine nd.sublist ?_
    exact List.Sublist.append (.refl _) (.cons_cons _ (List.sublist_cons_self _ _))
  · intro t ht
    have ht' : t ∈ pre ++ pv :: c :: cs := by
      rcases List.mem_append.mp ht with h | h
      · simp [h]
      · rcases List.mem_cons.mp h with rfl | h <;> simp [*]
    have htc : t.addr ≠ c.addr := by
      rcases List.mem_append.mp ht with h | h
      · exact fun e => disj _ (List.mem_map_of_mem h) c.addr (by simp) e
      · rcases List.mem_cons.mp h with rfl | h
        · exact hpc
        · exact fun e => hccs (e ▸ List.mem_map_of_mem h)
    rw [put_other _ _ htc]
    obtain ⟨m, hm, h1, h2⟩ := nodes t ht'
    by_cases e : t.addr = pv.addr
    · rw [e, put_same]
      rw [e, hp] at hm; cases hm
      exact ⟨_, rfl, h1, h2⟩
    · rw [put_other _ _ e]; exact ⟨m, hm, h1, h2⟩
  · intro q hq
    simp only [List.map_append, List.map_cons, List.mem_append, List.mem_cons, not_or] at hq
    by_cases e : q = c.addr
    · rw [e, put_same]
    · rw [put_other _ _ e, put_other _ _ hq.2.1]
      exact only q (by simp [hq, e])

theorem chain_next {h : THeap} {p : Nat} {pn : TNode} {ys : List Nat} (hp : h p = some pn) :
    ∀ (xs : List Nat) (hd : Option Nat), Chain h hd (xs ++ p :: ys) → Chain h pn.next ys := by
  intro xs
  induction xs with
  | nil => intro hd c; cases c with | cons hp' c => rw [hp] at hp'; cases hp'; exact c
  | cons x xs ih => intro hd c; cases c with | cons _ c => exact ih _ c

theorem delRest_spec : ∀ (cur : List Timer) (fuel : Nat) (h : THeap) (hd : Option Nat) (pre : List Timer)
    (pv : Timer) (pn : TNode) (tr : List Nat), Holds h hd (pre ++ pv :: cur) → h pv.addr = some pn →
    cur.length < fuel →
    ∃ h', delRest fuel h pv.addr pn.next tr = some (h', tr ++ (cur.filter (·.cancelled)).map Timer.fd) ∧
      Holds h' hd (pre ++ pv :: cur.filter (fun t => !t.cancelled)) := by
  intro cur
  induction cur with
  | nil =>
    intro fuel h hd pre pv pn tr H hp hf
    cases fuel with
    | zero => omega
    | succ fuel =>
      have c := chain_next (ys := []) hp (pre.map Timer.addr) hd (by simpa using H.chain)
      generalize pn.next = nx at c
      cases c
      exact ⟨h, by simp [delRest], by simpa using H⟩
  | cons t cur ih =>
    intro fuel h hd pre pv pn tr H hp hf
    cases fuel with
    | zero => omega
    | succ fuel =>
      have c := chain_next (ys := t.addr :: cur.map Timer.addr) hp (pre.map Timer.addr) hd (by simpa using H.chain)
      have hnx : pn.next = some t.addr := by
        generalize pn.next = nx at c; cases c; rfl
      obtain ⟨n, hn, hfd, hrm⟩ := H.node t (by simp)
      unfold delRest
      rw [hnx]
      simp only [hn]
      cases hc : t.cancelled with
      | false =>
        rw [hrm, hc]
        obtain ⟨h', h1, h2⟩ := ih fuel h hd (pre ++ [pv]) t n tr (by simpa using H) hn (by simp at hf; omega)
        exact ⟨h', by simpa [hc] using h1, by simpa [hc] using h2⟩
      | true =>
        rw [hrm, hc]
        simp only [if_true, hp]
        have hne : pv.addr ≠ t.addr := by
          have nd := H.nodup
          simp only [List.map_append, List.map_cons, List.nodup_append, List.nodup_cons, List.mem_cons, not_or] at nd
          exact nd.2.1.1.1
        obtain ⟨h', h1, h2⟩ := ih fuel _ hd pre pv { pn with next := n.next } (tr ++ [n.fd]) (holds_splice H hp hn)
          (by rw [put_other _ _ hne, put_same]) (by simp at hf; omega)
        refine ⟨h', ?_, by simpa [hc] using h2⟩
        simp only at h1
        rw [h1]
        simp [hc, hfd]

theorem takeWhile_filter (ts : List Timer) :
    (ts.takeWhile (·.cancelled)) ++ (ts.dropWhile (·.cancelled)).filter (·.cancelled) = ts.filter (·.cancelled) := by
  induction ts with
  | nil => rfl
  | cons t ts ih => cases hc : t.cancelled <;> simp [hc, ih]

theorem dropWhile_filter (ts : List Timer) :
    (ts.dropWhile (·.cancelled)).filter (fun t => !t.cancelled) = ts.filter (fun t => !t.cancelled) := by
  induction ts with
  | nil => rfl
  | cons t ts ih => cases hc : t.cancelled <;> simp [hc, ih]

/-- **C33**: for every list of timers and every set of cancelled ones, `_del_timeouts` terminates, never touches
freed memory, removes exactly the cancelled timers (in order, taking their descriptors out of the poll set), and
keeps all others in order. -/
theorem C33_sweep (h : THeap) (hd : Option Nat) (ts : List Timer) (H : Holds h hd ts) (fuel : Nat)
    (hf : ts.length < fuel) :
    ∃ h' hd', delTimeouts fuel h hd = some (h', hd', (ts.filter (·.cancelled)).map Timer.fd) ∧
      Holds h' hd' (ts.filter (fun t => !t.cancelled)) := by
  obtain ⟨h1, hd1, e1, H1⟩ := delHead_spec ts fuel h hd [] H hf
  unfold delTimeouts
  rw [e1]
  rw [← takeWhile_filter, ← dropWhile_filter, List.map_append, List.nil_append]
  cases hr : ts.dropWhile (·.cancelled) with
  | nil =>
    rw [hr] at H1
    have : hd1 = none := by cases H1.chain; rfl
    subst this
    exact ⟨h1, none, by simp, by simpa using H1⟩
  | cons t rest =>
    rw [hr] at H1
    have : hd1 = some t.addr := by cases H1.chain; rfl
    subst this
    obtain ⟨n, hn, _⟩ := H1.node t (by simp)
    have hlen : rest.length < fuel := by
      have h1 := congrArg List.length hr
      have h2 := (List.dropWhile_sublist (·.cancelled) (l := ts)).length_le
      simp only [List.length_cons] at h1
      omega
    have hkeep : t.cancelled = false := by
      have := List.head?_dropWhile_not (·.cancelled) ts
      rw [hr] at this
      simpa using this
    obtain ⟨h2, e2, H2⟩ := delRest_spec rest fuel h1 (some t.addr) [] t n
      ((ts.takeWhile (·.cancelled)).map Timer.fd) H1 hn hlen
    simp only [hn, e2]
    exact ⟨h2, some t.addr, by simp [hkeep], by simpa [hkeep] using H2⟩

/-- Three timers, the first and last cancelled. -/
example : (delTimeouts 4 (fun p => if p = 1 then some { fd := 10, removeMe := true, next := some 2 }
      else if p = 2 then some { fd := 20, next := some 3 }
      else if p = 3 then some { fd := 30, removeMe := true } else none) (some 1)).map
    (fun r => (r.2.1, r.2.2, r.1 1, r.1 2, r.1 3)) =
    some (some 2, [10, 30], none, some { fd := 20, next := none }, none) := by decide

/-! ### Histories -/

theorem holds_mark {h : THeap} {hd : Option Nat} {ts : List Timer} (H : Holds h hd ts) {p : Nat} {n : TNode}
    (hp : h p = some n) : Holds (h.put p (some { n with removeMe := true })) hd (mark p ts) := by
  have haddr : (mark p ts).map Timer.addr = ts.map Timer.addr := by
    unfold mark
    rw [List.map_map]
    apply List.map_congr_left
    intro t _
    simp only [Function.comp_apply]
    split <;> rfl
  refine ⟨?_, by rw [haddr]; exact H.nodup, ?_, ?_⟩
  · rw [haddr]
    have : ∀ hd ps, Chain h hd ps → Chain (h.put p (some { n with removeMe := true })) hd ps := by
      intro hd ps c
      induction c with
      | nil => exact .nil
      | cons hq _ ih =>
        rename_i q m ps _
        by_cases e : q = p
        · subst e
          rw [hp] at hq; cases hq
          exact .cons (n := { n with removeMe := true }) (put_same _ _ _) ih
        · exact .cons (by rw [put_other _ _ e]; exact hq) ih
    exact this _ _ H.chain
  · intro t ht
    obtain ⟨u, hu, rfl⟩ := List.mem_map.mp ht
    obtain ⟨m, hm, h1, h2⟩ := H.node u hu
    by_cases e : u.addr = p
    · simp only [e, if_true, put_same]
      rw [e, hp] at hm; cases hm
      exact ⟨_, rfl, h1, rfl⟩
    · simp only [e, if_false, put_other _ _ e]
      exact ⟨m, hm, h1, h2⟩
  · intro q hq
    rw [haddr] at hq
    have : q ≠ p := by
      rintro rfl
      rw [H.only q hq] at hp; cases hp
    rw [put_other _ _ this]; exact H.only q hq

theorem node_of_mem {h : THeap} {hd : Option Nat} {ts : List Timer} (H : Holds h hd ts) {p : Nat}
    (hp : p ∈ ts.map Timer.addr) : ∃ n t, h p = some n ∧ t ∈ ts ∧ t.addr = p ∧ n.removeMe = t.cancelled := by
  obtain ⟨t, ht, rfl⟩ := List.mem_map.mp hp
  obtain ⟨n, hn, _, h2⟩ := H.node t ht
  exact ⟨n, t, hn, ht, rfl, h2⟩

theorem addr_unique {h : THeap} {hd : Option Nat} {ts : List Timer} (H : Holds h hd ts) {t u : Timer} (ht : t ∈ ts)
    (hu : u ∈ ts) (e : t.addr = u.addr) : t.cancelled = u.cancelled := by
  obtain ⟨n, hn, _, h1⟩ := H.node t ht
  obtain ⟨m, hm, _, h2⟩ := H.node u hu
  rw [e, hm] at hn; cases hn
  rw [← h1, h2]

/-- One event: the pointer structure follows the user's view, and the callback runs exactly when a live,
uncancelled timer expires. -/
theorem timerStep_spec (fuel : Nat) (s : TState) (ts : List Timer) (H : Holds s.heap s.head ts)
    (hf : ts.length < fuel) (e : TimerEv) (hp : Possible ts e) :
    ∃ s', timerStep fuel s e = some s' ∧ Holds s'.heap s'.head (after ts e) ∧
      (s'.ran = s.ran ∨ ∃ p v cb, e = .expire p (some v) cb ∧ v ≠ 0 ∧ s'.ran = s.ran ++ [p] ∧
        ∀ t ∈ ts, t.addr = p → t.cancelled = false) ∧
      (∀ p v cb, e = .expire p (some v) cb → v ≠ 0 → (∀ t ∈ ts, t.addr = p → t.cancelled = false) →
        s'.ran = s.ran ++ [p]) := by
  cases e with
  | add p fd =>
    refine ⟨_, rfl, ?_, .inl rfl, by intro _ _ _ h; cases h⟩
    have hp : p ∉ ts.map Timer.addr := hp
    refine ⟨.cons (put_same _ _ _) (chain_frame H.chain ?_), ?_, ?_, ?_⟩
    · intro q hq; exact put_other _ _ (fun e => hp (e ▸ hq))
    · exact List.nodup_cons.mpr ⟨hp, H.nodup⟩
    · intro t ht
      rcases List.mem_cons.mp ht with rfl | ht
      · exact ⟨_, put_same _ _ _, rfl, rfl⟩
      · have : t.addr ≠ p := fun e => hp (e ▸ List.mem_map_of_mem ht)
        show ∃ n, s.heap.put p _ t.addr = some n ∧ _
        rw [put_other _ _ this]; exact H.node t ht
    · intro q hq
      simp only [after, List.map_cons, List.mem_cons, not_or] at hq
      show s.heap.put p _ q = none
      rw [put_other _ _ hq.1]; exact H.only q hq.2
  | cancel p =>
    obtain ⟨n, t, hn, ht, _, _⟩ := node_of_mem H hp
    refine ⟨{ s with heap := s.heap.put p (some { n with removeMe := true }) }, ?_, holds_mark H hn, .inl rfl,
      by intro _ _ _ h; cases h⟩
    simp [timerStep, delTimeout, hn]
  | expire p val cb =>
    obtain ⟨n, t, hn, ht, hta, hrm⟩ := node_of_mem H hp
    have hall : (∀ u ∈ ts, u.addr = p → u.cancelled = false) ↔ n.removeMe = false := by
      rw [hrm]
      exact ⟨fun h => h t ht hta, fun h u hu e => (addr_unique H hu ht (e.trans hta.symm)).trans h⟩
    cases val with
    | none =>
      refine ⟨s, by simp [timerStep, timerRead, hn], ?_, .inl rfl, by intro _ _ _ h; cases h⟩
      simpa [after] using H
    | some v =>
      by_cases hv : v = 0 ∨ n.removeMe = true
      · refine ⟨s, by simp only [timerStep, timerRead, hn, if_pos hv, Option.map_some]; rfl, ?_, .inl rfl, ?_⟩
        · have : ¬ ((∃ v', some v = some v' ∧ v' ≠ 0) ∧ (∀ u ∈ ts, u.addr = p → u.cancelled = false) ∧ cb = false) := by
            rintro ⟨⟨v', h1, h2⟩, h3, _⟩
            cases h1
            rcases hv with hv | hv
            · exact h2 hv
            · rw [hall.mp h3] at hv; cases hv
          simp only [after, if_neg this]
          exact H
        · intro p' v' cb' he hv' hu
          cases he
          rcases hv with hv | hv
          · exact absurd hv hv'
          · rw [hall.mp hu] at hv; cases hv
      · have hv0 : v ≠ 0 := fun h => hv (.inl h)
        have hr0 : n.removeMe = false := by
          cases h : n.removeMe with
          | false => rfl
          | true => exact absurd (.inr h) hv
        cases cb with
        | true =>
          refine ⟨{ s with ran := s.ran ++ [p] }, by simp [timerStep, timerRead, hn, hv0, hr0], ?_,
            .inr ⟨p, v, true, rfl, hv0, rfl, hall.mpr hr0⟩, by intro _ _ _ h _ _; cases h; rfl⟩
          simpa [after] using H
        | false =>
          refine ⟨{ s with heap := s.heap.put p (some { n with removeMe := true }), ran := s.ran ++ [p] },
            by simp [timerStep, timerRead, hn, hv0, hr0], ?_,
            .inr ⟨p, v, false, rfl, hv0, rfl, hall.mpr hr0⟩, by intro _ _ _ h _ _; cases h; rfl⟩
          have : ((∃ v', some v = some v' ∧ v' ≠ 0) ∧ (∀ u ∈ ts, u.addr = p → u.cancelled = false) ∧ false = false) :=
            ⟨⟨v, rfl, hv0⟩, hall.mpr hr0, rfl⟩
          show Holds _ _ (if _ then _ else _)
          rw [if_pos this]
          exact holds_mark H hn
  | sweep =>
    obtain ⟨h', hd', h1, h2⟩ := C33_sweep s.heap s.head ts H fuel hf
    exact ⟨{ s with heap := h', head := hd' }, by simp [timerStep, h1], h2, .inl rfl, by intro _ _ _ h; cases h⟩

/-- User's view after a history. -/
def Spec.afterAll (ts : List Timer) (es : List TimerEv) : List Timer := es.foldl after ts

theorem after_length (ts : List Timer) (e : TimerEv) : (after ts e).length ≤ ts.length + 1 := by
  cases e with
  | add => simp [after]
  | cancel p => simp [after, mark]
  | expire p v cb => simp only [after]; split <;> simp [mark]
  | sweep => simp only [after]; have := List.length_filter_le (fun t : Timer => !t.cancelled) ts; omega

/-- **C33** (histories): starting without timers, after every history of adding, cancelling, expiring and sweeping,
the heap holds exactly the timers of the user's view; memory of removed timers is never accessed. -/
theorem C33_histories : ∀ (es : List TimerEv) (s : TState) (ts : List Timer), Holds s.heap s.head ts →
    AllPossible ts es → ∀ fuel, ts.length + es.length < fuel →
    ∃ s', timerRun fuel s es = some s' ∧ Holds s'.heap s'.head (afterAll ts es) := by
  intro es
  induction es with
  | nil => intro s ts H _ fuel _; exact ⟨s, rfl, H⟩
  | cons e es ih =>
    intro s ts H hp fuel hf
    simp only [List.length_cons] at hf
    obtain ⟨s1, h1, H1, _⟩ := timerStep_spec fuel s ts H (by omega) e hp.1
    have hl := after_length ts e
    obtain ⟨s2, h2, H2⟩ := ih s1 (after ts e) H1 hp.2 fuel (by omega)
    exact ⟨s2, by simp [timerRun, h1, h2], H2⟩

theorem holds_empty : Holds (fun _ => none) none [] := ⟨.nil, by simp, by simp, by simp⟩

/-- A history: two timers, one stops itself, sweep, a third reuses its address. -/
example : (timerRun 10 { heap := fun _ => none, head := none }
      [.add 1 10, .add 2 20, .expire 1 (some 1) false, .expire 1 (some 1) true, .sweep, .add 1 30, .cancel 2,
       .expire 2 (some 3) true, .sweep]).map (fun s => (s.head, s.ran, s.heap 1, s.heap 2)) =
    some (some 1, [1], some { fd := 30 }, none) := by decide

/-- Cancelled timers stay cancelled until they are swept; the address can be reused only after that. -/
theorem after_cancelled {ts : List Timer} {e : TimerEv} {p : Nat} (hc : ∀ t ∈ ts, t.addr = p → t.cancelled = true)
    (hne : ∀ fd, e ≠ .add p fd) : ∀ t ∈ after ts e, t.addr = p → t.cancelled = true := by
  have hmark : ∀ q, ∀ t ∈ mark q ts, t.addr = p → t.cancelled = true := by
    intro q t ht ha
    obtain ⟨u, hu, rfl⟩ := List.mem_map.mp ht
    by_cases e : u.addr = q
    · simp [e]
    · simp only [e, if_false] at ha ⊢; exact hc u hu ha
  intro t ht ha
  cases e with
  | add q fd =>
    rcases List.mem_cons.mp ht with rfl | ht
    · exact absurd (by rw [show q = p from ha]) (hne fd)
    · exact hc t ht ha
  | cancel q => exact hmark q t ht ha
  | expire q v cb =>
    simp only [after] at ht
    split at ht
    · exact hmark q t ht ha
    · exact hc t ht ha
  | sweep => exact hc t (List.mem_filter.mp ht).1 ha

/-- **C34**: once a timer is cancelled (`del_timeout`, or its callback returned false) its callback does not run in
any continuation, in particular not for an expiry that is already in the current batch, until a new timer is
created (possibly at the same address). -/
theorem C34_cancelled_never_runs : ∀ (es : List TimerEv) (s : TState) (ts : List Timer), Holds s.heap s.head ts →
    AllPossible ts es → ∀ fuel, ts.length + es.length < fuel → ∀ p,
    (∀ t ∈ ts, t.addr = p → t.cancelled = true) → (∀ fd, TimerEv.add p fd ∉ es) →
    ∃ s', timerRun fuel s es = some s' ∧ s'.ran.count p = s.ran.count p := by
  intro es
  induction es with
  | nil => intro s ts _ _ fuel _ p _ _; exact ⟨s, rfl, rfl⟩
  | cons e es ih =>
    intro s ts H hp fuel hf p hc hadd
    simp only [List.length_cons] at hf
    obtain ⟨s1, h1, H1, hran, _⟩ := timerStep_spec fuel s ts H (by omega) e hp.1
    have hl := after_length ts e
    obtain ⟨s2, h2, H2⟩ := ih s1 (after ts e) H1 hp.2 fuel (by omega) p
      (after_cancelled hc (fun fd h => hadd fd (by simp [h]))) (fun fd h => hadd fd (by simp [h]))
    refine ⟨s2, by simp [timerRun, h1, h2], ?_⟩
    rw [H2]
    rcases hran with h | ⟨q, v, cb, rfl, _, hr, hun⟩
    · rw [h]
    · rw [hr, List.count_append]
      have : q ≠ p := by
        rintro rfl
        obtain ⟨t, ht, hta⟩ := List.mem_map.mp (show q ∈ ts.map Timer.addr from hp.1)
        exact absurd (hc t ht hta) (by rw [hun t ht hta]; simp)
      simp [this]

/-- **C34**, the other direction: an uncancelled timer that expires runs its callback, exactly once per expiry. -/
theorem C34_live_runs (fuel : Nat) (s : TState) (ts : List Timer) (H : Holds s.heap s.head ts)
    (hf : ts.length < fuel) (p v : Nat) (cb : Bool) (hv : v ≠ 0) (hp : p ∈ ts.map Timer.addr)
    (hlive : ∀ t ∈ ts, t.addr = p → t.cancelled = false) :
    ∃ s', timerStep fuel s (.expire p (some v) cb) = some s' ∧ s'.ran = s.ran ++ [p] := by
  obtain ⟨s', h1, _, _, h2⟩ := timerStep_spec fuel s ts H hf (.expire p (some v) cb) hp
  exact ⟨s', h1, h2 p v cb rfl hv hlive⟩

/-- Cancelled while its expiry is already in the batch. -/
example : (timerRun 10 { heap := fun _ => none, head := none }
      [.add 1 10, .expire 1 (some 1) true, .cancel 1, .expire 1 (some 1) true, .sweep]).map (·.ran) =
    some [1] := by decide

/-- **C35**: for every 32-bit millisecond value the programmed first expiry and period are exactly that many
milliseconds, the nanosecond fields are valid, and only 0 disarms. -/
theorem C35_exact (ms : UInt32) :
    (modTimeout ms).1 = (modTimeout ms).2 ∧
    (modTimeout ms).1.sec.toNat * 1000000000 + (modTimeout ms).1.nsec.toNat = ms.toNat * 1000000 ∧
    (modTimeout ms).1.nsec.toNat ≤ 999999999 ∧
    (((modTimeout ms).2.sec = 0 ∧ (modTimeout ms).2.nsec = 0) ↔ ms = 0) := by
  have hlt := ms.toNat_lt
  have hs : (modTimeout ms).1.sec.toNat = ms.toNat / 1000 := by
    simp [modTimeout, UInt64.toNat_div]
  have hn : (modTimeout ms).1.nsec.toNat = (ms.toNat % 1000) * 1000000 := by
    simp only [modTimeout, UInt64.toNat_mul, UInt64.toNat_mod, UInt32.toNat_toUInt64, UInt64.reduceToNat]
    omega
  refine ⟨rfl, by rw [hs, hn]; omega, by rw [hn]; omega, ?_⟩
  rw [show (modTimeout ms).2.sec = (modTimeout ms).1.sec from rfl,
    show (modTimeout ms).2.nsec = (modTimeout ms).1.nsec from rfl,
    ← UInt64.toNat_inj, ← UInt64.toNat_inj, ← UInt32.toNat_inj, hs, hn]
  simp only [UInt64.reduceToNat, UInt32.reduceToNat]
  omega

example : modTimeout 5250 = ({ sec := 5, nsec := 250000000 }, { sec := 5, nsec := 250000000 }) := by decide

end Verif
