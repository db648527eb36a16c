import Verif.Model.Watch
import Verif.Spec.Watch
import Verif.Props.Zombie

/- C134: the router listens to exactly what is open. -/

namespace Verif
open Spec

/-! ### The invariant -/

/-- The object has an open descriptor. -/
def Obj.hasFd : Obj → Prop
  | .timer _ _ _ => True
  | .tcp fd _ _ _ => fd = true
  | .plain _ => True

structure WInv (s : LoopSt) : Prop where
  reg : ∀ p o, s.obj p = some o → (p ∈ s.poll ↔ o.hasFd)
  one : ∀ e t t' ms ms', s.obj t = some (.timer false ms (.retry e)) → s.obj t' = some (.timer false ms' (.retry e)) → t = t'
  conn : ∀ e v rt mem t ms, s.obj e = some (.tcp true v rt mem) → s.obj t ≠ some (.timer false ms (.retry e))
  nd : s.poll.Nodup
  lt : ∀ p ∈ s.poll, p < s.heap.length
  tgt : ∀ t ms e, s.obj t = some (.timer false ms (.retry e)) → e < s.heap.length

theorem winv_congr {s s' : LoopSt} (W : WInv s) (hh : s'.heap = s.heap) (hp : s'.poll = s.poll) : WInv s' := by
  have ho : ∀ q, s'.obj q = s.obj q := fun q => by unfold LoopSt.obj; rw [hh]
  exact ⟨fun p o h => by rw [hp]; exact W.reg p o (ho p ▸ h),
    fun e t t' ms ms' h h' => W.one e t t' ms ms' (ho t ▸ h) (ho t' ▸ h'),
    fun e v rt mem t ms h h' => W.conn e v rt mem t ms (ho e ▸ h) (ho t ▸ h'), hp ▸ W.nd, by rw [hp, hh]; exact W.lt,
    fun t ms e h => by rw [hh]; exact W.tgt t ms e (ho t ▸ h)⟩

/-- An object changes; its descriptor stays as it is. -/
theorem winv_put {s : LoopSt} (W : WInv s) {p : Nat} {o o' : Obj} (hp : s.obj p = some o) (hf : o'.hasFd ↔ o.hasFd)
    (ht : ∀ ms e, o' = .timer false ms (.retry e) → ∃ ms', o = .timer false ms' (.retry e))
    (hc : ∀ v rt mem, o' = .tcp true v rt mem → ∃ v' rt' mem', o = .tcp true v' rt' mem') : WInv (s.put p (some o')) := by
  have ho := fun q => obj_put s p q (some o') (obj_lt hp)
  have hlen : (s.put p (some o')).heap.length = s.heap.length := by simp [LoopSt.put]
  have back : ∀ t ms e, (s.put p (some o')).obj t = some (.timer false ms (.retry e)) →
      ∃ ms', s.obj t = some (.timer false ms' (.retry e)) := by
    intro t ms e h
    rw [ho] at h
    by_cases x : t = p
    · rw [if_pos x] at h
      obtain ⟨ms', e'⟩ := ht ms e (Option.some.inj h)
      exact ⟨ms', by rw [x, hp, e']⟩
    · rw [if_neg x] at h; exact ⟨ms, h⟩
  refine ⟨?_, ?_, ?_, W.nd, ?_, ?_⟩
  · intro q o1 h
    rw [ho] at h
    by_cases x : q = p
    · subst x
      rw [if_pos rfl] at h
      cases h
      exact (W.reg q o hp).trans hf.symm
    · rw [if_neg x] at h; exact W.reg q o1 h
  · intro e t t' ms ms' h h'
    obtain ⟨_, h1⟩ := back t ms e h
    obtain ⟨_, h2⟩ := back t' ms' e h'
    exact W.one e t t' _ _ h1 h2
  · intro e v rt mem t ms h h'
    obtain ⟨ms1, h1⟩ := back t ms e h'
    rw [ho] at h
    by_cases x : e = p
    · rw [if_pos x] at h
      obtain ⟨v', rt', mem', e'⟩ := hc v rt mem (Option.some.inj h)
      exact W.conn e v' rt' mem' t ms1 (by rw [x, hp, e']) h1
    · rw [if_neg x] at h; exact W.conn e v rt mem t ms1 h h1
  · rw [hlen]; exact W.lt
  · intro t ms e h
    obtain ⟨_, h1⟩ := back t ms e h
    rw [hlen]
    exact W.tgt t _ e h1

theorem winv_addTimeout {s : LoopSt} (W : WInv s) (ms : UInt32) (cb : TCb) (ok : Bool)
    (hcb : ∀ e, cb = .retry e → e < s.heap.length ∧ (∀ v rt mem, s.obj e ≠ some (.tcp true v rt mem)) ∧
      ∀ t ms, s.obj t ≠ some (.timer false ms (.retry e))) : WInv (s.addTimeout ms cb ok).1 := by
  cases ok with
  | false => exact W
  | true =>
    have ho := addTimeout_obj s ms cb
    have hlen : (s.addTimeout ms cb true).1.heap.length = s.heap.length + 1 := by simp [LoopSt.addTimeout]
    have hn : s.heap.length ∉ s.poll := fun h => Nat.lt_irrefl _ (W.lt _ h)
    refine ⟨?_, ?_, ?_, List.nodup_cons.mpr ⟨hn, W.nd⟩, ?_, ?_⟩
    · intro q o h
      rw [ho] at h
      by_cases x : q = s.heap.length
      · rw [if_pos x] at h
        cases h
        simp [LoopSt.addTimeout, x, Obj.hasFd]
      · rw [if_neg x] at h
        exact (by simp [LoopSt.addTimeout, x] : q ∈ (s.addTimeout ms cb true).1.poll ↔ q ∈ s.poll).trans (W.reg q o h)
    · intro e t t' m m' h h'
      rw [ho] at h h'
      by_cases x : t = s.heap.length <;> by_cases y : t' = s.heap.length
      · rw [x, y]
      · rw [if_pos x] at h; rw [if_neg y] at h'
        cases h
        exact absurd h' ((hcb e rfl).2.2 t' m')
      · rw [if_neg x] at h; rw [if_pos y] at h'
        cases h'
        exact absurd h ((hcb e rfl).2.2 t m)
      · rw [if_neg x] at h; rw [if_neg y] at h'
        exact W.one e t t' m m' h h'
    · intro e v rt mem t m h h'
      rw [ho] at h h'
      by_cases x : e = s.heap.length
      · rw [if_pos x] at h; cases h
      · rw [if_neg x] at h
        by_cases y : t = s.heap.length
        · rw [if_pos y] at h'
          cases h'
          exact (hcb e rfl).2.1 v rt mem h
        · rw [if_neg y] at h'
          exact W.conn e v rt mem t m h h'
    · intro p hp
      rw [hlen]
      rcases List.mem_cons.mp hp with rfl | hp
      · omega
      · have := W.lt p hp; omega
    · intro t m e h
      rw [hlen]
      rw [ho] at h
      by_cases y : t = s.heap.length
      · rw [if_pos y] at h
        cases h
        have := (hcb e rfl).1; omega
      · rw [if_neg y] at h
        have := W.tgt t m e h; omega

/-- A TCP endpoint is disconnected. -/
theorem winv_close {s : LoopSt} (W : WInv s) {p : Nat} {fd v rt mem} (hp : s.obj p = some (.tcp fd v rt mem)) (v' : Bool) :
    WInv { s.put p (some (.tcp false v' rt mem)) with poll := s.poll.filter (· ≠ p) } := by
  have ho : ∀ q, ({ s.put p (some (.tcp false v' rt mem)) with poll := s.poll.filter (· ≠ p) } : LoopSt).obj q =
      if q = p then some (.tcp false v' rt mem) else s.obj q := fun q => obj_put s p q _ (obj_lt hp)
  have back : ∀ {t ms e}, (if t = p then some (.tcp false v' rt mem) else s.obj t) = some (.timer false ms (.retry e)) →
      s.obj t = some (.timer false ms (.retry e)) := by
    intro t ms e h
    by_cases x : t = p
    · rw [if_pos x] at h; cases h
    · rwa [if_neg x] at h
  have hlen : (s.put p (some (.tcp false v' rt mem))).heap.length = s.heap.length := by simp [LoopSt.put]
  refine ⟨?_, ?_, ?_, W.nd.filter _, ?_, ?_⟩
  · intro q o h
    rw [ho] at h
    by_cases x : q = p
    · rw [if_pos x] at h
      cases h
      simp [x, Obj.hasFd]
    · rw [if_neg x] at h
      rw [← W.reg q o h]
      simp [x]
  · intro e t t' m m' h h'
    rw [ho] at h h'
    exact W.one e t t' m m' (back h) (back h')
  · intro e v rt mem t m h h'
    rw [ho] at h h'
    by_cases x : e = p
    · rw [if_pos x] at h; cases h
    · rw [if_neg x] at h
      exact W.conn e v rt mem t m h (back h')
  · intro q hq
    exact hlen ▸ W.lt q (List.mem_filter.mp hq).1
  · intro t m e h
    rw [ho] at h
    exact hlen ▸ W.tgt t m e (back h)

theorem winv_sched_of {s : LoopSt} (W : WInv s) {p : Nat} {fd v rt mem} (hp : s.obj p = some (.tcp fd v rt mem))
    (hno : ∀ t ms, s.obj t ≠ some (.timer false ms (.retry p))) (ok : Bool) : WInv (s.scheduleReconnect p rt mem ok) := by
  refine winv_addTimeout (winv_close W hp true) _ _ ok ?_
  intro e he
  cases he
  have ho : ∀ q, ({ s.put p (some (.tcp false true rt mem)) with poll := s.poll.filter (· ≠ p) } : LoopSt).obj q =
      if q = p then some (.tcp false true rt mem) else s.obj q := fun q => obj_put s p q _ (obj_lt hp)
  refine ⟨by simpa [LoopSt.put] using obj_lt hp, ?_, ?_⟩
  · intro v' rt' mem' h
    rw [ho, if_pos rfl] at h; cases h
  · intro t ms h
    rw [ho] at h
    by_cases x : t = p
    · rw [if_pos x] at h; cases h
    · rw [if_neg x] at h
      exact hno t ms h

theorem winv_sched {s : LoopSt} (W : WInv s) {p : Nat} {v rt mem} (hp : s.obj p = some (.tcp true v rt mem)) (ok : Bool) :
    WInv (s.scheduleReconnect p rt mem ok) :=
  winv_sched_of W hp (fun t ms => W.conn p v rt mem t ms hp) ok

theorem winv_invalid {s : LoopSt} (W : WInv s) {p : Nat} {v rt mem} (hp : s.obj p = some (.tcp true v rt mem)) :
    WInv (s.put p (some (.tcp true false rt mem))) :=
  winv_put W hp Iff.rfl (by intro ms e h; cases h) (fun _ _ _ _ => ⟨v, rt, mem, rfl⟩)

theorem winv_mark {s : LoopSt} (W : WInv s) {p : Nat} {r ms cb} (hp : s.obj p = some (.timer r ms cb)) :
    WInv (s.put p (some (.timer true ms cb))) :=
  winv_put W hp Iff.rfl (by intro ms e h; cases h) (by intro v rt mem h; cases h)

theorem winv_act {s s' : LoopSt} (W : WInv s) {a : Act} (ha : s.act a = some s') : WInv s' := by
  cases a with
  | write q r ok =>
    simp only [LoopSt.act] at ha
    split at ha
    · split at ha
      · cases ha
      · rename_i hq
        split at ha
        · cases ha
          by_cases hr : (‹Int› : Int) > 0
          · rw [if_pos hr]; exact winv_congr (winv_sched W hq ok) rfl rfl
          · rw [if_neg hr]; exact winv_congr (winv_invalid W hq) rfl rfl
        · cases ha; exact W
      · cases ha; exact W
    · cases ha; exact W
  | setSlot k ms ok =>
    simp only [LoopSt.act] at ha
    cases ha
    exact winv_congr (winv_addTimeout W ms (.slot k) ok (by intro e h; cases h)) rfl rfl
  | clearSlot k =>
    simp only [LoopSt.act] at ha
    split at ha
    · cases ha; exact W
    · simp only [LoopSt.delTimeout] at ha
      split at ha
      · rename_i hq
        cases ha
        exact winv_congr (winv_mark W hq) rfl rfl
      · cases ha
  | modSlot k ms =>
    simp only [LoopSt.act] at ha
    split at ha
    · cases ha; exact W
    · simp only [LoopSt.modTimeout] at ha
      split at ha
      · rename_i m _ hq
        cases ha
        refine winv_put W hq Iff.rfl ?_ (by intro v rt mem h; cases h)
        intro ms' e h
        cases h
        exact ⟨m, rfl⟩
      · cases ha

theorem winv_acts : ∀ {as : List Act} {s s' : LoopSt}, WInv s → s.acts as = some s' → WInv s'
  | [], _, _, W, ha => by cases ha; exact W
  | a :: as, s, s', W, ha => by
    simp only [LoopSt.acts] at ha
    cases h1 : s.act a with
    | none => rw [h1] at ha; cases ha
    | some s1 => rw [h1] at ha; exact winv_acts (winv_act W h1) ha

/-- The reconnect timer `p` of `e` fired and the connection succeeded. -/
theorem winv_reconnect {s : LoopSt} (W : WInv s) {p e : Nat} {ms : UInt32} {fd v rt mem}
    (hp : s.obj p = some (.timer false ms (.retry e))) (he : s.obj e = some (.tcp fd v rt mem)) :
    WInv (({ s.put e (some (.tcp true true rt mem)) with poll := e :: s.poll.filter (· ≠ e) } : LoopSt).put p
      (some (.timer true ms (.retry e)))) := by
  have hpe : p ≠ e := by rintro rfl; rw [hp] at he; cases he
  have hlen : (({ s.put e (some (.tcp true true rt mem)) with poll := e :: s.poll.filter (· ≠ e) } : LoopSt).put p
      (some (.timer true ms (.retry e)))).heap.length = s.heap.length := by simp [LoopSt.put]
  have ho : ∀ q, (({ s.put e (some (.tcp true true rt mem)) with poll := e :: s.poll.filter (· ≠ e) } : LoopSt).put p
      (some (.timer true ms (.retry e)))).obj q =
      if q = p then some (.timer true ms (.retry e)) else if q = e then some (.tcp true true rt mem) else s.obj q := by
    intro q
    rw [obj_put _ p q _ (by simpa [LoopSt.put] using obj_lt hp)]
    congr 1
    exact obj_put s e q _ (obj_lt he)
  have back : ∀ {t m x}, (if t = p then some (.timer true ms (.retry e)) else
      if t = e then some (.tcp true true rt mem) else s.obj t) = some (.timer false m (.retry x)) →
      t ≠ p ∧ s.obj t = some (.timer false m (.retry x)) := by
    intro t m x h
    by_cases h1 : t = p
    · rw [if_pos h1] at h; cases h
    · rw [if_neg h1] at h
      by_cases h2 : t = e
      · rw [if_pos h2] at h; cases h
      · rw [if_neg h2] at h; exact ⟨h1, h⟩
  refine ⟨?_, ?_, ?_, ?_, ?_, ?_⟩
  · intro q o h
    rw [ho] at h
    show q ∈ e :: s.poll.filter (· ≠ e) ↔ _
    by_cases h1 : q = p
    · rw [if_pos h1] at h
      cases h
      have := (W.reg p _ hp).mpr trivial
      simp [h1, hpe, this, Obj.hasFd]
    · rw [if_neg h1] at h
      by_cases h2 : q = e
      · rw [if_pos h2] at h
        cases h
        simp [h2, Obj.hasFd]
      · rw [if_neg h2] at h
        rw [← W.reg q o h]
        simp [h2]
  · intro x t t' m m' h h'
    rw [ho] at h h'
    exact W.one x t t' m m' (back h).2 (back h').2
  · intro x v rt mem t m h h'
    rw [ho] at h h'
    obtain ⟨b1, b2⟩ := back h'
    by_cases h1 : x = p
    · rw [if_pos h1] at h; cases h
    · rw [if_neg h1] at h
      by_cases h2 : x = e
      · subst h2
        exact b1 (W.one x t p m ms b2 hp)
      · rw [if_neg h2] at h
        exact W.conn x v rt mem t m h b2
  · show (e :: s.poll.filter (· ≠ e)).Nodup
    exact List.nodup_cons.mpr ⟨by simp, W.nd.filter _⟩
  · intro q hq
    rw [hlen]
    rcases List.mem_cons.mp hq with rfl | hq
    · exact obj_lt he
    · exact W.lt q (List.mem_filter.mp hq).1
  · intro t m x h
    rw [ho] at h
    rw [hlen]
    exact W.tgt t m x (back h).2

theorem winv_handleIn {s s' : LoopSt} {q as stop ex co ok} (W : WInv s)
    (hs : s.handleIn q as stop ex co ok = some s') : WInv s' := by
  unfold LoopSt.handleIn at hs
  split at hs
  · cases hs
  · exact winv_acts W hs
  · split at hs
    · cases hs
    · rename_i s1 h1
      have h2 := winv_acts W h1
      split at hs
      · rename_i hq
        split at hs
        · cases hs; exact h2
        · split at hs <;> (cases hs; exact winv_congr h2 rfl rfl)
        · split at hs
          · cases hs; exact winv_sched h2 hq ok
          · cases hs; exact winv_congr (winv_invalid h2 hq) rfl rfl
      · split at hs <;> (cases hs; exact winv_congr h2 rfl rfl)
      · cases hs
  · rename_i rm ms cb ht
    split at hs
    · rename_i hex
      split at hs
      · exact winv_acts W hs
      · rename_i _ e
        have hrm : rm = false := hex.2
        subst hrm
        split at hs
        · rename_i fd v rt mem he
          split at hs
          · simp only [] at hs
            split at hs
            · rename_i hq
              cases hs
              have hpe : q ≠ e := by rintro rfl; rw [ht] at he; cases he
              have h3 := hq
              change (s.put e (some (.tcp true true rt mem))).obj q = _ at h3
              rw [obj_put s e q _ (obj_lt he), if_neg hpe, ht] at h3
              cases h3
              exact winv_reconnect W ht he
            · cases hs
          · cases hs
            cases fd with
            | true => exact absurd ht (W.conn e v rt mem q ms he)
            | false =>
              exact winv_put W he Iff.rfl (by intro ms e h; cases h) (by intro v rt mem h; cases h)
        · cases hs
    · cases hs; exact W

/-- A new endpoint at the end of the heap. -/
theorem winv_new {s : LoopSt} (W : WInv s) (o : Obj) (ht : ∀ ms e, o ≠ .timer false ms (.retry e)) (polled : Bool)
    (hf : o.hasFd ↔ polled = true) (eps : List Nat) :
    WInv { s with heap := s.heap ++ [some o], endpoints := eps,
                  poll := if polled then s.heap.length :: s.poll else s.poll } := by
  have hn : s.heap.length ∉ s.poll := fun h => Nat.lt_irrefl _ (W.lt _ h)
  have hm : ∀ q, q ∈ (if polled then s.heap.length :: s.poll else s.poll) ↔
      (q = s.heap.length ∧ polled = true) ∨ q ∈ s.poll := by
    intro q
    cases polled <;> simp
  have back : ∀ {t m x}, (if t = s.heap.length then some o else s.obj t) = some (.timer false m (.retry x)) →
      s.obj t = some (.timer false m (.retry x)) := by
    intro t m x h
    by_cases h1 : t = s.heap.length
    · rw [if_pos h1] at h
      exact absurd (Option.some.inj h) (ht m x)
    · rwa [if_neg h1] at h
  have ho : ∀ q, ({ s with heap := s.heap ++ [some o], endpoints := eps,
                           poll := if polled then s.heap.length :: s.poll else s.poll } : LoopSt).obj q =
      if q = s.heap.length then some o else s.obj q := fun q => obj_append s q (some o)
  refine ⟨?_, ?_, ?_, ?_, ?_, ?_⟩
  · intro q o' h
    rw [ho] at h
    rw [hm]
    by_cases h1 : q = s.heap.length
    · rw [if_pos h1] at h
      cases h
      rw [hf, h1]
      simp [hn]
    · rw [if_neg h1] at h
      rw [← W.reg q o' h]
      simp [h1]
  · intro x t t' m m' h h'
    rw [ho] at h h'
    exact W.one x t t' m m' (back h) (back h')
  · intro x v rt mem t m h h'
    rw [ho] at h h'
    have b := back h'
    by_cases h1 : x = s.heap.length
    · exact absurd (W.tgt t m x b) (by omega)
    · rw [if_neg h1] at h
      exact W.conn x v rt mem t m h b
  · show (if polled then s.heap.length :: s.poll else s.poll).Nodup
    cases polled
    · exact W.nd
    · exact List.nodup_cons.mpr ⟨hn, W.nd⟩
  · intro q hq
    rcases (hm q).mp hq with ⟨h1, _⟩ | h1
    · simp [h1]
    · have := W.lt q h1
      simp; omega
  · intro t m x h
    rw [ho] at h
    have := W.tgt t m x (back h)
    simp; omega

theorem winv_accept {s : LoopSt} (W : WInv s) (ok : Bool) : WInv (s.accept ok) := by
  cases ok with
  | false => exact W
  | true => exact winv_new W (.tcp true true 0 []) (by intro ms e h; cases h) true (by simp [Obj.hasFd]) _

theorem winv_handle {s s' : LoopSt} {e : PollEv} (W : WInv s) (hs : s.handle e = some s') : WInv s' := by
  cases e with
  | listener ok => simp only [LoopSt.handle] at hs; cases hs; exact winv_accept W ok
  | obj q isIn as stop ex co ok isOut isErr =>
    simp only [LoopSt.handle] at hs
    split at hs
    · cases hs
    · rename_i s1 h1
      have h2 : WInv s1 := by
        cases isIn with
        | true => exact winv_handleIn W h1
        | false => cases h1; exact W
      split at hs
      · split at hs
        · cases hs
        · cases hs; exact h2
        · cases hs; exact winv_congr h2 rfl rfl
      · cases hs; exact h2

theorem winv_handleAll : ∀ {evs : List PollEv} {s s' : LoopSt}, WInv s → s.handleAll evs = some s' → WInv s'
  | [], _, _, W, ha => by cases ha; exact W
  | e :: evs, s, s', W, ha => by
    simp only [LoopSt.handleAll] at ha
    cases h1 : s.handle e with
    | none => rw [h1] at ha; cases ha
    | some s1 => rw [h1] at ha; exact winv_handleAll (winv_handle W h1) ha

/-- Objects are destroyed together with their registration. -/
theorem winv_destroy {s s' : LoopSt} (W : WInv s) (gone : Nat → Prop) (hl : s'.heap.length = s.heap.length)
    (hg : ∀ q, gone q → s'.obj q = none) (hk : ∀ q, ¬ gone q → s'.obj q = s.obj q ∧ (q ∈ s'.poll ↔ q ∈ s.poll))
    (hs : ∀ q ∈ s'.poll, q ∈ s.poll) (hn : s'.poll.Nodup) : WInv s' := by
  have back : ∀ {q o}, s'.obj q = some o → ¬ gone q ∧ s.obj q = some o := by
    intro q o h
    have : ¬ gone q := fun g => by rw [hg q g] at h; cases h
    exact ⟨this, (hk q this).1 ▸ h⟩
  refine ⟨?_, ?_, ?_, hn, ?_, ?_⟩
  · intro q o h
    exact (hk q (back h).1).2.trans (W.reg q o (back h).2)
  · intro x t t' m m' h h'
    exact W.one x t t' m m' (back h).2 (back h').2
  · intro x v rt mem t m h h'
    exact W.conn x v rt mem t m (back h).2 (back h').2
  · intro q hq; rw [hl]; exact W.lt q (hs q hq)
  · intro t m x h; rw [hl]; exact W.tgt t m x (back h).2

theorem winv_release {s : LoopSt} (W : WInv s) (p : Nat) : WInv (s.release p) := by
  unfold LoopSt.release
  split
  · exact W
  · refine winv_destroy W (· = p) (by simp [LoopSt.put]) ?_ ?_ ?_ (W.nd.filter _)
    · rintro q rfl
      show (s.put q none).obj q = none
      unfold LoopSt.obj LoopSt.put
      by_cases l : q < s.heap.length
      · simp [l]
      · rw [List.getElem?_eq_none (by simpa using Nat.le_of_not_lt l)]; rfl
    · intro q hq
      refine ⟨?_, by simp [hq]⟩
      show (s.put p none).obj q = s.obj q
      unfold LoopSt.obj LoopSt.put
      simp [Ne.symm hq]
    · intro q hq
      exact (List.mem_filter.mp hq).1

theorem winv_releases : ∀ (ps : List Nat) {s : LoopSt}, WInv s → WInv (ps.foldl LoopSt.release s)
  | [], _, W => W
  | p :: ps, _, W => winv_releases ps (winv_release W p)

theorem winv_sweep {s : LoopSt} (W : WInv s) : WInv s.sweep := by
  refine winv_destroy W (· ∈ s.timers.filter s.marked) (by simp [LoopSt.sweep]) ?_ ?_ ?_ (W.nd.filter _)
  · intro q hq
    show ((s.heap.mapIdx (fun i o => if i ∈ s.timers.filter s.marked then none else o))[q]?).join = none
    rw [List.getElem?_mapIdx]
    cases s.heap[q]? <;> simp only [Option.map_none, Option.map_some, if_pos hq, Option.join_none, Option.join_some]
  · intro q hq
    refine ⟨?_, ?_⟩
    · show ((s.heap.mapIdx (fun i o => if i ∈ s.timers.filter s.marked then none else o))[q]?).join = (s.heap[q]?).join
      rw [List.getElem?_mapIdx]
      cases s.heap[q]? <;> simp only [Option.map_none, Option.map_some, if_neg hq]
    · show q ∈ s.poll.filter (· ∉ s.timers.filter s.marked) ↔ _
      simp only [List.mem_filter (p := fun x => decide (x ∉ s.timers.filter s.marked)), hq, not_false_eq_true,
        decide_true, and_true]
  · intro q hq
    exact (List.mem_filter.mp hq).1

theorem winv_iteration {s s' : LoopSt} {evs : List PollEv} (W : WInv s) (hs : s.iteration evs = some s') : WInv s' := by
  unfold LoopSt.iteration at hs
  cases h1 : s.handleAll evs with
  | none => rw [h1] at hs; cases hs
  | some s1 =>
    rw [h1] at hs
    cases hs
    have W1 := winv_handleAll W h1
    refine winv_sweep ?_
    split
    · exact winv_congr (winv_releases _ (s := { s1 with endpoints := s1.endpoints.filter (fun p => !s1.invalid p) })
        (winv_congr W1 rfl rfl)) rfl rfl
    · exact W1

theorem winv_addEndpoint {s : LoopSt} (W : WInv s) (c : EpConf) : WInv (s.addEndpoint c) := by
  cases c with
  | plain ms => exact winv_new W (.plain ms) (by intro ms e h; cases h) true (by simp [Obj.hasFd]) _
  | tcp rt co ok ms =>
    have W1 := winv_new W (.tcp co true rt ms) (by intro ms e h; cases h) co (by simp [Obj.hasFd])
      (s.endpoints ++ [s.heap.length])
    cases co with
    | true => exact W1
    | false =>
      simp only [LoopSt.addEndpoint, Bool.false_eq_true, if_false]
      simp only [Bool.false_eq_true, if_false] at W1
      split
      · refine winv_sched_of W1 ((obj_append s _ _).trans (if_pos rfl)) ?_ ok
        intro t m h
        have h' : (if t = s.heap.length then some (Obj.tcp false true rt ms) else s.obj t) = _ := (obj_append s t _).symm.trans h
        by_cases x : t = s.heap.length
        · rw [if_pos x] at h'; cases h'
        · rw [if_neg x] at h'
          exact absurd (W.tgt t m _ h') (by omega)
      · exact W1

theorem winv_configured (cs : List EpConf) : WInv (LoopSt.configured cs) := by
  unfold LoopSt.configured
  have h0 : WInv ({} : LoopSt) := by
    have hn : ∀ p o, ({} : LoopSt).obj p ≠ some o := by intro p o h; simp [LoopSt.obj] at h
    exact ⟨fun p o h => absurd h (hn p o), fun e t t' ms ms' h => absurd h (hn _ _), fun e v rt mem t ms h => absurd h (hn _ _),
      List.nodup_nil, fun p hp => (by cases hp), fun t ms e h => absurd h (hn _ _)⟩
  have : ∀ (cs : List EpConf) (s : LoopSt), WInv s → WInv (cs.foldl LoopSt.addEndpoint s) := by
    intro cs
    induction cs with
    | nil => exact fun s W => W
    | cons c cs ih => exact fun s W => ih _ (winv_addEndpoint W c)
  exact this cs _ h0

theorem winv_runs {s s' : LoopSt} {bs} (R : Runs s bs s') (W : WInv s) : WInv s' := by
  induction R with
  | done s => exact W
  | batch _ hi _ ih => exact ih (winv_iteration W hi)

/-! ### The property -/

/-- **C134** (registration succeeds): after every history — links connecting, being lost and connecting again, clients coming and
going, timers started, changed and cancelled, timers that cannot be created — the router waits for exactly the open descriptors,
each registered once. -/
theorem C134_listens_partial {cs setup bs s} (R : RunsFrom cs setup bs s) : ListensExactly s := by
  have H := runsFrom_inv R
  obtain ⟨s0, e0, R⟩ := R
  have W := winv_runs R (winv_acts (winv_configured cs) e0)
  refine ⟨W.nd, fun p => ⟨fun hp => ?_, fun hp => ?_⟩⟩
  · obtain ⟨o, ho⟩ := H.poll p hp
    have hf := (W.reg p o ho).mp hp
    cases o with
    | timer r ms cb => exact .inl ⟨r, ms, cb, ho⟩
    | tcp fd v rt mem => cases hf; exact .inr (.inl ⟨v, rt, mem, ho⟩)
    | plain mem => exact .inr (.inr ⟨mem, ho⟩)
  · rcases hp with ⟨r, ms, cb, ho⟩ | ⟨v, rt, mem, ho⟩ | ⟨mem, ho⟩
    · exact (W.reg p _ ho).mpr trivial
    · exact (W.reg p _ ho).mpr rfl
    · exact (W.reg p _ ho).mpr trivial

/-! ### Registration that fails -/

/-- Not a timer, not a TCP client that reconnects, and not registered. -/
structure Deaf (s : LoopSt) (p : Nat) : Prop where
  lt : p < s.heap.length
  out : p ∉ s.poll
  once : ∀ fd v rt mem, s.obj p = some (.tcp fd v rt mem) → rt ≤ 0
  ep : ∀ r ms cb, s.obj p ≠ some (.timer r ms cb)

theorem deaf_congr {s s' : LoopSt} {p : Nat} (D : Deaf s p) (hh : s'.heap = s.heap) (hp : s'.poll = s.poll) : Deaf s' p := by
  have ho : ∀ q, s'.obj q = s.obj q := fun q => by unfold LoopSt.obj; rw [hh]
  exact ⟨hh ▸ D.lt, hp ▸ D.out, fun fd v rt mem h => D.once fd v rt mem (ho p ▸ h), fun r ms cb h => D.ep r ms cb (ho p ▸ h)⟩

theorem deaf_put {s : LoopSt} {p q : Nat} {o : Option Obj} (D : Deaf s p) (hlt : q < s.heap.length)
    (h1 : ∀ fd v rt mem, o = some (.tcp fd v rt mem) → q = p → rt ≤ 0)
    (h2 : ∀ r ms cb, o = some (.timer r ms cb) → q ≠ p) : Deaf (s.put q o) p := by
  have ho := obj_put s q p o hlt
  refine ⟨by simpa [LoopSt.put] using D.lt, D.out, ?_, ?_⟩
  · intro fd v rt mem h
    rw [ho] at h
    by_cases x : p = q
    · rw [if_pos x] at h; exact h1 fd v rt mem h x.symm
    · rw [if_neg x] at h; exact D.once fd v rt mem h
  · intro r ms cb h
    rw [ho] at h
    by_cases x : p = q
    · rw [if_pos x] at h; exact h2 r ms cb h x.symm
    · rw [if_neg x] at h; exact D.ep r ms cb h

theorem deaf_tcp {s : LoopSt} {p q : Nat} {fd v rt mem} (D : Deaf s p) (hq : s.obj q = some (.tcp fd v rt mem)) (fd' v' : Bool) :
    Deaf (s.put q (some (.tcp fd' v' rt mem))) p := by
  refine deaf_put D (obj_lt hq) ?_ (by intro r ms cb h; cases h)
  intro fd1 v1 rt1 mem1 h hqp
  cases h
  subst hqp
  exact D.once _ _ _ _ hq

theorem deaf_timer {s : LoopSt} {p q : Nat} {r ms cb} (D : Deaf s p) (hq : s.obj q = some (.timer r ms cb)) (o : Obj) :
    Deaf (s.put q (some o)) p := by
  have hne : q ≠ p := by rintro rfl; exact D.ep r ms cb hq
  exact deaf_put D (obj_lt hq) (fun _ _ _ _ _ h => absurd h hne) (fun _ _ _ _ => hne)

theorem deaf_addTimeout {s : LoopSt} {p : Nat} (D : Deaf s p) (ms : UInt32) (cb : TCb) (ok : Bool) :
    Deaf (s.addTimeout ms cb ok).1 p := by
  cases ok with
  | false => exact D
  | true =>
    have hne : p ≠ s.heap.length := by have := D.lt; omega
    have ho : (s.addTimeout ms cb true).1.obj p = s.obj p := by rw [addTimeout_obj, if_neg hne]
    refine ⟨by simp [LoopSt.addTimeout]; have := D.lt; omega, ?_, fun fd v rt mem h => D.once fd v rt mem (ho ▸ h),
      fun r ms cb h => D.ep r ms cb (ho ▸ h)⟩
    intro h
    rcases List.mem_cons.mp h with h | h
    · exact hne h
    · exact D.out h

theorem deaf_sched {s : LoopSt} {p q : Nat} {fd v rt mem} (D : Deaf s p) (hq : s.obj q = some (.tcp fd v rt mem)) (ok : Bool) :
    Deaf (s.scheduleReconnect q rt mem ok) p := by
  have h1 := deaf_tcp D hq false true
  refine deaf_addTimeout (s := { s.put q (some (.tcp false true rt mem)) with poll := s.poll.filter (· ≠ q) })
    ⟨h1.lt, fun h => D.out (List.mem_filter.mp h).1, h1.once, h1.ep⟩ _ _ ok

theorem deaf_act {s s' : LoopSt} {p : Nat} (D : Deaf s p) {a : Act} (ha : s.act a = some s') : Deaf s' p := by
  cases a with
  | write q r ok =>
    simp only [LoopSt.act] at ha
    split at ha
    · split at ha
      · cases ha
      · rename_i hq
        split at ha
        · cases ha
          by_cases hr : (‹Int› : Int) > 0
          · rw [if_pos hr]; exact deaf_congr (deaf_sched D hq ok) rfl rfl
          · rw [if_neg hr]; exact deaf_congr (deaf_tcp D hq true false) rfl rfl
        · cases ha; exact D
      · cases ha; exact D
    · cases ha; exact D
  | setSlot k ms ok =>
    simp only [LoopSt.act] at ha
    cases ha
    exact deaf_congr (deaf_addTimeout D ms (.slot k) ok) rfl rfl
  | clearSlot k =>
    simp only [LoopSt.act] at ha
    split at ha
    · cases ha; exact D
    · simp only [LoopSt.delTimeout] at ha
      split at ha
      · rename_i hq
        cases ha
        exact deaf_congr (deaf_timer D hq _) rfl rfl
      · cases ha
  | modSlot k ms =>
    simp only [LoopSt.act] at ha
    split at ha
    · cases ha; exact D
    · simp only [LoopSt.modTimeout] at ha
      split at ha
      · rename_i hq
        cases ha
        exact deaf_timer D hq _
      · cases ha

theorem deaf_acts : ∀ {as : List Act} {s s' : LoopSt} {p : Nat}, Deaf s p → s.acts as = some s' → Deaf s' p
  | [], _, _, _, D, ha => by cases ha; exact D
  | a :: as, s, s', p, D, ha => by
    simp only [LoopSt.acts] at ha
    cases h1 : s.act a with
    | none => rw [h1] at ha; cases ha
    | some s1 => rw [h1] at ha; exact deaf_acts (deaf_act D h1) ha

theorem deaf_handleIn {s s' : LoopSt} {p q as stop ex co ok} (H : LInv s) (D : Deaf s p)
    (hs : s.handleIn q as stop ex co ok = some s') : Deaf s' p := by
  unfold LoopSt.handleIn at hs
  split at hs
  · cases hs
  · exact deaf_acts D hs
  · split at hs
    · cases hs
    · rename_i s1 h1
      have h2 := deaf_acts D h1
      split at hs
      · rename_i hq
        split at hs
        · cases hs; exact h2
        · split at hs <;> (cases hs; exact deaf_congr h2 rfl rfl)
        · split at hs
          · cases hs; exact deaf_sched h2 hq ok
          · cases hs; exact deaf_congr (deaf_tcp h2 hq true false) rfl rfl
      · split at hs <;> (cases hs; exact deaf_congr h2 rfl rfl)
      · cases hs
  · rename_i rm ms cb ht
    split at hs
    · rename_i hex
      split at hs
      · exact deaf_acts D hs
      · rename_i _ e
        have hrm : rm = false := hex.2
        subst hrm
        have hne : p ≠ e := by
          rintro rfl
          obtain ⟨fd, v, rt, mem, he, hrt⟩ := H.retry _ _ _ ht
          have := D.once fd v rt mem he
          omega
        split at hs
        · rename_i rt mem he
          split at hs
          · simp only [] at hs
            split at hs
            · rename_i hq
              cases hs
              have h1 := deaf_tcp D he true true
              have h3 : Deaf { s.put e (some (.tcp true true rt mem)) with poll := e :: s.poll.filter (· ≠ e) } p := by
                refine ⟨h1.lt, ?_, h1.once, h1.ep⟩
                intro h
                rcases List.mem_cons.mp h with h | h
                · exact hne h
                · exact D.out (List.mem_filter.mp h).1
              exact deaf_timer h3 hq _
            · cases hs
          · cases hs
            exact deaf_tcp D he _ _
        · cases hs
    · cases hs; exact D

theorem deaf_handle {s s' : LoopSt} {p : Nat} {e : PollEv} (H : LInv s) (D : Deaf s p) (hs : s.handle e = some s') :
    Deaf s' p := by
  cases e with
  | listener ok =>
    simp only [LoopSt.handle] at hs
    cases hs
    cases ok with
    | false => exact D
    | true =>
      have hne : p ≠ s.heap.length := by have := D.lt; omega
      have ho : (s.accept true).obj p = s.obj p := (obj_append s p (some (.tcp true true 0 []))).trans (if_neg hne)
      refine ⟨by simp [LoopSt.accept]; have := D.lt; omega, ?_, fun fd v rt mem h => D.once fd v rt mem (ho ▸ h),
        fun r ms cb h => D.ep r ms cb (ho ▸ h)⟩
      intro h
      rcases List.mem_cons.mp h with h | h
      · exact hne h
      · exact D.out h
  | obj q isIn as stop ex co ok isOut isErr =>
    simp only [LoopSt.handle] at hs
    split at hs
    · cases hs
    · rename_i s1 h1
      have h2 : Deaf s1 p := by
        cases isIn with
        | true => exact deaf_handleIn H D h1
        | false => cases h1; exact D
      split at hs
      · split at hs
        · cases hs
        · cases hs; exact h2
        · cases hs; exact deaf_congr h2 rfl rfl
      · cases hs; exact h2

theorem deaf_handleAll : ∀ {evs : List PollEv} {s s' : LoopSt} {p : Nat}, LInv s → (∀ e ∈ evs, EvAlive s e) →
    Deaf s p → s.handleAll evs = some s' → Deaf s' p
  | [], _, _, _, _, _, D, ha => by cases ha; exact D
  | e :: evs, s, s', p, H, hal, D, ha => by
    obtain ⟨s1, e1, S⟩ := handle_step H e (hal e List.mem_cons_self)
    simp only [LoopSt.handleAll, e1, Option.bind_some] at ha
    exact deaf_handleAll S.inv (fun x hx => (hal x (List.mem_cons_of_mem _ hx)).mono S.mono) (deaf_handle H D e1) ha

theorem deaf_runs {s s' : LoopSt} {p : Nat} {bs} (R : Runs s bs s') (H : LInv s) (D : Deaf s p) : Deaf s' p := by
  induction R with
  | done s => exact D
  | @batch s s1 s2 evs rest hr hi _ ih =>
    obtain ⟨s3, ha, e, S⟩ := iteration_step H _ hr
    rw [hi] at e
    cases e
    have D1 := deaf_handleAll H (fun x hx => Reportable.alive H (hr x hx)) D ha
    have F := finish_finished S.inv
    refine ih (finish_inv S.inv).1 ⟨?_, fun h => D1.out (F.poll p h).1, ?_, ?_⟩
    · have : s3.finish.heap.length = s3.heap.length := by
        show (LoopSt.sweep _).heap.length = _
        simp only [LoopSt.sweep, List.length_mapIdx]
        split
        · exact (release_all _ { s3 with endpoints := s3.endpoints.filter (fun p => !s3.invalid p) }).len
        · rfl
      rw [this]; exact D1.lt
    · intro fd v rt mem h
      rcases F.obj p with e | ⟨_, e⟩
      · exact D1.once fd v rt mem (e ▸ h)
      · rw [e] at h; cases h
    · intro r ms cb h
      rcases F.obj p with e | ⟨_, e⟩
      · exact D1.ep r ms cb (e ▸ h)
      · rw [e] at h; cases h

/-- An endpoint that is not a TCP endpoint stays among the endpoints. -/
theorem plain_runs {s s' : LoopSt} {p : Nat} {bs} (R : Runs s bs s') (H : LInv s) {mem} (hp : s.obj p = some (.plain mem))
    (he : p ∈ s.endpoints) : s'.obj p = some (.plain mem) ∧ p ∈ s'.endpoints := by
  induction R with
  | done s => exact ⟨hp, he⟩
  | @batch s s1 s2 evs rest hr hi _ ih =>
    obtain ⟨s3, ha, e, S⟩ := iteration_step H _ hr
    rw [hi] at e
    cases e
    obtain ⟨o', h1, h2⟩ := S.mono.obj p _ hp
    have h3 : o' = .plain mem := by
      cases o' with
      | timer => exact absurd h2 (by simp [SameObj])
      | tcp => exact absurd h2 (by simp [SameObj])
      | plain m => simp only [SameObj] at h2; rw [h2]
    subst h3
    have hi3 : s3.invalid p = false := by simp [LoopSt.invalid, h1]
    have hm3 : s3.marked p = false := by simp [LoopSt.marked, h1]
    have F := finish_finished S.inv
    refine ih (finish_inv S.inv).1 ?_ ?_
    · rcases F.obj p with e | ⟨e, _⟩
      · rw [e, h1]
      · rcases e with ⟨e, _⟩ | e
        · rw [hi3] at e; cases e
        · rw [hm3] at e; cases e
    · rw [F.eps]
      obtain ⟨new, en, _⟩ := S.mono.eps
      exact List.mem_filter.mpr ⟨by rw [en]; exact List.mem_append.mpr (.inl he), by simp [hi3]⟩

/-- **C134 is false** when `epoll_ctl` refuses a client that has just been accepted: in whatever state the router is (with WInv and
LInv, as every reachable one), the client is among the endpoints, so it is sent what the others send; its descriptor is open, and
after every further history it is not waited for: nothing the client sends is ever read, and its leaving is not noticed either. -/
theorem C134_violated_client {cs setup bs s} (R : RunsFrom cs setup bs s) :
    s.heap.length ∈ (s.acceptReg true false).endpoints ∧ HasFd (s.acceptReg true false) s.heap.length ∧
    ∀ bs' s', Runs (s.acceptReg true false) bs' s' → s.heap.length ∉ s'.poll := by
  have H := runsFrom_inv R
  have ho : ∀ q, (s.acceptReg true false).obj q = if q = s.heap.length then some (.tcp true true 0 []) else s.obj q :=
    fun q => obj_append s q _
  have H1 := (step_accept H true).inv
  have H2 : LInv (s.acceptReg true false) :=
    ⟨fun p hp => H1.poll p (List.mem_cons_of_mem _ hp), H1.eps, H1.tim, H1.slots, H1.retry, H1.valid, H1.flag⟩
  refine ⟨List.mem_append.mpr (.inr (List.mem_singleton.mpr rfl)), .inr (.inl ⟨true, 0, [], by rw [ho, if_pos rfl]⟩), ?_⟩
  intro bs' s' R'
  refine (deaf_runs R' H2 ⟨by simp [LoopSt.acceptReg, LoopSt.accept], ?_, ?_, ?_⟩).out
  · intro h
    exact Nat.lt_irrefl _ (by obtain ⟨o, h⟩ := H.poll _ h; exact obj_lt h)
  · intro fd v rt mem h
    rw [ho, if_pos rfl] at h
    cases h
    exact Int.le_refl _
  · intro r ms cb h
    rw [ho, if_pos rfl] at h
    cases h

/-- The same of a serial line or UDP endpoint at start: it stays an open endpoint for ever and is never waited for. -/
theorem C134_violated_start (mem : List Nat) (bs s') (R : Runs (LoopSt.configuredReg [(.plain mem, false)]) bs s') :
    0 ∈ s'.endpoints ∧ HasFd s' 0 ∧ 0 ∉ s'.poll := by
  have H1 := configured_inv [.plain mem]
  have H2 : LInv (LoopSt.configuredReg [(.plain mem, false)]) :=
    ⟨fun p hp => H1.poll p (List.mem_filter.mp hp).1, H1.eps, H1.tim, H1.slots, H1.retry, H1.valid, H1.flag⟩
  have ho : (LoopSt.configuredReg [(.plain mem, false)]).obj 0 = some (.plain mem) := rfl
  obtain ⟨h1, h2⟩ := plain_runs R H2 ho (by simp [LoopSt.configuredReg, LoopSt.addEndpointReg, LoopSt.addEndpoint])
  refine ⟨h2, .inr (.inr ⟨mem, h1⟩), (deaf_runs R H2 ⟨by simp [LoopSt.configuredReg, LoopSt.addEndpointReg, LoopSt.addEndpoint],
    ?_, ?_, ?_⟩).out⟩
  · intro h; simpa using (List.mem_filter.mp h).2
  · intro fd v rt mem' h; rw [ho] at h; cases h
  · intro r ms cb h; rw [ho] at h; cases h

/-- With registration succeeding this is the configuration of the other theorems. -/
theorem configuredReg_ok (cs : List EpConf) : LoopSt.configuredReg (cs.map (·, true)) = LoopSt.configured cs := by
  unfold LoopSt.configuredReg LoopSt.configured
  rw [List.foldl_map]
  rfl

/-! ### Samples -/

namespace Sample

/-- A serial line, a TCP client that is connected and one that is not. -/
def watchConf : List EpConf := [.plain [], .tcp 5 true true [], .tcp 5 false true []]

/-- The connected client loses its connection, the other one connects, a client is accepted. -/
def watchBatch : List PollEv :=
  [.obj 1 true [] .eof false false true false false, .obj 3 true [] .again true true true false false, .listener true]

end Sample

/-- The poll set before and after: object 3 is the timer of client 2, 4 that of client 1, 5 the accepted client. -/
example : (LoopSt.configured Sample.watchConf).poll = [3, 1, 0] := by decide

example : ((LoopSt.configured Sample.watchConf).iteration Sample.watchBatch).map (·.poll) = some [5, 2, 4, 0] := by decide

/-- The hypotheses of `C134_listens_partial` are met by that history. -/
example : ∃ s, RunsFrom Sample.watchConf [] [Sample.watchBatch] s ∧ ListensExactly s ∧ s.poll = [5, 2, 4, 0] := by
  have h0 : (LoopSt.configured Sample.watchConf).poll = [3, 1, 0] := by decide
  have h1 : ((LoopSt.configured Sample.watchConf).iteration Sample.watchBatch).map (·.poll) = some [5, 2, 4, 0] := by decide
  cases h : (LoopSt.configured Sample.watchConf).iteration Sample.watchBatch with
  | none => rw [h] at h1; cases h1
  | some s =>
    rw [h] at h1
    have R : RunsFrom Sample.watchConf [] [Sample.watchBatch] s := by
      refine ⟨_, rfl, .batch ?_ h (.done _)⟩
      intro e he
      simp only [Sample.watchBatch, List.mem_cons, List.not_mem_nil, or_false] at he
      rcases he with rfl | rfl | rfl
      · show 1 ∈ _; rw [h0]; decide
      · show 3 ∈ _; rw [h0]; decide
      · trivial
    exact ⟨s, R, C134_listens_partial R, Option.some.inj h1⟩

/-- The hypothesis of `C134_violated_start` is met by a history in which a client is accepted. -/
example : ∃ s, Runs (LoopSt.configuredReg [(.plain [], false)]) [[.listener true]] s :=
  ⟨_, .batch (by intro e he; cases List.mem_singleton.mp he; trivial) rfl (.done _)⟩

end Verif
