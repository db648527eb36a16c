import Verif.Props.Loop

/- Property C107: the lifetime of configured endpoints. -/

namespace Verif
open Spec

/-! ### Specification -/

/-- The endpoint object belongs to the configured endpoint. -/
def Spec.Of : EpConf → Obj → Prop
  | .plain ms, .plain ms' => ms = ms'
  | .tcp rt _ _ ms, .tcp _ _ rt' ms' => rt = rt' ∧ ms = ms'
  | _, _ => False

/-- UART, UDP and log endpoints, and TCP clients that reconnect. -/
def Spec.Permanent : EpConf → Prop
  | .plain _ => True
  | .tcp rt _ _ _ => rt > 0

/-! ### The poll set keeps all objects but TCP endpoints and timers -/

/-- `p` is an endpoint other than TCP and polled. -/
def PlainPolled (s : LoopSt) (p : Nat) : Prop := (∃ ms, s.obj p = some (.plain ms)) ∧ p ∈ s.poll

theorem plainPolled_put {s : LoopSt} {p q : Nat} {o o' : Obj} (h : PlainPolled s p) (hq : s.obj q = some o')
    (hn : ∀ ms, o' ≠ .plain ms) : PlainPolled (s.put q (some o)) p := by
  obtain ⟨⟨ms, hp⟩, hm⟩ := h
  refine ⟨⟨ms, ?_⟩, hm⟩
  rw [obj_put s q p (some o) (obj_lt hq)]
  by_cases e : p = q
  · subst e; rw [hp] at hq; cases hq; exact absurd rfl (hn ms)
  · rw [if_neg e, hp]

theorem plainPolled_addTimeout {s : LoopSt} {p : Nat} (h : PlainPolled s p) (ms : UInt32) (cb : TCb) (ok : Bool) :
    PlainPolled (s.addTimeout ms cb ok).1 p := by
  cases ok with
  | false => exact h
  | true =>
    obtain ⟨⟨m, hp⟩, hm⟩ := h
    refine ⟨⟨m, ?_⟩, List.mem_cons_of_mem _ hm⟩
    rw [addTimeout_obj]
    have := obj_lt hp
    rw [if_neg (by omega), hp]

theorem plainPolled_sched {s : LoopSt} {p q : Nat} {fd v rt mem} (h : PlainPolled s p)
    (hq : s.obj q = some (.tcp fd v rt mem)) (ok : Bool) : PlainPolled (s.scheduleReconnect q rt mem ok) p := by
  have h1 := plainPolled_put (o := .tcp false true rt mem) h hq (by simp)
  refine plainPolled_addTimeout (s := { s.put q (some (.tcp false true rt mem)) with poll := s.poll.filter (· ≠ q) })
    ⟨h1.1, ?_⟩ _ _ ok
  refine List.mem_filter.mpr ⟨h.2, ?_⟩
  obtain ⟨⟨ms, hp⟩, _⟩ := h
  have : p ≠ q := by intro e; subst e; rw [hp] at hq; cases hq
  simpa using this

theorem plainPolled_act {s s' : LoopSt} {p : Nat} (h : PlainPolled s p) {a : Act} (ha : s.act a = some s') :
    PlainPolled s' p := by
  cases a with
  | write q r ok =>
    simp only [LoopSt.act] at ha
    split at ha
    · split at ha
      · cases ha
      · rename_i hq
        split at ha
        · cases ha
          by_cases hr : (‹Int› : Int) > 0
          · rw [if_pos hr]; exact plainPolled_sched h hq ok
          · rw [if_neg hr]; exact plainPolled_put h hq (by simp)
        · cases ha; exact h
      · cases ha; exact h
    · cases ha; exact h
  | setSlot k ms ok =>
    simp only [LoopSt.act] at ha
    cases ha
    exact plainPolled_addTimeout h ms _ ok
  | clearSlot k =>
    simp only [LoopSt.act] at ha
    split at ha
    · cases ha; exact h
    · simp only [LoopSt.delTimeout] at ha
      split at ha
      · rename_i hq
        cases ha
        exact plainPolled_put h hq (by simp)
      · cases ha
  | modSlot k ms =>
    simp only [LoopSt.act] at ha
    split at ha
    · cases ha; exact h
    · simp only [LoopSt.modTimeout] at ha
      split at ha
      · rename_i hq
        cases ha
        exact plainPolled_put h hq (by simp)
      · cases ha

theorem plainPolled_acts : ∀ {as : List Act} {s s' : LoopSt} {p : Nat}, PlainPolled s p → s.acts as = some s' →
    PlainPolled s' p
  | [], _, _, _, h, ha => by cases ha; exact h
  | a :: as, s, s', p, h, ha => by
    simp only [LoopSt.acts] at ha
    cases h1 : s.act a with
    | none => rw [h1] at ha; cases ha
    | some s1 => rw [h1] at ha; exact plainPolled_acts (plainPolled_act h h1) ha

theorem plainPolled_handleIn {s s' : LoopSt} {p q as stop ex co ok} (h : PlainPolled s p)
    (hs : s.handleIn q as stop ex co ok = some s') : PlainPolled s' p := by
  unfold LoopSt.handleIn at hs
  split at hs
  · cases hs
  · exact plainPolled_acts h hs
  · split at hs
    · cases hs
    · rename_i s1 h1
      have h2 := plainPolled_acts h h1
      split at hs
      · rename_i hq
        split at hs
        · cases hs; exact h2
        · split at hs <;> (cases hs; exact h2)
        · split at hs
          · cases hs; exact plainPolled_sched h2 hq ok
          · cases hs; exact plainPolled_put h2 hq (by simp)
      · split at hs <;> (cases hs; exact h2)
      · cases hs
  · split at hs
    · split at hs
      · exact plainPolled_acts h hs
      · split at hs
        · rename_i e _ _ _ _ rt mem he
          split at hs
          · simp only [] at hs
            have h1 := plainPolled_put (o := .tcp true true rt mem) h he (by simp)
            split at hs
            · rename_i _ _ _ _ hq
              cases hs
              refine plainPolled_put ⟨h1.1, ?_⟩ hq (by simp)
              by_cases hpe : p = e
              · rw [hpe]; exact List.mem_cons_self
              · exact List.mem_cons_of_mem _ (List.mem_filter.mpr ⟨h.2, by simpa using hpe⟩)
            · cases hs
          · cases hs
            exact plainPolled_put h he (by simp)
        · cases hs
    · cases hs; exact h

theorem plainPolled_handle {s s' : LoopSt} {p : Nat} {e : PollEv} (h : PlainPolled s p) (hs : s.handle e = some s') :
    PlainPolled s' p := by
  cases e with
  | listener ok =>
    simp only [LoopSt.handle] at hs
    cases hs
    cases ok with
    | false => exact h
    | true =>
      obtain ⟨⟨ms, hp⟩, hm⟩ := h
      refine ⟨⟨ms, ?_⟩, List.mem_cons_of_mem _ hm⟩
      refine (obj_append s p (some (.tcp true true 0 []))).trans ?_
      have := obj_lt hp
      rw [if_neg (by omega), hp]
  | obj q isIn as stop ex co ok isOut isErr =>
    simp only [LoopSt.handle] at hs
    split at hs
    · cases hs
    · rename_i s1 h1
      have h2 : PlainPolled s1 p := by
        cases isIn with
        | true => exact plainPolled_handleIn h h1
        | false => cases h1; exact h
      split at hs
      · split at hs
        · cases hs
        · cases hs; exact h2
        · cases hs; exact h2
      · cases hs; exact h2

theorem plainPolled_handleAll : ∀ {evs : List PollEv} {s s' : LoopSt} {p : Nat}, PlainPolled s p →
    s.handleAll evs = some s' → PlainPolled s' p
  | [], _, _, _, h, ha => by cases ha; exact h
  | e :: evs, s, s', p, h, ha => by
    simp only [LoopSt.handleAll] at ha
    cases h1 : s.handle e with
    | none => rw [h1] at ha; cases ha
    | some s1 => rw [h1] at ha; exact plainPolled_handleAll (plainPolled_handle h h1) ha

/-! ### Permanent objects -/

/-- The object is not a timer, and reconnects if it is a TCP client. -/
def PermObj : Obj → Prop
  | .plain _ => True
  | .tcp _ _ rt _ => rt > 0
  | .timer _ _ _ => False

/-- `p` is an endpoint with this configuration; polled unless it is a TCP client. -/
def Lives (c : EpConf) (s : LoopSt) (p : Nat) : Prop :=
  p ∈ s.endpoints ∧ (∃ o, s.obj p = some o ∧ Of c o) ∧ ((∃ ms, c = .plain ms) → p ∈ s.poll)

theorem of_same {c : EpConf} {o o' : Obj} (h : Of c o) (hs : SameObj o o') : Of c o' := by
  cases c <;> cases o <;> cases o' <;> simp_all [Of, SameObj]

theorem lives_batch {c : EpConf} (hc : Permanent c) {s s1 : LoopSt} {evs : List PollEv} {ok : Prop} {p : Nat} (h : Lives c s p)
    (ha : s.handleAll evs = some s1) (S : StepOk ok s s1) : Lives c s1.finish p := by
  obtain ⟨hep, ⟨o, ho, hof⟩, hpoll⟩ := h
  obtain ⟨o1, ho1, hsame⟩ := S.mono.obj p o ho
  have hof1 := of_same hof hsame
  have hinv : s1.invalid p = false := by
    cases hi : s1.invalid p with
    | false => rfl
    | true =>
      obtain ⟨fd, rt, mem, he⟩ := (invalid_iff p).mp hi
      rw [ho1] at he
      cases he
      cases c with
      | plain _ => cases hof1
      | tcp rt' _ _ _ =>
        have hrt : rt > 0 := hof1.1 ▸ hc
        exact absurd (S.inv.valid p fd false rt mem ho1 hrt) (by simp)
  have hmark : s1.marked p = false := by
    cases hi : s1.marked p with
    | false => rfl
    | true =>
      obtain ⟨ms, cb, he⟩ := (marked_iff p).mp hi
      rw [ho1] at he
      cases he
      cases c <;> cases hof1
  have F := finish_finished S.inv
  refine ⟨?_, ⟨o1, ?_, hof1⟩, ?_⟩
  · rw [F.eps]
    exact List.mem_filter.mpr ⟨mono_ep S.mono hep, by simp [hinv]⟩
  · rcases F.obj p with e | ⟨e, _⟩
    · rw [e, ho1]
    · simp [hinv, hmark] at e
  · rintro ⟨ms, rfl⟩
    refine (F.keep p hinv hmark).mpr ?_
    have hpl : ∃ ms, s.obj p = some (.plain ms) := by
      cases o with
      | plain m => exact ⟨m, ho⟩
      | tcp _ _ _ _ => cases hof
      | timer _ _ _ => cases hof
    exact (plainPolled_handleAll ⟨hpl, hpoll ⟨ms, rfl⟩⟩ ha).2

theorem lives_runs {c : EpConf} (hc : Permanent c) {s s' : LoopSt} {bs} (R : Runs s bs s') (H : LInv s) {p : Nat} (h : Lives c s p) :
    Lives c s' p := by
  induction R with
  | done s => exact h
  | batch hr hi _ ih =>
    obtain ⟨s1, ha, e, S⟩ := iteration_step H _ hr
    rw [hi] at e
    cases e
    exact ih (finish_inv S.inv).1 (lives_batch hc h ha S)

/-- Setting up one endpoint. -/
theorem addEndpoint_lives {s : LoopSt} (c : EpConf) :
    (s.addEndpoint c).endpoints = s.endpoints ++ [s.heap.length] ∧ s.heap.length < (s.addEndpoint c).heap.length ∧
    Lives c (s.addEndpoint c) s.heap.length ∧ ∀ p d, p < s.heap.length → Lives d s p → Lives d (s.addEndpoint c) p := by
  have hold : ∀ p d, p < s.heap.length → (s.addEndpoint c).endpoints = s.endpoints ++ [s.heap.length] →
      (∀ q ∈ s.poll, q < s.heap.length → q ∈ (s.addEndpoint c).poll) → Lives d s p → Lives d (s.addEndpoint c) p := by
    intro p d hp he hq ⟨h1, ⟨o, h2, h3⟩, h4⟩
    refine ⟨by rw [he]; exact List.mem_append_left _ h1, ⟨o, ?_, h3⟩, fun hd => hq p (h4 hd) hp⟩
    rw [addEndpoint_old c hp, h2]
  cases c with
  | plain ms =>
    have ho : (s.addEndpoint (.plain ms)).obj s.heap.length = some (.plain ms) :=
      (obj_append s _ (some (.plain ms))).trans (if_pos rfl)
    refine ⟨rfl, by simp [LoopSt.addEndpoint], ⟨by simp [LoopSt.addEndpoint], ⟨_, ho, rfl⟩, ?_⟩, ?_⟩
    · intro _; simp [LoopSt.addEndpoint]
    · intro p d hp h
      exact hold p d hp rfl (fun q hq _ => List.mem_cons_of_mem _ hq) h
  | tcp rt co ok ms =>
    have hap : ∀ (poll : List Nat), LoopSt.obj { s with
        heap := s.heap ++ [some (.tcp co true rt ms)], endpoints := s.endpoints ++ [s.heap.length], poll := poll }
        s.heap.length = some (.tcp co true rt ms) :=
      fun poll => (obj_append s _ (some (.tcp co true rt ms))).trans (if_pos rfl)
    cases co with
    | true =>
      refine ⟨rfl, by simp [LoopSt.addEndpoint], ⟨by simp [LoopSt.addEndpoint], ⟨_, hap _, rfl, rfl⟩, ?_⟩, ?_⟩
      · rintro ⟨_, h⟩; cases h
      · intro p d hp h
        exact hold p d hp rfl (fun q hq _ => List.mem_cons_of_mem _ hq) h
    | false =>
      by_cases hr : rt > 0
      · have hs : s.addEndpoint (.tcp rt false ok ms) = LoopSt.scheduleReconnect { s with
            heap := s.heap ++ [some (.tcp false true rt ms)], endpoints := s.endpoints ++ [s.heap.length], poll := s.poll }
            s.heap.length rt ms ok := by simp [LoopSt.addEndpoint, hr]
        have he : (s.addEndpoint (.tcp rt false ok ms)).endpoints = s.endpoints ++ [s.heap.length] := by
          rw [hs, sched_split]; cases ok <;> rfl
        have hl : s.heap.length < (s.addEndpoint (.tcp rt false ok ms)).heap.length := by
          rw [hs, sched_split]; cases ok <;> simp [LoopSt.addTimeout, LoopSt.put]
        refine ⟨he, hl, ⟨by rw [he]; simp, ?_, ?_⟩, ?_⟩
        · rw [hs, sched_split]
          have h1 : LoopSt.obj { LoopSt.put { s with
              heap := s.heap ++ [some (.tcp false true rt ms)], endpoints := s.endpoints ++ [s.heap.length], poll := s.poll }
              s.heap.length (some (.tcp false true rt ms)) with
              poll := s.poll.filter (· ≠ s.heap.length), hangup := s.hangup } s.heap.length =
              some (.tcp false true rt ms) :=
            (obj_put _ _ _ _ (by simp)).trans (if_pos rfl)
          cases ok with
          | false => exact ⟨_, h1, rfl, rfl⟩
          | true => exact ⟨_, (addTimeout_obj _ _ _ _).trans ((if_neg (by simp [LoopSt.put])).trans h1), rfl, rfl⟩
        · rintro ⟨_, h⟩; cases h
        · intro p d hp h
          refine hold p d hp he ?_ h
          intro q hq hlt
          rw [hs, sched_split]
          have h1 : q ∈ s.poll.filter (· ≠ s.heap.length) := List.mem_filter.mpr ⟨hq, by simp; omega⟩
          cases ok with
          | false => exact h1
          | true => exact List.mem_cons_of_mem _ h1
      · have hs : s.addEndpoint (.tcp rt false ok ms) = { s with
            heap := s.heap ++ [some (.tcp false true rt ms)], endpoints := s.endpoints ++ [s.heap.length], poll := s.poll } := by
          simp [LoopSt.addEndpoint, hr]
        have he : (s.addEndpoint (.tcp rt false ok ms)).endpoints = s.endpoints ++ [s.heap.length] := by rw [hs]
        refine ⟨he, by rw [hs]; simp, ⟨by rw [he]; simp, ⟨.tcp false true rt ms, by rw [hs]; exact hap _, rfl, rfl⟩, ?_⟩, ?_⟩
        · rintro ⟨_, h⟩; cases h
        · intro p d hp h
          exact hold p d hp he (fun q hq _ => by rw [hs]; exact hq) h

/-- The endpoints after setting up all configured ones: one each, in order. -/
theorem configured_lives : ∀ (cs : List EpConf) (s : LoopSt), (∀ p ∈ s.endpoints, p < s.heap.length) →
    s.endpoints.Nodup →
    (cs.foldl LoopSt.addEndpoint s).endpoints.Nodup ∧
    ∃ new, (cs.foldl LoopSt.addEndpoint s).endpoints = s.endpoints ++ new ∧ new.length = cs.length ∧
      (∀ (k : Nat) c p, cs[k]? = some c → new[k]? = some p → Lives c (cs.foldl LoopSt.addEndpoint s) p) ∧
      ∀ p d, p < s.heap.length → Lives d s p → Lives d (cs.foldl LoopSt.addEndpoint s) p
  | [], s, _, hn => ⟨hn, [], by simp, rfl, by simp, fun _ _ _ h => h⟩
  | c :: cs, s, hlt, hn => by
    obtain ⟨he, hl, hc, ho⟩ := addEndpoint_lives (s := s) c
    have hn' : (s.addEndpoint c).endpoints.Nodup := by
      rw [he]
      refine List.nodup_append.mpr ⟨hn, by simp, ?_⟩
      intro a ha b hb
      simp only [List.mem_singleton] at hb
      have := hlt a ha
      omega
    obtain ⟨h1, new, h2, h3, h4, h5⟩ := configured_lives cs (s.addEndpoint c)
      (by
        intro p hp
        rw [he] at hp
        rcases List.mem_append.mp hp with hp | hp
        · exact Nat.lt_trans (hlt p hp) hl
        · simp only [List.mem_singleton] at hp; omega) hn'
    refine ⟨h1, s.heap.length :: new, ?_, by simp [h3], ?_, ?_⟩
    · rw [List.foldl_cons, h2, he]; simp
    · intro k d p hk hp
      cases k with
      | zero =>
        simp only [List.getElem?_cons_zero, Option.some.injEq] at hk hp
        subst hk hp
        exact h5 _ _ hl hc
      | succ k => exact h4 k d p (by simpa using hk) (by simpa using hp)
    · intro p d hp h
      exact h5 p d (by omega) (ho p d hp h)

/-! ### C107 -/

/-- **C107** (part): every configured UART, UDP and log endpoint and every TCP client with `RetryTimeout` above 0 has, from the
start and after every history of events, its own endpoint that messages are offered to; the former are polled all the
time. Missing: TCP clients without reconnect (`C107_violated`). -/
theorem C107_kept_partial {cs setup bs s} (R : RunsFrom cs setup bs s) :
    ∃ addr : List Nat, addr.length = cs.length ∧ addr.Nodup ∧
      ∀ (k : Nat) c p, cs[k]? = some c → addr[k]? = some p → Permanent c →
        p ∈ s.endpoints ∧ (∃ o, s.obj p = some o ∧ Of c o) ∧ ((∃ ms, c = .plain ms) → p ∈ s.poll) := by
  obtain ⟨hn, new, he, hl, hlive, _⟩ := configured_lives cs {} (by simp) (by simp)
  have he : (LoopSt.configured cs).endpoints = new := by simpa [LoopSt.configured] using he
  refine ⟨new, hl, he ▸ hn, ?_⟩
  intro k c p hk hp hperm
  have h0 := hlive k c p hk hp
  obtain ⟨s0, e0, R⟩ := R
  obtain ⟨s1, e1, S⟩ := acts_step setup (configured_inv cs)
  rw [e0] at e1
  cases e1
  have h1 : Lives c s0 p := by
    obtain ⟨hep, ⟨o, ho, hof⟩, hpoll⟩ := h0
    obtain ⟨o1, ho1, hsame⟩ := S.mono.obj p o ho
    refine ⟨mono_ep S.mono hep, ⟨o1, ho1, of_same hof hsame⟩, ?_⟩
    rintro ⟨ms, rfl⟩
    have hpl : ∃ ms, (LoopSt.configured cs).obj p = some (.plain ms) := by
      cases o with
      | plain m => exact ⟨m, ho⟩
      | tcp _ _ _ _ => cases hof
      | timer _ _ _ => cases hof
    exact (plainPolled_acts ⟨hpl, hpoll ⟨ms, rfl⟩⟩ e0).2
  exact lives_runs hperm R S.inv h1

/-- After the client lost its connection once and another one came and went, endpoints 0 and 1 are still there. -/
example : RunsFrom Sample.loopConf [] [Sample.batch1, Sample.batch2] Sample.loop2 ∧
    (Sample.loopConf[0]?).map (fun _ => 0 ∈ Sample.loop2.endpoints ∧ 1 ∈ Sample.loop2.endpoints ∧ 0 ∈ Sample.loop2.poll) =
      some True :=
  ⟨Sample.loop2_reached, by
    have : 0 ∈ Sample.loop2.endpoints ∧ 1 ∈ Sample.loop2.endpoints ∧ 0 ∈ Sample.loop2.poll := by decide
    simp [Sample.loopConf, this]⟩

namespace Sample

/-- A configured TCP client with `RetryTimeout` 0, connected. -/
def onceConf : List EpConf := [.tcp 0 true true []]

/-- Its peer closes the connection. -/
def onceBatch : List PollEv := [.obj 0 true [] .eof true true true false false]

end Sample

open Sample in
/-- **C107 is false** of TCP clients with `RetryTimeout` 0: when the peer closes the connection, the configured endpoint is
destroyed. -/
theorem C107_violated : ∃ s, RunsFrom onceConf [] [onceBatch] s ∧ s.endpoints = [] ∧ s.obj 0 = none := by
  have h : ((LoopSt.configured onceConf).iteration onceBatch).isSome = true := by decide
  obtain ⟨s, hs⟩ := Option.isSome_iff_exists.mp h
  refine ⟨s, ⟨_, rfl, .batch ?_ hs (.done _)⟩, ?_, ?_⟩
  · intro e he
    simp only [onceBatch, List.mem_singleton] at he
    subst he
    show 0 ∈ _
    decide
  · have : (((LoopSt.configured onceConf).iteration onceBatch).map (·.endpoints)) = some [] := by decide
    rw [hs] at this
    simpa using this
  · have : (((LoopSt.configured onceConf).iteration onceBatch).map (fun s => s.obj 0)) = some none := by decide
    rw [hs] at this
    simpa using this

end Verif
