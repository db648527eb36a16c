import Verif.Spec.Roam
import Verif.Props.Serve

/- Property C144: which of the other links a message comes from makes no difference to a link. -/

namespace Verif
open Spec

variable {σ τ : Type}

theorem timed_same (clock : Nat → Int) : ∀ {as as' : List Arrival} (n : Nat), as'.map Arrival.msg = as.map Arrival.msg →
    timed clock n as' = timed clock n as
  | [], [], _, _ => rfl
  | [], _ :: _, _, h => by cases h
  | _ :: _, [], _, h => by cases h
  | a :: as, a' :: as', n, h => by
    simp only [List.map_cons, List.cons.injEq] at h
    simp only [timed, h.1, timed_same clock (n + 1) h.2]

/-- What de-duplication says of the messages does not depend on where they come from. -/
theorem passed_verdict (env : Env σ) (env' : Env τ) (ht : TableOk env.tbl) (htb : env'.tbl = env.tbl) (hh : env'.hashFn = env.hashFn)
    (hper : env'.dedupPeriod = env.dedupPeriod) (hcl : env'.clock = env.clock)
    (eps eps' : List Ep) (hc : ConfigOk eps) (hc' : ConfigOk eps') (logs : Nat → σ) (logs' : Nat → τ) (evs evs' : List RouterEv)
    (w : World σ) (w' : World τ) (as as' : List Arrival) (h : runRouter env (start eps logs) evs = some (w, as))
    (h' : runRouter env' (start eps' logs') evs' = some (w', as')) (hm : as'.map Arrival.msg = as.map Arrival.msg)
    (k : Nat) (a a' : Arrival) (ha : as[k]? = some a) (ha' : as'[k]? = some a') :
    ∃ b : Bool, (a.passed = true ↔ b = true ∧ inOk (((eps[a.ep]?).map Ep.filters).getD {}) a.msg) ∧
      (a'.passed = true ↔ b = true ∧ inOk (((eps'[a'.ep]?).map Ep.filters).getD {}) a'.msg) := by
  have ht' : TableOk env'.tbl := by rw [htb]; exact ht
  obtain ⟨_, bs, hrun, hv⟩ := runRouter_dedup env evs _ (start_inv eps hc logs) h
  obtain ⟨_, bs', hrun', hv'⟩ := runRouter_dedup env' evs' _ (start_inv eps' hc' logs') h'
  have hok := runRouter_msgOk env ht evs _ (.start hc) h a (List.mem_of_getElem? ha)
  have hok' := runRouter_msgOk env' ht' evs' _ (.start hc') h' a' (List.mem_of_getElem? ha')
  obtain ⟨e, b, he, hb, hiff⟩ := hv.get k a ha
  obtain ⟨e', b', he', hb', hiff'⟩ := hv'.get k a' ha'
  have hbs : bs' = bs := by
    rw [hh, hper, hcl] at hrun'
    have hd : (start eps' logs').dedup = (start eps logs).dedup := rfl
    have hn : (start eps' logs').checks = (start eps logs).checks := rfl
    rw [hd, hn, timed_same _ _ hm, hrun] at hrun'
    exact (congrArg Prod.snd (Option.some.inj hrun')).symm
  rw [hbs, hb] at hb'
  cases hb'
  refine ⟨b, ?_, ?_⟩
  · rw [hiff, allowedIn_iff _ _ hok, filters_start env eps hc logs evs w as h _ e he]
  · rw [hiff', allowedIn_iff _ _ hok', filters_start env' eps' hc' logs' evs' w' as' h' _ e' he']

theorem roams_msgs {eps : List Ep} {j : Nat} {as as' : List Arrival} (h : Roams eps j as as') : as'.map Arrival.msg = as.map Arrival.msg := by
  induction h with
  | nil => rfl
  | cons h1 _ _ _ ih => rw [List.map_cons, List.map_cons, h1, ih]

/-- What matters of two histories for link `j`. -/
inductive Moved (eps : List Ep) (j : Nat) : List Arrival → List Arrival → Prop
  | nil : Moved eps j [] []
  | cons {a a' : Arrival} {as as' : List Arrival} : a'.msg = a.msg → a'.passed = a.passed →
      (Peer eps a'.ep j ↔ Peer eps a.ep j) → Moved eps j as as' → Moved eps j (a :: as) (a' :: as')

theorem roams_moved {eps : List Ep} {j : Nat} {as as' : List Arrival} (h : Roams eps j as as')
    (hv : ∀ (k : Nat) a a', as[k]? = some a → as'[k]? = some a' →
      ∃ b : Bool, (a.passed = true ↔ b = true ∧ inOk (((eps[a.ep]?).map Ep.filters).getD {}) a.msg) ∧
        (a'.passed = true ↔ b = true ∧ inOk (((eps[a'.ep]?).map Ep.filters).getD {}) a'.msg)) : Moved eps j as as' := by
  induction h with
  | nil => exact .nil
  | cons h1 h2 h3 _ ih =>
    refine .cons h1 ?_ h3 (ih (fun k a a' ha ha' => hv (k + 1) a a' ha ha'))
    obtain ⟨b, g, g'⟩ := hv 0 _ _ rfl rfl
    rw [h1, h2, ← g] at g'
    exact Bool.eq_iff_iff.mpr g'

theorem Moved.snoc {eps : List Ep} {j : Nat} {as as' : List Arrival} (h : Moved eps j as as') {a a' : Arrival} (h1 : a'.msg = a.msg)
    (h2 : a'.passed = a.passed) (h3 : Peer eps a'.ep j ↔ Peer eps a.ep j) : Moved eps j (as ++ [a]) (as' ++ [a']) := by
  induction h with
  | nil => exact .cons h1 h2 h3 .nil
  | cons g1 g2 g3 _ ih => exact .cons g1 g2 g3 ih

theorem moved_seen {eps : List Ep} {j : Nat} {as as' : List Arrival} (h : Moved eps j as as') (s c : Nat) :
    SeenAt eps as' j s c ↔ SeenAt eps as j s c := by
  unfold SeenAt
  apply or_congr Iff.rfl
  induction h with
  | nil => simp
  | @cons a a' as as' h1 h2 h3 _ ih =>
    simp only [List.mem_cons, exists_eq_or_imp]
    rw [h1, h2, h3, ih]

theorem moved_expected (sn : Nat) {eps : List Ep} {j : Nat} {as as' : List Arrival} (h : Moved eps j as as') :
    ∀ {past past' : List Arrival}, Moved eps j past past' →
      (expected sn eps j past' as').map Arrival.msg = (expected sn eps j past as).map Arrival.msg := by
  induction h with
  | nil => intro _ _ _; rfl
  | @cons a a' as as' h1 h2 h3 _ ih =>
    intro past past' hp
    have hp' := hp.snoc h1 h2 h3
    have hw : Wanted sn eps j (past' ++ [a']) a'.msg ↔ Wanted sn eps j (past ++ [a]) a.msg := by
      simp only [Wanted, moved_seen hp', h1]
    simp only [expected]
    by_cases hx : a.passed = true ∧ Wanted sn eps j (past ++ [a]) a.msg
    · rw [if_pos hx, if_pos ⟨h2 ▸ hx.1, hw.mpr hx.2⟩, List.map_append, List.map_append, ih hp', List.map_cons, h1]; rfl
    · rw [if_neg hx, if_neg (fun y => hx ⟨h2 ▸ y.1, hw.mp y.2⟩), List.nil_append, List.nil_append, ih hp']

/-- **C144**: two histories of one router in which the same messages arrive, in the same order and at the same times. Where a message arrives
on another link, the incoming filters of both links say the same of it, and both or none of them belong to link `j` and its group.
Then link `j` is handed the same bytes in the same order. -/
theorem C144_roaming (env : Env σ) (ht : TableOk env.tbl) (eps : List Ep) (hc : ConfigOk eps) (logs logs' : Nat → σ)
    (evs evs' : List RouterEv) (w w' : World σ) (as as' : List Arrival) (h : runRouter env (start eps logs) evs = some (w, as))
    (h' : runRouter env (start eps logs') evs' = some (w', as')) (j : Nat) (hl : LinkAt eps j) (hr : Roams eps j as as')
    (hgone : ∀ gone, RouterEv.hangups gone ∈ evs ++ evs' → j ∉ gone) :
    as'.map Arrival.passed = as.map Arrival.passed ∧
      (writesTo j (start eps logs') w').map Sent.bytes = (writesTo j (start eps logs) w).map Sent.bytes := by
  have hm := roams_moved hr (fun k a a' ha ha' =>
    passed_verdict env env ht rfl rfl rfl rfl eps eps hc hc logs logs' evs evs' w w' as as' h h' (roams_msgs hr) k a a' ha ha')
  have hact : ∀ logs : Nat → σ, j ∈ (start eps logs).active := fun _ => List.mem_range.mpr hl.1
  have e1 := C88_links env ht eps hc logs [] evs _ w [] as rfl h j hl (hact _) (fun g hg => hgone g (by simp [hg]))
  have e2 := C88_links env ht eps hc logs' [] evs' _ w' [] as' rfl h' j hl (hact _) (fun g hg => hgone g (by simp [hg]))
  constructor
  · clear h h' e1 e2 hr
    induction hm with
    | nil => rfl
    | cons _ h2 _ _ ih => rw [List.map_cons, List.map_cons, h2, ih]
  · have := congrArg (List.map Msg.data) (moved_expected env.sniffer.toNat hm (.nil (eps := eps) (j := j)))
    simp only [List.map_map] at this
    rw [e1, e2]
    exact this

/-- A vehicle and a ground station meet on links 0 and 2; the next message of the vehicle arrives on link 0 or on link 1. De-duplication is on.
Link 2 is handed the same, links 0 and 1 are not. -/
example : TableOk Sample.envDedup.tbl ∧ ConfigOk Sample.epsTwo ∧ LinkAt Sample.epsTwo 2 ∧
    (runRouter Sample.envDedup (start Sample.epsTwo fun _ => 0) (Sample.evsMeet ++ [.read 0 (.got Sample.hb1.encode)])).map Prod.snd =
      some [Sample.came 0 Sample.hb2, Sample.came 2 Sample.cmdTo1, Sample.came 0 Sample.hb1] ∧
    (runRouter Sample.envDedup (start Sample.epsTwo fun _ => 0) (Sample.evsMeet ++ [.read 1 (.got Sample.hb1.encode)])).map Prod.snd =
      some [Sample.came 0 Sample.hb2, Sample.came 2 Sample.cmdTo1, Sample.came 1 Sample.hb1] ∧
    Roams Sample.epsTwo 2 [Sample.came 0 Sample.hb2, Sample.came 2 Sample.cmdTo1, Sample.came 0 Sample.hb1]
      [Sample.came 0 Sample.hb2, Sample.came 2 Sample.cmdTo1, Sample.came 1 Sample.hb1] ∧
    (Sample.handed Sample.envDedup Sample.epsTwo (Sample.evsMeet ++ [.read 0 (.got Sample.hb1.encode)])).map Prod.snd =
      some [(1, Sample.hb2.encode), (2, Sample.hb2.encode), (0, Sample.cmdTo1.encode), (1, Sample.hb1.encode), (2, Sample.hb1.encode)] ∧
    (Sample.handed Sample.envDedup Sample.epsTwo (Sample.evsMeet ++ [.read 1 (.got Sample.hb1.encode)])).map Prod.snd =
      some [(1, Sample.hb2.encode), (2, Sample.hb2.encode), (0, Sample.cmdTo1.encode), (2, Sample.hb1.encode)] := by
  refine ⟨Sample.tbl_ok, ?_, ⟨by decide, ?_⟩, by decide +kernel, by decide +kernel, ?_, by decide +kernel, by decide +kernel⟩
  · intro e he
    simp only [Sample.epsTwo, List.mem_cons, List.not_mem_nil, or_false] at he
    rcases he with rfl | rfl | rfl <;> simp
  · intro i hi e he
    have : e ∈ Sample.epsTwo := List.mem_of_getElem? he
    simp only [Sample.epsTwo, List.mem_cons, List.not_mem_nil, or_false] at this
    rcases this with rfl | rfl | rfl <;> decide
  · refine .cons rfl Iff.rfl Iff.rfl (.cons rfl Iff.rfl Iff.rfl (.cons rfl Iff.rfl ?_ .nil))
    simp [Peer, Sample.epsTwo, Sample.came]

end Verif
