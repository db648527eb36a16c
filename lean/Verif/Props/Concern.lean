import Verif.Spec.Concern
import Verif.Props.Roam

/- Property C146: of the configuration of other links only their incoming filters and group concern a link. -/

namespace Verif
open Spec

variable {σ τ : Type}

theorem sameFor_msgs {eps eps' : List Ep} {j j' : Nat} {as as' : List Arrival} (h : SameFor eps eps' j j' as as') :
    as'.map Arrival.msg = as.map Arrival.msg := by
  induction h with
  | nil => rfl
  | cons h1 _ _ _ ih => rw [List.map_cons, List.map_cons, h1, ih]

/-- What matters of two histories for the two links. -/
inductive Agree (eps eps' : List Ep) (j j' : Nat) : List Arrival → List Arrival → Prop
  | nil : Agree eps eps' j j' [] []
  | cons {a a' : Arrival} {as as' : List Arrival} : a'.msg = a.msg → a'.passed = a.passed →
      (Peer eps' a'.ep j' ↔ Peer eps a.ep j) → Agree eps eps' j j' as as' → Agree eps eps' j j' (a :: as) (a' :: as')

theorem sameFor_agree {eps eps' : List Ep} {j j' : Nat} {as as' : List Arrival} (h : SameFor eps eps' j j' as as')
    (hv : ∀ (k : Nat) a a', as[k]? = some a → as'[k]? = some a' →
      ∃ b : Bool, (a.passed = true ↔ b = true ∧ inOk (((eps[a.ep]?).map Ep.filters).getD {}) a.msg) ∧
        (a'.passed = true ↔ b = true ∧ inOk (((eps'[a'.ep]?).map Ep.filters).getD {}) a'.msg)) : Agree eps eps' j j' as as' := by
  induction h with
  | nil => exact .nil
  | cons h1 h2 h3 _ ih =>
    refine .cons h1 ?_ h3 (ih (fun k a a' ha ha' => hv (k + 1) a a' ha ha'))
    obtain ⟨b, g, g'⟩ := hv 0 _ _ rfl rfl
    rw [h1, h2, ← g] at g'
    exact Bool.eq_iff_iff.mpr g'

theorem Agree.snoc {eps eps' : List Ep} {j j' : Nat} {as as' : List Arrival} (h : Agree eps eps' j j' as as') {a a' : Arrival}
    (h1 : a'.msg = a.msg) (h2 : a'.passed = a.passed) (h3 : Peer eps' a'.ep j' ↔ Peer eps a.ep j) :
    Agree eps eps' j j' (as ++ [a]) (as' ++ [a']) := by
  induction h with
  | nil => exact .cons h1 h2 h3 .nil
  | cons g1 g2 g3 _ ih => exact .cons g1 g2 g3 ih

theorem agree_seen {eps eps' : List Ep} {j j' : Nat}
    (hk : (∃ e, eps'[j']? = some e ∧ e.kind = .log) ↔ ∃ e, eps[j]? = some e ∧ e.kind = .log)
    {as as' : List Arrival} (h : Agree eps eps' j j' as as') (s c : Nat) : SeenAt eps' as' j' s c ↔ SeenAt eps as j s c := by
  unfold SeenAt
  apply or_congr
  · have split : ∀ (o : Option Ep), (∃ e, o = some e ∧ e.kind = .log ∧ s = 2 ∧ c = 0) ↔ (∃ e, o = some e ∧ e.kind = .log) ∧ s = 2 ∧ c = 0 :=
      fun o => ⟨fun ⟨e, h1, h2, h3⟩ => ⟨⟨e, h1, h2⟩, h3⟩, fun ⟨⟨e, h1, h2⟩, h3⟩ => ⟨e, h1, h2, h3⟩⟩
    rw [split, split, hk]
  induction h with
  | nil => simp
  | @cons a a' as as' h1 h2 h3 _ ih =>
    simp only [List.mem_cons, exists_eq_or_imp]
    rw [h1, h2, h3, ih]

theorem agree_expected (sn : Nat) {eps eps' : List Ep} {j j' : Nat} 
    (hk : (∃ e, eps'[j']? = some e ∧ e.kind = .log) ↔ ∃ e, eps[j]? = some e ∧ e.kind = .log)
    (hf : ∀ m, (∀ e, eps'[j']? = some e → outOk e.filters m) ↔ ∀ e, eps[j]? = some e → outOk e.filters m) {as as' : List Arrival} (h : Agree eps eps' j j' as as') :
    ∀ {past past' : List Arrival}, Agree eps eps' j j' past past' →
      (expected sn eps' j' past' as').map Arrival.msg = (expected sn eps j past as).map Arrival.msg := by
  induction h with
  | nil => intro _ _ _; rfl
  | @cons a a' as as' h1 h2 h3 _ ih =>
    intro past past' hp
    have hp' := hp.snoc h1 h2 h3
    have hw : Wanted sn eps' j' (past' ++ [a']) a'.msg ↔ Wanted sn eps j (past ++ [a]) a.msg := by
      simp only [Wanted, agree_seen hk hp', h1, hf]
    simp only [expected]
    by_cases hx : a.passed = true ∧ Wanted sn eps j (past ++ [a]) a.msg
    · rw [if_pos hx, if_pos ⟨h2 ▸ hx.1, hw.mpr hx.2⟩, List.map_append, List.map_append, ih hp', List.map_cons, h1]; rfl
    · rw [if_neg hx, if_neg (fun y => hx ⟨h2 ▸ y.1, hw.mp y.2⟩), List.nil_append, List.nil_append, ih hp']

/-- What is let in, apart from the incoming filters, is the same at two routers. -/
theorem concern_verdict (env : Env σ) (env' : Env τ) (ht : TableOk env.tbl) (htb : env'.tbl = env.tbl)
    (hh : env'.hashFn = env.hashFn)
    (eps eps' : List Ep) (hc : ConfigOk eps) (hc' : ConfigOk eps') (logs : Nat → σ) (logs' : Nat → τ) (evs evs' : List RouterEv)
    (w : World σ) (w' : World τ) (as as' : List Arrival) (h : runRouter env (start eps logs) evs = some (w, as))
    (h' : runRouter env' (start eps' logs') evs' = some (w', as')) (hm : as'.map Arrival.msg = as.map Arrival.msg)
    (hp : (env'.dedupPeriod = env.dedupPeriod ∧ env'.clock = env.clock) ∨ (env.dedupPeriod = 0 ∧ env'.dedupPeriod = 0) ∨
      NoCopies env.hashFn [] as) :
    ∀ (k : Nat) a a', as[k]? = some a → as'[k]? = some a' →
      ∃ b : Bool, (a.passed = true ↔ b = true ∧ inOk (((eps[a.ep]?).map Ep.filters).getD {}) a.msg) ∧
        (a'.passed = true ↔ b = true ∧ inOk (((eps'[a'.ep]?).map Ep.filters).getD {}) a'.msg) := by
  have ht' : TableOk env'.tbl := by rw [htb]; exact ht
  rcases hp with ⟨hper, hcl⟩ | hp
  · exact passed_verdict env env' ht htb hh hper hcl eps eps' hc hc' logs logs' evs evs' w w' as as' h h' hm
  · intro k a a' ha ha'
    refine ⟨true, ?_, ?_⟩
    · rw [passed_once env ht _ hc logs evs w [] as h (hp.imp_left And.left) a (List.mem_of_getElem? ha)]; simp
    · have hp' : env'.dedupPeriod = 0 ∨ NoCopies env'.hashFn [] as' := by
        refine hp.imp And.right (fun hn => ⟨?_, by simp⟩)
        have := congrArg (List.map fun m : Msg => env.hashFn m.data) hm
        simp only [List.map_map, Function.comp_def] at this
        rw [hh, this]
        exact hn.1
      rw [passed_once env' ht' _ hc' logs' evs' w' [] as' h' hp' a' (List.mem_of_getElem? ha')]; simp

/-- **C146**: two routers, configured differently, and a link of each, both a log or none, with outgoing filters that say the same. The
sniffer is set alike. If what arrives is, in order, the same as far as the two links are concerned, and either at the same times with
de-duplication set alike, or without de-duplication, or no packet twice, both links are handed the same bytes in the same order. -/
theorem C146_concern (env : Env σ) (env' : Env τ) (ht : TableOk env.tbl) (htb : env'.tbl = env.tbl) (hsn : env'.sniffer = env.sniffer)
    (hh : env'.hashFn = env.hashFn)
    (eps eps' : List Ep) (hc : ConfigOk eps) (hc' : ConfigOk eps') (logs : Nat → σ) (logs' : Nat → τ) (evs evs' : List RouterEv)
    (w : World σ) (w' : World τ) (as as' : List Arrival) (h : runRouter env (start eps logs) evs = some (w, as))
    (h' : runRouter env' (start eps' logs') evs' = some (w', as')) (j j' : Nat) (e e' : Ep) (he : eps[j]? = some e)
    (he' : eps'[j']? = some e') (hl : LinkAt eps j) (hl' : LinkAt eps' j') (hk : e'.kind = .log ↔ e.kind = .log)
    (hf : ∀ m, outOk e'.filters m ↔ outOk e.filters m) (hs : SameFor eps eps' j j' as as')
    (hp : (env'.dedupPeriod = env.dedupPeriod ∧ env'.clock = env.clock) ∨ (env.dedupPeriod = 0 ∧ env'.dedupPeriod = 0) ∨
      NoCopies env.hashFn [] as)
    (hgone : ∀ gone, RouterEv.hangups gone ∈ evs → j ∉ gone) (hgone' : ∀ gone, RouterEv.hangups gone ∈ evs' → j' ∉ gone) :
    as'.map Arrival.passed = as.map Arrival.passed ∧
      (writesTo j' (start eps' logs') w').map Sent.bytes = (writesTo j (start eps logs) w).map Sent.bytes := by
  have ht' : TableOk env'.tbl := by rw [htb]; exact ht
  have hm := sameFor_agree hs
    (concern_verdict env env' ht htb hh eps eps' hc hc' logs logs' evs evs' w w' as as' h h' (sameFor_msgs hs) hp)
  have e1 := C88_links env ht eps hc logs [] evs _ w [] as rfl h j hl (List.mem_range.mpr hl.1) hgone
  have e2 := C88_links env' ht' eps' hc' logs' [] evs' _ w' [] as' rfl h' j' hl' (List.mem_range.mpr hl'.1) hgone'
  constructor
  · clear h h' e1 e2 hs hp
    induction hm with
    | nil => rfl
    | cons _ h2 _ _ ih => rw [List.map_cons, List.map_cons, h2, ih]
  · have := congrArg (List.map Msg.data) (agree_expected env.sniffer.toNat (by simp [he, he', hk]) (by simp [he, he', hf]) hm (.nil (eps := eps) (eps' := eps') (j := j) (j' := j')))
    simp only [List.map_map] at this
    rw [e1, e2, hsn]
    exact this

/-- Another router with the links of `Sample.epsTwo` in another order, two of them in a group. -/
def Sample.epsOther : List Ep := [{ kind := .udp }, { kind := .uart, group := "v" }, { kind := .udp, group := "v" }]

/-- Link 2 of the one router and link 0 of the other are handed the same; the last message arrives on another link of the group there, and the
links of the group are handed less. De-duplication is on. -/
example : TableOk Sample.envDedup.tbl ∧ ConfigOk Sample.epsTwo ∧ ConfigOk Sample.epsOther ∧ LinkAt Sample.epsTwo 2 ∧ LinkAt Sample.epsOther 0 ∧
    (runRouter Sample.envDedup (start Sample.epsTwo fun _ => 0) (Sample.evsMeet ++ [.read 0 (.got Sample.hb1.encode)])).map Prod.snd =
      some [Sample.came 0 Sample.hb2, Sample.came 2 Sample.cmdTo1, Sample.came 0 Sample.hb1] ∧
    (runRouter Sample.envDedup (start Sample.epsOther fun _ => 0) [.read 1 (.got Sample.hb2.encode), .read 0 (.got Sample.cmdTo1.encode),
      .read 2 (.got Sample.hb1.encode)]).map Prod.snd = some [Sample.came 1 Sample.hb2, Sample.came 0 Sample.cmdTo1, Sample.came 2 Sample.hb1] ∧
    SameFor Sample.epsTwo Sample.epsOther 2 0 [Sample.came 0 Sample.hb2, Sample.came 2 Sample.cmdTo1, Sample.came 0 Sample.hb1]
      [Sample.came 1 Sample.hb2, Sample.came 0 Sample.cmdTo1, Sample.came 2 Sample.hb1] ∧
    (Sample.handed Sample.envDedup Sample.epsTwo (Sample.evsMeet ++ [.read 0 (.got Sample.hb1.encode)])).map Prod.snd =
      some [(1, Sample.hb2.encode), (2, Sample.hb2.encode), (0, Sample.cmdTo1.encode), (1, Sample.hb1.encode), (2, Sample.hb1.encode)] ∧
    (Sample.handed Sample.envDedup Sample.epsOther [.read 1 (.got Sample.hb2.encode), .read 0 (.got Sample.cmdTo1.encode),
      .read 2 (.got Sample.hb1.encode)]).map Prod.snd =
      some [(0, Sample.hb2.encode), (1, Sample.cmdTo1.encode), (2, Sample.cmdTo1.encode), (0, Sample.hb1.encode)] := by
  have two : ∀ e ∈ Sample.epsTwo, e.kind ≠ .log := by
    intro e he
    simp only [Sample.epsTwo, List.mem_cons, List.not_mem_nil, or_false] at he
    rcases he with rfl | rfl | rfl <;> decide
  refine ⟨Sample.tbl_ok, ?_, ?_, ⟨by decide, fun i _ e he => two e (List.mem_of_getElem? he)⟩, ⟨by decide, fun i hi => absurd hi (Nat.not_lt_zero i)⟩,
    by decide +kernel, by decide +kernel, ?_, by decide +kernel, by decide +kernel⟩
  · intro e he
    simp only [Sample.epsTwo, List.mem_cons, List.not_mem_nil, or_false] at he
    rcases he with rfl | rfl | rfl <;> simp
  · intro e he
    simp only [Sample.epsOther, List.mem_cons, List.not_mem_nil, or_false] at he
    rcases he with rfl | rfl | rfl <;> simp
  · refine .cons rfl Iff.rfl ?_ (.cons rfl Iff.rfl ?_ (.cons rfl Iff.rfl ?_ .nil)) <;> simp [Peer, Sample.epsTwo, Sample.epsOther, Sample.came]

end Verif
