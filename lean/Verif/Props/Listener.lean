import Verif.Props.InOnly
import Verif.Props.Roam

/- Property C143: a link on which nothing arrives does not change what the others are handed. -/

namespace Verif
open Spec

variable {σ τ : Type}

theorem listener_at (ls gs : List Ep) (e : Ep) {i : Nat} (hi : i < ls.length) : (ls ++ e :: gs)[i]? = (ls ++ gs)[i]? := by
  rw [List.getElem?_append_left hi, List.getElem?_append_left hi]

theorem listener_seen (ls gs : List Ep) (e : Ep) {past past' : List Arrival} (hz : past' = past) (hep : ∀ a ∈ past, a.ep < ls.length)
    {j : Nat} (hj : j < ls.length) (s c : Nat) : SeenAt (ls ++ e :: gs) past' j s c ↔ SeenAt (ls ++ gs) past j s c := by
  subst hz
  unfold SeenAt
  rw [listener_at ls gs e hj]
  apply or_congr Iff.rfl
  constructor <;> rintro ⟨a, ha, h1, h2, h3, h4⟩ <;> refine ⟨a, ha, h1, h2, h3, ?_⟩
  · unfold Peer at h4 ⊢
    rwa [listener_at ls gs e hj, listener_at ls gs e (hep a ha)] at h4
  · unfold Peer at h4 ⊢
    rwa [listener_at ls gs e hj, listener_at ls gs e (hep a ha)]

theorem listener_expected (sn : Nat) (ls gs : List Ep) (e : Ep) {j : Nat} (hj : j < ls.length) : ∀ (as past : List Arrival),
    (∀ a ∈ past, a.ep < ls.length) → (∀ a ∈ as, a.ep < ls.length) →
    expected sn (ls ++ e :: gs) j past as = expected sn (ls ++ gs) j past as
  | [], _, _, _ => rfl
  | a :: as, past, hp, ha => by
    have hp' : ∀ x ∈ past ++ [a], x.ep < ls.length := by
      intro x hx
      rcases List.mem_append.mp hx with hx | hx
      · exact hp x hx
      · exact ha x (by simp_all)
    have ih := listener_expected sn ls gs e hj as (past ++ [a]) hp' (fun x hx => ha x (by simp [hx]))
    have hw : Wanted sn (ls ++ e :: gs) j (past ++ [a]) a.msg ↔ Wanted sn (ls ++ gs) j (past ++ [a]) a.msg := by
      simp only [Wanted, listener_seen ls gs e rfl hp' hj, listener_at ls gs e hj]
    simp only [expected, ih]
    congr 1
    by_cases hx : a.passed = true ∧ Wanted sn (ls ++ gs) j (past ++ [a]) a.msg
    · rw [if_pos hx, if_pos ⟨hx.1, hw.mpr hx.2⟩]
    · rw [if_neg hx, if_neg (fun y => hx ⟨y.1, hw.mp y.2⟩)]

/-- **C143**: two routers with the links `ls` and the log endpoints `gs`, the second with a further link `e` behind the others, of any kind,
with any filters and in any group. If the same messages arrive at the links `ls` of both, in the same order, and nothing at the further link,
and either at the same times, or without de-duplication, or no packet twice, every one of the links `ls` is handed the same bytes in the same order by both. -/
theorem C143_listener (env : Env σ) (env' : Env τ) (ht : TableOk env.tbl) (htb : env'.tbl = env.tbl) (hsn : env'.sniffer = env.sniffer)
    (hh : env'.hashFn = env.hashFn) (ls gs : List Ep) (e : Ep) (hc : ConfigOk (ls ++ e :: gs)) (hls : ∀ x ∈ ls, x.kind ≠ .log)
    (logs : Nat → σ) (logs' : Nat → τ) (evs evs' : List RouterEv) (w : World σ) (w' : World τ) (as as' : List Arrival)
    (h : runRouter env (start (ls ++ gs) logs) evs = some (w, as))
    (h' : runRouter env' (start (ls ++ e :: gs) logs') evs' = some (w', as'))
    (hsame : as'.map (fun a => (a.ep, a.msg)) = as.map (fun a => (a.ep, a.msg))) (hep : ∀ a ∈ as, a.ep < ls.length)
    (hp : (env'.dedupPeriod = env.dedupPeriod ∧ env'.clock = env.clock) ∨ (env.dedupPeriod = 0 ∧ env'.dedupPeriod = 0) ∨
      NoCopies env.hashFn [] as)
    (j : Nat) (hj : j < ls.length) (hgone : ∀ gone, RouterEv.hangups gone ∈ evs ++ evs' → j ∉ gone) :
    (writesTo j (start (ls ++ e :: gs) logs') w').map Sent.bytes = (writesTo j (start (ls ++ gs) logs) w).map Sent.bytes := by
  have ht' : TableOk env'.tbl := by rw [htb]; exact ht
  have hc0 : ConfigOk (ls ++ gs) := fun x hx => hc x (by
    rcases List.mem_append.mp hx with hx | hx
    · exact List.mem_append_left _ hx
    · exact List.mem_append_right _ (List.mem_cons_of_mem _ hx))
  have link : ∀ rest, LinkAt (ls ++ rest) j := fun rest =>
    ⟨by simp only [List.length_append]; omega, fun i hi x hx =>
      hls x (List.mem_of_getElem? (i := i) (by rwa [List.getElem?_append_left (by omega)] at hx))⟩
  have hv : ∀ (k : Nat) a a', as[k]? = some a → as'[k]? = some a' →
      ∃ b : Bool, (a.passed = true ↔ b = true ∧ inOk ((((ls ++ gs)[a.ep]?).map Ep.filters).getD {}) a.msg) ∧
        (a'.passed = true ↔ b = true ∧ inOk ((((ls ++ e :: gs)[a'.ep]?).map Ep.filters).getD {}) a'.msg) := by
    rcases hp with ⟨hper, hcl⟩ | hp
    · refine passed_verdict env env' ht htb hh hper hcl _ _ hc0 hc logs logs' evs evs' w w' as as' h h' ?_
      have := congrArg (List.map Prod.snd) hsame
      simp only [List.map_map] at this
      exact this
    · intro k a a' ha ha'
      refine ⟨true, ?_, ?_⟩
      · rw [passed_once env ht _ hc0 logs evs w [] as h (hp.imp_left And.left) a (List.mem_of_getElem? ha)]; simp
      · have hp' : env'.dedupPeriod = 0 ∨ NoCopies env'.hashFn [] as' := by
          refine hp.imp And.right (fun hn => ⟨?_, by simp⟩)
          have q := congrArg (List.map fun p => env.hashFn p.2.data) hsame
          simp only [List.map_map] at q
          rw [hh]
          exact q ▸ hn.1
        rw [passed_once env' ht' _ hc logs' evs' w' [] as' h' hp' a' (List.mem_of_getElem? ha')]; simp
  have heq : as' = as := by
    have hlen : as'.length = as.length := by simpa using congrArg List.length hsame
    refine List.ext_getElem? (fun k => ?_)
    cases hk : as[k]? with
    | none => rw [List.getElem?_eq_none_iff] at hk ⊢; omega
    | some a =>
      obtain ⟨a', ha', e1, e2⟩ := zip_at hsame hk
      rw [ha']
      obtain ⟨b, g, g'⟩ := hv k a a' hk ha'
      rw [e1, e2, listener_at ls gs e (hep a (List.mem_of_getElem? hk)), ← g] at g'
      have hpas : a'.passed = a.passed := by cases hx : a.passed <;> cases hx' : a'.passed <;> simp_all
      obtain ⟨p, q, r⟩ := a
      obtain ⟨p', q', r'⟩ := a'
      simp only at e1 e2 hpas
      rw [e1, e2, hpas]
  subst heq
  have e1 := C88_links env ht _ hc0 logs [] evs _ w [] as' rfl h j (link gs) (List.mem_range.mpr (link gs).1) (fun g hg => hgone g (by simp [hg]))
  have e2 := C88_links env' ht' _ hc logs' [] evs' _ w' [] as' rfl h' j (link (e :: gs)) (List.mem_range.mpr (link (e :: gs)).1)
    (fun g hg => hgone g (by simp [hg]))
  rw [e1, e2, hsn, listener_expected _ ls gs e hj as' [] (by simp) hep]

/-- A TCP link that only listens is added: it is handed the heartbeat; the others get what they get without it. -/
example : (runRouter Sample.envDedup (start Sample.epsTwo fun _ => 0) Sample.evsMeet).map Prod.snd =
      some [Sample.came 0 Sample.hb2, Sample.came 2 Sample.cmdTo1] ∧
    (runRouter Sample.envDedup (start (Sample.epsTwo ++ [{ kind := .tcp }]) fun _ => 0) Sample.evsMeet).map Prod.snd =
      some [Sample.came 0 Sample.hb2, Sample.came 2 Sample.cmdTo1] ∧
    NoCopies Sample.envDedup.hashFn [] [Sample.came 0 Sample.hb2, Sample.came 2 Sample.cmdTo1] ∧
    (∀ x ∈ Sample.epsTwo, x.kind ≠ .log) ∧ ConfigOk (Sample.epsTwo ++ ({ kind := .tcp } : Ep) :: []) ∧
    (Sample.handed Sample.envDedup (Sample.epsTwo ++ [{ kind := .tcp }]) Sample.evsMeet).map Prod.snd =
      some [(1, Sample.hb2.encode), (2, Sample.hb2.encode), (3, Sample.hb2.encode), (0, Sample.cmdTo1.encode)] := by
  refine ⟨by decide +kernel, by decide +kernel, ⟨by decide +kernel, by simp⟩, by decide, ?_, by decide +kernel⟩
  intro e he
  simp only [Sample.epsTwo, List.cons_append, List.nil_append, List.mem_cons, List.not_mem_nil, or_false] at he
  rcases he with rfl | rfl | rfl | rfl <;> simp

end Verif
