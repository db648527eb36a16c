import Verif.Spec.NoCopies

/- What is let in if nothing arrives twice. -/

namespace Verif
open Spec

variable {σ : Type}

theorem filters_start (env : Env σ) (eps : List Ep) (hc : ConfigOk eps) (logs : Nat → σ) (evs : List RouterEv) (w : World σ)
    (as : List Arrival) (h : runRouter env (start eps logs) evs = some (w, as)) (i : Nat) (e : Ep) (he : w.eps[i]? = some e) :
    e.filters = ((eps[i]?).map Ep.filters).getD {} := by
  have haft := runRouter_after env eps hc logs evs w as h
  cases hx : eps[i]? with
  | none => exact haft.plain _ _ he hx
  | some x =>
    rcases linkGroups_get eps i with ⟨_, hn⟩ | ⟨y, y', hy, hy', _, _, hf, _⟩
    · rw [hx] at hn; cases hn
    · rw [hx] at hy; cases hy
      obtain ⟨e', he', _, _, hf', _⟩ := haft.hist.ext.each _ _ hy'
      rw [he] at he'; cases he'
      rw [hf', hf]; rfl

/-- Whatever de-duplication does, only what the incoming filters admit is passed on. -/
theorem passed_in (env : Env σ) (ht : TableOk env.tbl) (eps : List Ep) (hc : ConfigOk eps) (logs : Nat → σ) (evs : List RouterEv)
    (w : World σ) (as : List Arrival) (h : runRouter env (start eps logs) evs = some (w, as)) :
    ∀ a ∈ as, a.passed = true → inOk (((eps[a.ep]?).map Ep.filters).getD {}) a.msg := by
  intro a ha hpas
  obtain ⟨k, hk⟩ := List.getElem?_of_mem ha
  obtain ⟨_, bs, _, hv⟩ := runRouter_dedup env evs _ (start_inv eps hc logs) h
  have hok := runRouter_msgOk env ht evs _ (.start hc) h a ha
  obtain ⟨e, b, he, _, hiff⟩ := hv.get k a hk
  rw [← filters_start env eps hc logs evs w as h _ e he]
  exact (allowedIn_iff _ _ hok).mp (hiff.mp hpas).2

/-- Without de-duplication the filters decide what is let in. -/
theorem passed_filters (env : Env σ) (ht : TableOk env.tbl) (hp : env.dedupPeriod = 0) (eps : List Ep) (hc : ConfigOk eps)
    (logs : Nat → σ) (evs : List RouterEv) (w : World σ) (as : List Arrival)
    (h : runRouter env (start eps logs) evs = some (w, as)) :
    ∀ a ∈ as, (a.passed = true ↔ inOk (((eps[a.ep]?).map Ep.filters).getD {}) a.msg) := by
  intro a ha
  obtain ⟨k, hk⟩ := List.getElem?_of_mem ha
  obtain ⟨e, he, hiff⟩ := C22_router_disabled env ht hp eps hc logs evs w as h k a hk
  rw [hiff, filters_start env eps hc logs evs w as h _ e he]

/-! ### What de-duplication drops has the hash of an earlier packet -/

theorem dedupExpire_keeps (ts period : UInt32) : ∀ (q : List (UInt32 × UInt64)) (s : List UInt64) {q' s'},
    dedupExpire ts period q s = some (q', s') → ∀ h ∈ s', h ∈ s
  | [], s, q', s', he, h, hm => by cases he; exact hm
  | (t, x) :: q, s, q', s', he, h, hm => by
    unfold dedupExpire at he
    split at he
    · split at he
      · exact List.mem_of_mem_erase (dedupExpire_keeps ts period q _ he h hm)
      · cases he
    · cases he; exact hm

theorem check_sub {hashFn : List UInt8 → UInt64} {period : UInt32} {now : Int} {pkt : List UInt8} {d d' : Dedup} {b : Bool}
    (hc : d.check hashFn period now pkt = some (d', b)) :
    (∀ h ∈ d'.set, h = hashFn pkt ∨ h ∈ d.set) ∧ (b = false → hashFn pkt ∈ d.set) := by
  unfold Dedup.check at hc
  split at hc
  · cases hc; exact ⟨fun h hm => .inr hm, fun h => by cases h⟩
  · simp only [Dedup.checkHash] at hc
    split at hc
    · cases hc
    · rename_i q s he
      have hsub := dedupExpire_keeps _ _ _ _ he
      split at hc
      · cases hc; exact ⟨fun h hm => .inr (hsub h hm), fun _ => hsub _ (by assumption)⟩
      · cases hc
        refine ⟨fun h hm => ?_, fun h => by cases h⟩
        rcases List.mem_cons.mp hm with rfl | hm
        · exact .inl rfl
        · exact .inr (hsub h hm)

theorem run_fresh (hashFn : List UInt8 → UInt64) (period : UInt32) : ∀ (es : List (Int × List UInt8)) (d : Dedup) {d' : Dedup} {bs : List Bool},
    d.run hashFn period es = some (d', bs) → ∀ (k : Nat) (x : Int × List UInt8), es[k]? = some x → bs[k]? = some false →
    hashFn x.2 ∈ d.set ∨ ∃ (i : Nat) (y : Int × List UInt8), i < k ∧ es[i]? = some y ∧ hashFn y.2 = hashFn x.2
  | [], _, _, _, _, k, x, hx, _ => by simp at hx
  | (now, pkt) :: es, d, d', bs, h, k, x, hx, hb => by
    unfold Dedup.run at h
    split at h
    · cases h
    · rename_i d1 b hc
      split at h
      · cases h
      · rename_i d2 bs2 hr
        cases h
        obtain ⟨c1, c2⟩ := check_sub hc
        cases k with
        | zero =>
          simp only [List.getElem?_cons_zero, Option.some.injEq] at hx hb
          subst hx
          exact .inl (c2 hb)
        | succ k =>
          simp only [List.getElem?_cons_succ] at hx hb
          rcases run_fresh hashFn period es d1 hr k x hx hb with hm | ⟨i, y, h1, h2, h3⟩
          · rcases c1 _ hm with he | hm
            · exact .inr ⟨0, _, by omega, rfl, he.symm⟩
            · exact .inl hm
          · exact .inr ⟨i + 1, y, by omega, by simpa using h2, h3⟩

theorem timed_snd (clock : Nat → Int) : ∀ (as : List Arrival) (n k : Nat), ((timed clock n as)[k]?).map Prod.snd = (as[k]?).map (fun a => a.msg.data)
  | [], _, _ => rfl
  | a :: as, n, 0 => rfl
  | a :: as, n, k + 1 => by simpa [timed] using timed_snd clock as (n + 1) k

/-- Whatever the period and the clock: a message without copies is let in exactly if the incoming filters admit it. -/
theorem passed_nocopy (env : Env σ) (ht : TableOk env.tbl) (eps : List Ep) (hc : ConfigOk eps) (logs : Nat → σ) (evs : List RouterEv)
    (w : World σ) (as1 as2 : List Arrival) (h : runRouter env (start eps logs) evs = some (w, as1 ++ as2))
    (hn : NoCopies env.hashFn as1 as2) :
    ∀ a ∈ as2, (a.passed = true ↔ inOk (((eps[a.ep]?).map Ep.filters).getD {}) a.msg) := by
  intro a ha
  refine ⟨passed_in env ht eps hc logs evs w _ h a (by simp [ha]), fun hin => ?_⟩
  obtain ⟨k, hk⟩ := List.getElem?_of_mem ha
  have hk' : (as1 ++ as2)[as1.length + k]? = some a := by rw [List.getElem?_append_right (by omega)]; simpa using hk
  obtain ⟨_, bs, hrun, hv⟩ := runRouter_dedup env evs _ (start_inv eps hc logs) h
  have hok := runRouter_msgOk env ht evs _ (.start hc) h a (by simp [ha])
  obtain ⟨e, b, he, hb, hiff⟩ := hv.get _ a hk'
  rw [← filters_start env eps hc logs evs w _ h _ e he] at hin
  refine hiff.mpr ⟨?_, (allowedIn_iff _ _ hok).mpr hin⟩
  cases b with
  | true => rfl
  | false =>
    exfalso
    have ht1 := timed_snd env.clock (as1 ++ as2) (start eps logs).checks (as1.length + k)
    rw [hk'] at ht1
    obtain ⟨x, hx, hx2⟩ := Option.map_eq_some_iff.mp ht1
    rcases run_fresh _ _ _ _ hrun _ x hx hb with hm | ⟨i, y, hi, hy, hh⟩
    · simp [start] at hm
    · have ht2 := timed_snd env.clock (as1 ++ as2) (start eps logs).checks i
      rw [hy] at ht2
      obtain ⟨c, hc1, hc2⟩ := Option.map_eq_some_iff.mp ht2.symm
      rw [hx2, ← hc2] at hh
      rcases Nat.lt_or_ge i as1.length with hlt | hge
      · rw [List.getElem?_append_left hlt] at hc1
        exact hn.2 a ha c (List.mem_of_getElem? hc1) hh
      · rw [List.getElem?_append_right hge] at hc1
        have hnd := hn.1
        have q1 : (as2.map fun a => env.hashFn a.msg.data)[k]? = some (env.hashFn a.msg.data) := by simp [hk]
        have q2 : (as2.map fun a => env.hashFn a.msg.data)[i - as1.length]? = some (env.hashFn a.msg.data) := by simp [hc1, hh]
        have hlt : k < (as2.map fun a => env.hashFn a.msg.data).length := (List.getElem?_eq_some_iff.mp q1).1
        have := (List.getElem?_inj hlt hnd).mp (q1.trans q2.symm)
        omega

/-- Either way, as far as the messages after `as1` are concerned. -/
theorem passed_once (env : Env σ) (ht : TableOk env.tbl) (eps : List Ep) (hc : ConfigOk eps) (logs : Nat → σ) (evs : List RouterEv)
    (w : World σ) (as1 as2 : List Arrival) (h : runRouter env (start eps logs) evs = some (w, as1 ++ as2))
    (hn : env.dedupPeriod = 0 ∨ NoCopies env.hashFn as1 as2) :
    ∀ a ∈ as2, (a.passed = true ↔ inOk (((eps[a.ep]?).map Ep.filters).getD {}) a.msg) := by
  rcases hn with hp | hn
  · exact fun a ha => passed_filters env ht hp eps hc logs evs w _ h a (by simp [ha])
  · exact passed_nocopy env ht eps hc logs evs w as1 as2 h hn

end Verif
