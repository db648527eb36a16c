import Verif.Model.Dedup
import Verif.Spec.Dedup

namespace Verif

open Spec

/-- The queue holds each hash once and the set holds exactly the hashes of the queue. -/
structure Dedup.Inv (d : Dedup) : Prop where
  nodup : (d.queue.map Prod.snd).Nodup
  perm : d.set.Perm (d.queue.map Prod.snd)

theorem dedupExpire_inv (ts period : UInt32) : ∀ (q : List (UInt32 × UInt64)) (s : List UInt64),
    (q.map Prod.snd).Nodup → s.Perm (q.map Prod.snd) →
    ∃ q' s', dedupExpire ts period q s = some (q', s') ∧ q' = q.dropWhile (fun e => ts > e.1 + period) ∧
      (q'.map Prod.snd).Nodup ∧ s'.Perm (q'.map Prod.snd) := by
  intro q
  induction q with
  | nil => intro s hn hp; exact ⟨[], s, rfl, rfl, hn, hp⟩
  | cons e q ih =>
    intro s hn hp
    obtain ⟨t, h⟩ := e
    unfold dedupExpire
    by_cases hc : ts > t + period
    · rw [if_pos hc]
      have hm : h ∈ s := hp.mem_iff.mpr (by simp)
      rw [if_pos hm]
      simp only [List.map_cons, List.nodup_cons] at hn
      have hp' : (s.erase h).Perm (q.map Prod.snd) := by
        have := hp.erase h
        simpa using this
      obtain ⟨q', s', a, b, c, d⟩ := ih (s.erase h) hn.2 hp'
      exact ⟨q', s', a, by rw [b, List.dropWhile_cons]; simp [hc], c, d⟩
    · rw [if_neg hc]
      exact ⟨_, _, rfl, by rw [List.dropWhile_cons]; simp [hc], hn, hp⟩

theorem Dedup.checkHash_inv (d : Dedup) (hd : d.Inv) (period : UInt32) (now : Int) (hash : UInt64) :
    ∃ d' b, d.checkHash period now hash = some (d', b) ∧ d'.Inv := by
  obtain ⟨q', s', a, _, c, e⟩ := dedupExpire_inv (dedupTimestamp now) period d.queue d.set hd.nodup hd.perm
  unfold Dedup.checkHash
  simp only [a]
  by_cases hm : hash ∈ s'
  · rw [if_pos hm]; exact ⟨_, _, rfl, c, e⟩
  · rw [if_neg hm]
    refine ⟨_, _, rfl, ?_, ?_⟩
    · simp only [List.map_append, List.map_cons, List.map_nil]
      rw [List.nodup_append]
      refine ⟨c, by simp, ?_⟩
      intro x hx y hy
      simp at hy
      subst hy
      intro h
      subst h
      exact hm (e.mem_iff.mpr hx)
    · simp only [List.map_append, List.map_cons, List.map_nil]
      exact (List.Perm.cons _ e).trans (List.perm_append_singleton _ _).symm

theorem Dedup.check_inv (hashFn : List UInt8 → UInt64) (d : Dedup) (hd : d.Inv) (period : UInt32)
    (now : Int) (pkt : List UInt8) :
    ∃ d' b, d.check hashFn period now pkt = some (d', b) ∧ d'.Inv := by
  unfold Dedup.check
  split
  · exact ⟨_, _, rfl, hd⟩
  · exact d.checkHash_inv hd period now _

theorem Dedup.run_inv (hashFn : List UInt8 → UInt64) (period : UInt32) :
    ∀ (es : List (Int × List UInt8)) (d : Dedup), d.Inv →
      ∃ d' bs, d.run hashFn period es = some (d', bs) ∧ d'.Inv ∧ bs.length = es.length := by
  intro es
  induction es with
  | nil => intro d hd; exact ⟨d, [], rfl, hd, rfl⟩
  | cons e es ih =>
    intro d hd
    obtain ⟨now, pkt⟩ := e
    obtain ⟨d', b, h1, h2⟩ := d.check_inv hashFn hd period now pkt
    obtain ⟨d'', bs, h3, h4, h5⟩ := ih d' h2
    refine ⟨d'', b :: bs, ?_, h4, by simp [h5]⟩
    unfold Dedup.run
    simp only [h1, h3]

/-! ### Sane clock -/

theorem ts_of_nat {t : Nat} (h : t < 4294967296) : (dedupTimestamp (t : Int)).toNat = t := by
  unfold dedupTimestamp
  rw [UInt32.toNat_ofNat']
  omega

/-- Relation between the memory and the accepted packets at time `now`: the queue is the accepted packets that
are not yet known to be expired. -/
structure DedupRel (P now : Nat) (acc : List (Nat × UInt64)) (d : Dedup) : Prop where
  inv : d.Inv
  /-- every queue entry is an accepted packet -/
  sound : ∀ e ∈ d.queue, (e.1.toNat, e.2) ∈ acc
  /-- every accepted packet that may still matter is in the queue -/
  complete : ∀ a ∈ acc, now ≤ a.1 + P → ∃ e ∈ d.queue, e.1.toNat = a.1 ∧ e.2 = a.2
  /-- accepted before now, within the 32-bit range -/
  past : ∀ a ∈ acc, a.1 ≤ now ∧ a.1 + P < 4294967296
  sorted : d.queue.Pairwise (fun a b => a.1.toNat ≤ b.1.toNat)

theorem DedupRel.later {P now now' acc d} (h : DedupRel P now acc d) (hle : now ≤ now') :
    DedupRel P now' acc d :=
  ⟨h.inv, h.sound, fun a ha hn => h.complete a ha (by omega), fun a ha =>
    ⟨by have := (h.past a ha).1; omega, (h.past a ha).2⟩, h.sorted⟩

theorem dropWhile_sorted {P now : Nat} {period ts : UInt32} (hP : period.toNat = P) (hts : ts.toNat = now) :
    ∀ (q : List (UInt32 × UInt64)), q.Pairwise (fun a b => a.1.toNat ≤ b.1.toNat) →
    (∀ e ∈ q, e.1.toNat + P < 4294967296) →
    ∀ e, e ∈ q.dropWhile (fun e => ts > e.1 + period) ↔ e ∈ q ∧ now ≤ e.1.toNat + P := by
  intro q
  have hgt : ∀ x : UInt32, x.toNat + P < 4294967296 → (ts > x + period ↔ x.toNat + P < now) := by
    intro x hx
    rw [gt_iff_lt, UInt32.lt_iff_toNat_lt, UInt32.toNat_add, hP, hts, Nat.mod_eq_of_lt (by omega)]
  induction q with
  | nil => intro _ _ e; simp
  | cons x q ih =>
    intro hs hb e
    rw [List.pairwise_cons] at hs
    rw [List.dropWhile_cons]
    have hx := hgt x.1 (hb x (by simp))
    by_cases hc : ts > x.1 + period
    · rw [if_pos (by simpa using hc), ih hs.2 (fun e he => hb e (by simp [he])) e]
      constructor
      · rintro ⟨a, b⟩; exact ⟨by simp [a], b⟩
      · rintro ⟨a, b⟩
        rcases List.mem_cons.mp a with rfl | a
        · have := hx.mp hc; omega
        · exact ⟨a, b⟩
    · rw [if_neg (by simpa using hc)]
      constructor
      · intro he
        refine ⟨he, ?_⟩
        have h0 : ¬ x.1.toNat + P < now := fun h => hc (hx.mpr h)
        rcases List.mem_cons.mp he with rfl | he
        · omega
        · have := hs.1 e he; omega
      · exact fun h => h.1

theorem DedupRel.step {P t : Nat} {acc d} {period : UInt32} (hP : period.toNat = P) (h : DedupRel P t acc d)
    (ht : t + P < 4294967296) (hash : UInt64) :
    ∃ d', (d.checkHash period (t : Int) hash =
        some (d', !decide (∃ a ∈ acc, a.2 = hash ∧ t ≤ a.1 + P))) ∧
      (∀ e ∈ d'.queue, t ≤ e.1.toNat + P) ∧
      (if ∃ a ∈ acc, a.2 = hash ∧ t ≤ a.1 + P then DedupRel P t acc d'
       else DedupRel P t ((t, hash) :: acc) d') := by
  have hts := ts_of_nat (t := t) (by omega)
  obtain ⟨q', s', a, b, c, e⟩ :=
    dedupExpire_inv (dedupTimestamp (t : Int)) period d.queue d.set h.inv.nodup h.inv.perm
  have hq := dropWhile_sorted hP hts d.queue h.sorted
    (fun x hx => (h.past _ (h.sound x hx)).2)
  rw [← b] at hq
  have hsort : q'.Pairwise (fun a b => a.1.toNat ≤ b.1.toNat) := by
    rw [b]; exact h.sorted.sublist (List.dropWhile_sublist _)
  have hmem : hash ∈ s' ↔ ∃ a ∈ acc, a.2 = hash ∧ t ≤ a.1 + P := by
    rw [e.mem_iff, List.mem_map]
    constructor
    · rintro ⟨x, hx, rfl⟩
      obtain ⟨h1, h2⟩ := (hq x).mp hx
      exact ⟨_, h.sound x h1, rfl, h2⟩
    · rintro ⟨y, hy, rfl, hle⟩
      obtain ⟨x, hx, e1, e2⟩ := h.complete y hy hle
      exact ⟨x, (hq x).mpr ⟨hx, by omega⟩, e2⟩
  have hbase : DedupRel P t acc { queue := q', set := s' } := by
    refine ⟨⟨c, e⟩, fun x hx => h.sound x ((hq x).mp hx).1, ?_, h.past, hsort⟩
    intro y hy hle
    obtain ⟨x, hx, e1, e2⟩ := h.complete y hy hle
    exact ⟨x, (hq x).mpr ⟨hx, by omega⟩, e1, e2⟩
  by_cases hc : ∃ a ∈ acc, a.2 = hash ∧ t ≤ a.1 + P
  · refine ⟨{ queue := q', set := s' }, ?_, fun x hx => ((hq x).mp hx).2, by rw [if_pos hc]; exact hbase⟩
    unfold Dedup.checkHash
    simp only [a, hmem.mpr hc, if_true]
    simp [hc]
  · have hnm : ¬ hash ∈ s' := fun hm => hc (hmem.mp hm)
    obtain ⟨d', bb, h1, h2⟩ := d.checkHash_inv h.inv period (t : Int) hash
    have hval : d.checkHash period (t : Int) hash =
        some ({ queue := q' ++ [(dedupTimestamp (t : Int), hash)], set := hash :: s' }, true) := by
      unfold Dedup.checkHash
      simp only [a, if_neg hnm]
    rw [hval] at h1
    cases h1
    refine ⟨{ queue := q' ++ [(dedupTimestamp (t : Int), hash)], set := hash :: s' },
      by rw [hval]; simp [hc], ?_, ?_⟩
    · intro x hx
      simp only [List.mem_append, List.mem_singleton] at hx
      rcases hx with hx | rfl
      · exact ((hq x).mp hx).2
      · simp only [hts]; omega
    · rw [if_neg hc]
      refine ⟨h2, ?_, ?_, ?_, ?_⟩
      · intro x hx
        simp only [List.mem_append, List.mem_singleton] at hx
        rcases hx with hx | rfl
        · exact List.mem_cons_of_mem _ (hbase.sound x hx)
        · simp [hts]
      · intro y hy hle
        rcases List.mem_cons.mp hy with rfl | hy
        · exact ⟨(dedupTimestamp (t : Int), hash), by simp, hts, rfl⟩
        · obtain ⟨x, hx, e1, e2⟩ := hbase.complete y hy hle
          exact ⟨x, by simp only [List.mem_append]; exact .inl hx, e1, e2⟩
      · intro y hy
        rcases List.mem_cons.mp hy with rfl | hy
        · exact ⟨Nat.le_refl _, ht⟩
        · exact h.past y hy
      · simp only []
        rw [List.pairwise_append]
        refine ⟨hsort, by simp, ?_⟩
        intro x hx y hy
        simp at hy
        subst hy
        simp only [hts]
        exact (h.past _ (hbase.sound x hx)).1

end Verif
