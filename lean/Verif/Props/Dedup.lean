import Verif.Lemmas.Dedup

/- Properties C22 – C25: de-duplication. -/

namespace Verif

open Spec

/-- **C22**: with period `P > 0` and a clock that does not go backwards nor exceed the 32-bit range, a packet is
dropped iff a packet with the same content hash was accepted at most `P` ms earlier; for every hash function. -/
theorem C22_exact (hashFn : List UInt8 → UInt64) (period : UInt32) (hp : period ≠ 0)
    (es : List (Nat × List UInt8))
    (hmono : es.Pairwise (fun a b => a.1 ≤ b.1))
    (hrange : ∀ e ∈ es, e.1 + period.toNat < 4294967296) :
    ∃ d, Dedup.run hashFn period {} (es.map (fun e => ((e.1 : Int), e.2))) =
      some (d, dedupPass hashFn period.toNat [] es) := by
  have key : ∀ (es : List (Nat × List UInt8)) (now : Nat) (acc : List (Nat × UInt64)) (d : Dedup),
      DedupRel period.toNat now acc d → es.Pairwise (fun a b => a.1 ≤ b.1) →
      (∀ e ∈ es, now ≤ e.1 ∧ e.1 + period.toNat < 4294967296) →
      ∃ d', d.run hashFn period (es.map (fun e => ((e.1 : Int), e.2))) =
        some (d', dedupPass hashFn period.toNat acc es) := by
    intro es
    induction es with
    | nil => intro now acc d _ _ _; exact ⟨d, rfl⟩
    | cons e es ih =>
      intro now acc d hrel hm hr
      obtain ⟨t, pkt⟩ := e
      rw [List.pairwise_cons] at hm
      obtain ⟨hr1, hr2⟩ := hr (t, pkt) (by simp)
      obtain ⟨d', h1, _, h3⟩ := (hrel.later hr1).step rfl hr2 (hashFn pkt)
      have hchk : d.check hashFn period (t : Int) pkt = d.checkHash period (t : Int) (hashFn pkt) := by
        unfold Dedup.check; rw [if_neg hp]
      simp only [List.map_cons, Dedup.run, hchk, h1, dedupPass]
      have hnext : ∀ e ∈ es, t ≤ e.1 ∧ e.1 + period.toNat < 4294967296 :=
        fun e he => ⟨hm.1 e he, (hr e (by simp [he])).2⟩
      by_cases hc : ∃ a ∈ acc, a.2 = hashFn pkt ∧ t ≤ a.1 + period.toNat
      · rw [if_pos hc] at h3 ⊢
        obtain ⟨d'', hd''⟩ := ih t acc d' h3 hm.2 hnext
        refine ⟨d'', ?_⟩
        simp only [hd'']
        simp [hc]
      · rw [if_neg hc] at h3 ⊢
        obtain ⟨d'', hd''⟩ := ih t _ d' h3 hm.2 hnext
        refine ⟨d'', ?_⟩
        simp only [hd'']
        simp [hc]
  exact key es 0 [] {} ⟨⟨by simp, by simp⟩, by simp, by simp, by simp, by simp⟩ hmono
    (fun e he => ⟨Nat.zero_le _, hrange e he⟩)

/-- **C22** (disabled): with period 0 nothing is ever dropped, whatever the clock does. -/
theorem C22_disabled (hashFn : List UInt8 → UInt64) (d : Dedup) (es : List (Int × List UInt8)) :
    d.run hashFn 0 es = some (d, es.map (fun _ => true)) := by
  induction es with
  | nil => rfl
  | cons e es ih =>
    obtain ⟨now, pkt⟩ := e
    simp [Dedup.run, Dedup.check, ih]

/-- A hash function for the examples: the first byte. -/
def Sample.hash1 : List UInt8 → UInt64 := fun l => (l.headD 0).toUInt64

example : ∃ d, Dedup.run Sample.hash1 100 {} [(0, [7]), (60, [7]), (100, [7]), (101, [7]), (150, [8]), (150, [8])]
    = some (d, [true, false, false, true, true, false]) :=
  C22_exact Sample.hash1 100 (by decide) [(0, [7]), (60, [7]), (100, [7]), (101, [7]), (150, [8]), (150, [8])]
    (by decide) (by decide)

theorem ts_epoch (t : Int) (k : Int) : dedupTimestamp (t + k * 4294967296) = dedupTimestamp t := by
  unfold dedupTimestamp
  rw [Int.add_mul_emod_self_right]

/-- The clock counts only modulo 2^32 ms. -/
theorem run_epoch (hashFn : List UInt8 → UInt64) (period : UInt32) (k : Int) (es : List (Int × List UInt8)) (d : Dedup) :
    d.run hashFn period (es.map fun e => (e.1 + k * 4294967296, e.2)) = d.run hashFn period es := by
  induction es generalizing d with
  | nil => rfl
  | cons e es ih =>
    have h : d.check hashFn period (e.1 + k * 4294967296) e.2 = d.check hashFn period e.1 e.2 := by
      simp only [Dedup.check, Dedup.checkHash, ts_epoch]
    simp only [List.map_cons, Dedup.run, h]
    cases d.check hashFn period e.1 e.2 with
    | none => rfl
    | some r => simp only [ih]

/-- **C22** (any time): the same holds for a history that begins with an empty memory in any of the periods of 2^32 ms, also in
those before the router was started (the clock may be stepped back), as long as it does not leave the period. -/
theorem C22_epoch (hashFn : List UInt8 → UInt64) (period : UInt32) (hp : period ≠ 0) (k : Int)
    (es : List (Nat × List UInt8))
    (hmono : es.Pairwise (fun a b => a.1 ≤ b.1))
    (hrange : ∀ e ∈ es, e.1 + period.toNat < 4294967296) :
    ∃ d, Dedup.run hashFn period {} (es.map (fun e => ((e.1 : Int) + k * 4294967296, e.2))) =
      some (d, dedupPass hashFn period.toNat [] es) := by
  obtain ⟨d, hd⟩ := C22_exact hashFn period hp es hmono hrange
  refine ⟨d, ?_⟩
  have h := run_epoch hashFn period k (es.map fun e => ((e.1 : Int), e.2)) {}
  rw [List.map_map] at h
  exact h.trans hd

example : (Dedup.run Sample.hash1 100 {} [(0 - 4294967296, [7]), (100 - 4294967296, [7]), (101 - 4294967296, [7])]).map Prod.snd =
    some [true, false, true] := by decide +kernel

/-- **C23** is false of the code: with a period of 100 ms, copies at 0, 60 and 120 ms; the copy at 60 ms is
dropped but does not restart the period (src/dedup.cpp:53-60 does not touch the queue for a known hash), so the
copy at 120 ms is passed on, whereas the documentation (src/dedup.h:28-30) says it is dropped. -/
theorem C23_violated :
    (Dedup.run Sample.hash1 100 {} [(0, [7]), (60, [7]), (120, [7])]).map Prod.snd = some [true, false, true] ∧
    dedupPassReset Sample.hash1 100 [] [(0, [7]), (60, [7]), (120, [7])] = [true, false, false] := by
  decide +kernel

/-- **C23** (partial): every packet the code drops is dropped by the documented rule too, at every position of
every sequence. Missing: packets the documented rule drops
because of an earlier dropped copy (`C23_violated`). -/
theorem C23_reset_partial (hashFn : List UInt8 → UInt64) (period : UInt32) (hp : period ≠ 0)
    (es : List (Nat × List UInt8))
    (hmono : es.Pairwise (fun a b => a.1 ≤ b.1))
    (hrange : ∀ e ∈ es, e.1 + period.toNat < 4294967296) :
    ∃ d bs, Dedup.run hashFn period {} (es.map (fun e => ((e.1 : Int), e.2))) = some (d, bs) ∧
      ∀ i : Nat, bs[i]? = some false → (dedupPassReset hashFn period.toNat [] es)[i]? = some false := by
  obtain ⟨d, hd⟩ := C22_exact hashFn period hp es hmono hrange
  refine ⟨d, _, hd, ?_⟩
  have key : ∀ (es : List (Nat × List UInt8)) (acc seen : List (Nat × UInt64)), (∀ a ∈ acc, a ∈ seen) →
      ∀ i : Nat, (dedupPass hashFn period.toNat acc es)[i]? = some false →
        (dedupPassReset hashFn period.toNat seen es)[i]? = some false := by
    intro es
    induction es with
    | nil => intro acc seen _ i h; simp [dedupPass] at h
    | cons e es ih =>
      intro acc seen hsub i h
      obtain ⟨t, pkt⟩ := e
      simp only [dedupPass] at h
      simp only [dedupPassReset]
      split at h
      · rename_i hc
        cases i with
        | zero =>
          obtain ⟨a, ha, h1, h2⟩ := hc
          have : ∃ a ∈ seen, a.2 = hashFn pkt ∧ t ≤ a.1 + period.toNat := ⟨a, hsub a ha, h1, h2⟩
          simp [this]
        | succ i =>
          simp only [List.getElem?_cons_succ] at h ⊢
          exact ih acc _ (fun a ha => List.mem_cons_of_mem _ (hsub a ha)) i h
      · cases i with
        | zero => simp at h
        | succ i =>
          simp only [List.getElem?_cons_succ] at h ⊢
          refine ih _ _ ?_ i h
          intro a ha
          rcases List.mem_cons.mp ha with rfl | ha
          · simp
          · exact List.mem_cons_of_mem _ (hsub a ha)
  exact key es [] [] (by simp)

example : ∃ d bs, Dedup.run Sample.hash1 100 {} [(0, [7]), (60, [7]), (120, [7])] = some (d, bs) ∧
    bs[1]? = some false := ⟨_, _, rfl, by decide +kernel⟩

/-- **C24**: for arbitrary clock readings the memory never holds a hash twice, the set and the queue always
agree, and expiry never erases a missing element (the run is never undefined). -/
theorem C24_consistent (hashFn : List UInt8 → UInt64) (period : UInt32) (es : List (Int × List UInt8)) :
    ∃ d bs, Dedup.run hashFn period {} es = some (d, bs) ∧ bs.length = es.length ∧
      d.set.Nodup ∧ (d.queue.map Prod.snd).Nodup ∧ ∀ h, h ∈ d.set ↔ h ∈ d.queue.map Prod.snd := by
  obtain ⟨d, bs, h1, h2, h3⟩ := Dedup.run_inv hashFn period es {} ⟨by simp, by simp⟩
  exact ⟨d, bs, h1, h3, h2.perm.nodup_iff.mpr h2.nodup, h2.nodup, fun h => h2.perm.mem_iff⟩

/-- A run with a clock that wraps and is stepped back. -/
example : ∃ d bs, Dedup.run Sample.hash1 100 {} [(4294967295, [1]), (5, [2]), (-3, [1]), (4294967400, [2])] =
    some (d, bs) ∧ d.set.Nodup := by
  obtain ⟨d, bs, h, _, h2, _⟩ := C24_consistent Sample.hash1 100
    [(4294967295, [1]), (5, [2]), (-3, [1]), (4294967400, [2])]
  exact ⟨d, bs, h, h2⟩

/-- **C24** (bounded): with a sane clock, after each packet the memory holds only entries accepted at most `P` ms
ago. -/
theorem C24_recent_only (hashFn : List UInt8 → UInt64) (period : UInt32) (hp : period ≠ 0)
    (es : List (Nat × List UInt8)) (last : Nat × List UInt8)
    (hmono : (es ++ [last]).Pairwise (fun a b => a.1 ≤ b.1))
    (hrange : ∀ e ∈ es ++ [last], e.1 + period.toNat < 4294967296) :
    ∃ d bs, Dedup.run hashFn period {} ((es ++ [last]).map (fun e => ((e.1 : Int), e.2))) = some (d, bs) ∧
      ∀ e ∈ d.queue, e.1.toNat ≤ last.1 ∧ last.1 ≤ e.1.toNat + period.toNat := by
  have key : ∀ (es : List (Nat × List UInt8)) (now : Nat) (acc : List (Nat × UInt64)) (d : Dedup),
      DedupRel period.toNat now acc d → (es ++ [last]).Pairwise (fun a b => a.1 ≤ b.1) →
      (∀ e ∈ es ++ [last], now ≤ e.1 ∧ e.1 + period.toNat < 4294967296) →
      ∃ d' bs, d.run hashFn period ((es ++ [last]).map (fun e => ((e.1 : Int), e.2))) = some (d', bs) ∧
        ∀ e ∈ d'.queue, e.1.toNat ≤ last.1 ∧ last.1 ≤ e.1.toNat + period.toNat := by
    intro es
    induction es with
    | nil =>
      intro now acc d hrel _ hr
      obtain ⟨hr1, hr2⟩ := hr last (by simp)
      obtain ⟨d', h1, h2, h3⟩ := (hrel.later hr1).step rfl hr2 (hashFn last.2)
      have hchk : d.check hashFn period (last.1 : Int) last.2 =
          d.checkHash period (last.1 : Int) (hashFn last.2) := by
        unfold Dedup.check; rw [if_neg hp]
      refine ⟨d', _, by simp only [List.nil_append, List.map_cons, List.map_nil, Dedup.run, hchk, h1]; rfl, ?_⟩
      intro e he
      refine ⟨?_, h2 e he⟩
      split at h3
      · exact (h3.past _ (h3.sound e he)).1
      · exact (h3.past _ (h3.sound e he)).1
    | cons e es ih =>
      intro now acc d hrel hm hr
      obtain ⟨t, pkt⟩ := e
      rw [List.cons_append, List.pairwise_cons] at hm
      obtain ⟨hr1, hr2⟩ := hr (t, pkt) (by simp)
      obtain ⟨d', h1, _, h3⟩ := (hrel.later hr1).step rfl hr2 (hashFn pkt)
      have hchk : d.check hashFn period (t : Int) pkt = d.checkHash period (t : Int) (hashFn pkt) := by
        unfold Dedup.check; rw [if_neg hp]
      have hnext : ∀ e ∈ es ++ [last], t ≤ e.1 ∧ e.1 + period.toNat < 4294967296 :=
        fun e he => ⟨hm.1 e he, (hr e (by simp only [List.cons_append, List.mem_cons]; exact .inr he)).2⟩
      have : ∃ acc', DedupRel period.toNat t acc' d' := by
        split at h3
        · exact ⟨_, h3⟩
        · exact ⟨_, h3⟩
      obtain ⟨acc', h3⟩ := this
      obtain ⟨d'', bs, h4, h5⟩ := ih t acc' d' h3 hm.2 hnext
      exact ⟨d'', _, by simp only [List.cons_append, List.map_cons, Dedup.run, hchk, h1, h4]; rfl, h5⟩
  exact key es 0 [] {} ⟨⟨by simp, by simp⟩, by simp, by simp, by simp, by simp⟩ hmono
    (fun e he => ⟨Nat.zero_le _, hrange e he⟩)

example : ∃ d bs, Dedup.run Sample.hash1 100 {} [(0, [1]), (50, [2]), (120, [3])] = some (d, bs) ∧
    d.queue = [(50, 2), (120, 3)] := ⟨_, _, rfl, by decide +kernel⟩

/-- **C25** is false of the code, first form: a packet accepted 2 s before the 32-bit millisecond counter wraps
stays in memory when no other packet arrives before the wrap; a copy that arrives 7 s later (period 1 s) is
dropped. -/
theorem C25_violated :
    (Dedup.run Sample.hash1 1000 {} [(4294965296, [7]), (4294972296, [7])]).map Prod.snd
      = some [true, false] := by
  decide +kernel

/-- **C25**, how bad it is: such an entry blocks its content for every later clock reading up to the next time
the counter passes its expiry (about 49.7 days). -/
theorem C25_stuck_entry (hashFn : List UInt8 → UInt64) (period : UInt32) (hp : period ≠ 0) (d : Dedup)
    (t : UInt32) (pkt : List UInt8) (rest : List (UInt32 × UInt64)) (now : Int)
    (hfront : d.queue = (t, hashFn pkt) :: rest) (hset : hashFn pkt ∈ d.set)
    (hnow : dedupTimestamp now ≤ t + period) :
    d.check hashFn period now pkt = some (d, false) := by
  unfold Dedup.check Dedup.checkHash
  rw [if_neg hp, hfront]
  have : ¬ dedupTimestamp now > t + period := by
    rw [gt_iff_lt, UInt32.lt_iff_toNat_lt]
    rw [UInt32.le_iff_toNat_le] at hnow
    omega
  simp only [dedupExpire, if_neg this, if_pos hset]
  cases d
  simp_all

example : dedupTimestamp (4294967296 + 3000000000) ≤ (4294965296 : UInt32) + 1000 := by decide

/-- **C25** is false of the code, second form: stepping the wall clock back by one hour makes the router drop a
copy that is sent 30 minutes after the original (period 1 s). -/
theorem C25_violated_clock_step :
    (Dedup.run Sample.hash1 1000 {} [(7200000, [7]), (7200000 + 1800000 - 3600000, [7])]).map Prod.snd
      = some [true, false] := by
  decide +kernel

/-- **C25** is false of the code, third form (the opposite failure): just before the counter wraps, the 32-bit
sum `time + period` wraps first and entries expire at once, so a copy 1 ms later is not recognised. -/
theorem C25_violated_early_expiry :
    (Dedup.run Sample.hash1 1000 {} [(4294967000, [7]), (4294967001, [7])]).map Prod.snd
      = some [true, true] := by
  decide +kernel

/-- **C25** (partial): a copy later than `P` ms is accepted as long as the clock has not been stepped back and
time + period stays within 32 bits. Missing: beyond that range it is false. -/
theorem C25_accepts_later_partial (hashFn : List UInt8 → UInt64) (period : UInt32) (hp : period ≠ 0)
    (es : List (Nat × List UInt8)) (last : Nat × List UInt8)
    (hmono : (es ++ [last]).Pairwise (fun a b => a.1 ≤ b.1))
    (hrange : ∀ e ∈ es ++ [last], e.1 + period.toNat < 4294967296)
    (hlate : ∀ e ∈ es, hashFn e.2 = hashFn last.2 → e.1 + period.toNat < last.1) :
    ∃ d bs, Dedup.run hashFn period {} ((es ++ [last]).map (fun e => ((e.1 : Int), e.2))) =
      some (d, bs ++ [true]) := by
  obtain ⟨d, hd⟩ := C22_exact hashFn period hp (es ++ [last]) hmono hrange
  have key : ∀ (es : List (Nat × List UInt8)) (acc : List (Nat × UInt64)),
      (∀ e ∈ es, hashFn e.2 = hashFn last.2 → e.1 + period.toNat < last.1) →
      (∀ a ∈ acc, a.2 = hashFn last.2 → a.1 + period.toNat < last.1) →
      ∃ bs, dedupPass hashFn period.toNat acc (es ++ [last]) = bs ++ [true] := by
    intro es
    induction es with
    | nil =>
      intro acc _ ha
      refine ⟨[], ?_⟩
      obtain ⟨t, pkt⟩ := last
      have hc : ¬ ∃ a ∈ acc, a.2 = hashFn pkt ∧ t ≤ a.1 + period.toNat := by
        rintro ⟨a, h1, h2, h3⟩
        have := ha a h1 h2
        simp only at this
        omega
      simp only [List.nil_append, dedupPass, if_neg hc]
    | cons e es ih =>
      intro acc he ha
      obtain ⟨t, pkt⟩ := e
      simp only [List.cons_append, dedupPass]
      split
      · obtain ⟨bs, hbs⟩ := ih acc (fun e h => he e (by simp [h])) ha
        exact ⟨false :: bs, by rw [hbs]; rfl⟩
      · obtain ⟨bs, hbs⟩ := ih ((t, hashFn pkt) :: acc) (fun e h => he e (by simp [h])) (by
          intro a h1 h2
          rcases List.mem_cons.mp h1 with rfl | h1
          · exact he (t, pkt) (by simp) h2
          · exact ha a h1 h2)
        exact ⟨true :: bs, by rw [hbs]; rfl⟩
  obtain ⟨bs, hbs⟩ := key es [] hlate (by simp)
  exact ⟨d, bs, by rw [hd, hbs]⟩

example : ∃ d bs, Dedup.run Sample.hash1 100 {} [(0, [1]), (50, [2]), (120, [1])] = some (d, bs ++ [true]) :=
  C25_accepts_later_partial Sample.hash1 100 (by decide) [(0, [1]), (50, [2])] (120, [1])
    (by decide) (by decide) (by decide)

end Verif
