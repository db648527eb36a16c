import Verif.Spec.Net
import Verif.Props.Routing

/- Property C109: messages between routers. -/

namespace Verif
open Spec

variable {σ : Type}

/-- Weight of the messages in transit. -/
def weight (D : Nat) (depth : Nat → Nat → Nat) (ts : List Transit) : Nat :=
  (ts.map (fun c => (D + 1) ^ depth c.router c.ep)).sum

theorem weight_append (D depth) (a b : List Transit) : weight D depth (a ++ b) = weight D depth a + weight D depth b := by
  simp [weight]

theorem weight_le (D : Nat) (depth : Nat → Nat → Nat) (k : Nat) : ∀ (ts : List Transit),
    (∀ c ∈ ts, (D + 1) ^ depth c.router c.ep ≤ k) → weight D depth ts ≤ ts.length * k
  | [], _ => by simp [weight]
  | c :: ts, h => by
    have h1 := weight_le D depth k ts (fun x hx => h x (List.mem_cons_of_mem _ hx))
    have h2 := h c List.mem_cons_self
    simp only [weight, List.map_cons, List.sum_cons, List.length_cons] at h1 ⊢
    rw [Nat.add_mul]
    omega

theorem direct_length (env : Env σ) {w w' : World σ} (hw : Reached env w) {i : Nat} {m : Msg} {b : Bool}
    (h : handleMsg env w i m = some (w', b)) : (directSince w w').length ≤ w.active.length := by
  obtain ⟨w1, b1, h1, _, _, _, hf, ht, _⟩ := handleMsg_spec env w (reached_inv hw) i m
  rw [h] at h1; cases h1
  cases b with
  | false => obtain ⟨d, c, rfl⟩ := hf rfl; simp [directSince]
  | true =>
    obtain ⟨h', d, _, _, rfl⟩ := ht rfl
    obtain ⟨new, hk, hnew⟩ := routeMsg_spec env 1 { w with eps := h', dedup := d, checks := w.checks + 1 } m
    have hd : directSince w (routeMsg env 2 false { w with eps := h', dedup := d, checks := w.checks + 1 } m) =
      new.filter (fun s => !s.gen) := hk.direct
    rw [hd]
    have : (new.filter (fun s => !s.gen)).length = ((new.filter (fun s => !s.gen)).map Sent.ep).length := by simp
    rw [this, hnew]
    exact List.length_filter_le _ _

/-- What one reception adds weighs less than what it removes. -/
theorem outgoing_weight (env : Env σ) (wires : Wires) (depth : Nat → Nat → Nat) (hN : NoRing wires depth) (w w' : World σ)
    (hw : Reached env w) (D : Nat) (hD : w.active.length ≤ D) (r i : Nat) (m : Msg) (b : Bool)
    (h : handleMsg env w i m = some (w', b)) :
    weight D depth (outgoing wires r m (directSince w w')) < (D + 1) ^ depth r i := by
  have hne : ∀ s ∈ directSince w w', s.ep ≠ i := by
    intro s hs e
    exact C11_no_echo env w w' hw i m b h s hs (.inl e.symm)
  have hlen : (directSince w w').length ≤ D := Nat.le_trans (direct_length env hw h) hD
  have hout : (outgoing wires r m (directSince w w')).length ≤ D :=
    Nat.le_trans (List.length_filterMap_le _ _) hlen
  have hmem : ∀ c ∈ outgoing wires r m (directSince w w'), depth c.router c.ep < depth r i := by
    intro c hc
    simp only [outgoing, List.mem_filterMap, Option.map_eq_some_iff] at hc
    obtain ⟨s, hs, ⟨r', i'⟩, hx, rfl⟩ := hc
    exact hN r i s.ep r' i' (hne s hs) hx
  cases hdep : depth r i with
  | zero =>
    have : outgoing wires r m (directSince w w') = [] := by
      apply List.eq_nil_iff_forall_not_mem.mpr
      intro c hc
      have := hmem c hc
      omega
    rw [this]
    simp [weight]
  | succ k =>
    have h1 := weight_le D depth ((D + 1) ^ k) (outgoing wires r m (directSince w w')) (by
      intro c hc
      have := hmem c hc
      exact Nat.pow_le_pow_right (by omega) (by omega))
    have h2 : (outgoing wires r m (directSince w w')).length * (D + 1) ^ k ≤ D * (D + 1) ^ k :=
      Nat.mul_le_mul_right _ hout
    have h3 : D * (D + 1) ^ k < (D + 1) ^ (k + 1) := by
      rw [Nat.pow_succ, Nat.mul_comm]
      exact Nat.mul_lt_mul_of_pos_left (by omega) (Nat.pow_pos (by omega))
    omega

/-- **C109** (part): in a network of routers without rings - any number of routers in any reachable states with any settings, any
messages in transit, lost or delayed in any way - only a bounded number of messages is ever received; the bound is given by the
messages in transit at the beginning. So every message dies out. Missing: rings, where this is false (`C109_violated`). -/
theorem C109_no_ring_partial (env : Nat → Env σ) (wires : Wires) (depth : Nat → Nat → Nat) (hN : NoRing wires depth) (D : Nat)
    (n n' : Net σ) (d : Nat) (hw : ∀ r, Reached (env r) (n.routers r)) (hD : ∀ r, (n.routers r).active.length ≤ D)
    (h : Flows env wires n d n') :
    d ≤ (n.transit.map (fun c => (D + 1) ^ depth c.router c.ep)).sum := by
  suffices d + weight D depth n'.transit ≤ weight D depth n.transit by
    simp only [weight] at this
    omega
  induction h with
  | done n => simp
  | @receive n n1 n2 pre post c d ht hr _ ih =>
    unfold Net.receive at hr
    cases hm : handleMsg (env c.router) (n.routers c.router) c.ep c.msg with
    | none => rw [hm] at hr; cases hr
    | some x =>
      obtain ⟨w, b⟩ := x
      rw [hm] at hr
      simp only [Option.some.injEq] at hr
      subst hr
      have hlt := outgoing_weight (env c.router) wires depth hN _ _ (hw c.router) D (hD c.router) c.router c.ep c.msg b hm
      obtain ⟨w1, b1, h1, _, _, hact, _⟩ := handleMsg_spec (env c.router) _ (reached_inv (hw c.router)) c.ep c.msg
      rw [hm] at h1; cases h1
      have := ih
        (by
          intro r
          simp only []
          by_cases e : r = c.router
          · subst e; rw [if_pos rfl]; exact .message (hw c.router) hm
          · rw [if_neg e]; exact hw r)
        (by
          intro r
          simp only []
          by_cases e : r = c.router
          · subst e; rw [if_pos rfl, hact]; exact hD c.router
          · rw [if_neg e]; exact hD r)
      simp only [weight_append] at this
      rw [ht, weight_append]
      simp only [weight, List.map_cons, List.sum_cons] at this hlt ⊢
      omega
  | @lose n n2 pre post c d ht _ ih =>
    have := ih hw hD
    simp only [weight_append] at this
    rw [ht, weight_append]
    simp only [weight, List.map_cons, List.sum_cons] at this ⊢
    omega

/-! ### De-duplication -/

/-- The hash was recorded in the period that begins at `t`. -/
def Fresh (t p : Nat) (d : Dedup) (h : UInt64) : Prop := ∃ e ∈ d.queue, e.2 = h ∧ t ≤ e.1.toNat ∧ e.1.toNat ≤ t + p

instance (t p d h) : Decidable (Fresh t p d h) := by unfold Fresh; infer_instance

theorem mem_dropWhile_of {α : Type} {q : α → Bool} : ∀ {l : List α} {x : α}, x ∈ l → q x = false → x ∈ l.dropWhile q
  | y :: l, x, hx, hq => by
    rw [List.dropWhile_cons]
    split
    · rename_i hy
      rcases List.mem_cons.mp hx with rfl | h
      · rw [hq] at hy; cases hy
      · exact mem_dropWhile_of h hq
    · exact hx

theorem check_fresh (hashFn : List UInt8 → UInt64) (d d' : Dedup) (hd : d.Inv) (period : UInt32) (hp : period ≠ 0) (t now : Nat)
    (ht : t + 2 * period.toNat < 4294967296) (h1 : t ≤ now) (h2 : now ≤ t + period.toNat) (pkt : List UInt8) (b : Bool)
    (h : d.check hashFn period now pkt = some (d', b)) :
    (∀ x, Fresh t period.toNat d x → Fresh t period.toNat d' x) ∧
    (b = true → ¬ Fresh t period.toNat d (hashFn pkt) ∧ Fresh t period.toNat d' (hashFn pkt)) := by
  unfold Dedup.check at h
  rw [if_neg hp] at h
  have hts : (dedupTimestamp (now : Int)).toNat = now := by
    unfold dedupTimestamp
    rw [UInt32.toNat_ofNat']
    omega
  obtain ⟨q', s', ha, hq, _, hperm⟩ := dedupExpire_inv (dedupTimestamp now) period d.queue d.set hd.nodup hd.perm
  have hkeep : ∀ x, Fresh t period.toNat d x → ∃ e ∈ q', e.2 = x ∧ t ≤ e.1.toNat ∧ e.1.toNat ≤ t + period.toNat := by
    rintro x ⟨e, he, hx, h3, h4⟩
    refine ⟨e, ?_, hx, h3, h4⟩
    rw [hq]
    refine mem_dropWhile_of he ?_
    simp only [gt_iff_lt, decide_eq_false_iff_not, UInt32.lt_iff_toNat_lt, UInt32.toNat_add, hts]
    omega
  unfold Dedup.checkHash at h
  simp only [ha] at h
  by_cases hm : hashFn pkt ∈ s'
  · rw [if_pos hm] at h
    cases h
    exact ⟨hkeep, by simp⟩
  · rw [if_neg hm] at h
    cases h
    refine ⟨?_, fun _ => ⟨?_, ?_⟩⟩
    · intro x hx
      obtain ⟨e, he, r⟩ := hkeep x hx
      exact ⟨e, List.mem_append_left _ he, r⟩
    · intro hx
      obtain ⟨e, he, r, _⟩ := hkeep _ hx
      refine hm (hperm.mem_iff.mpr ?_)
      rw [← r]
      exact List.mem_map_of_mem he
    · exact ⟨_, List.mem_append_right _ List.mem_cons_self, rfl, by simp only [hts]; omega, by simp only [hts]; omega⟩

/-- Hashes of `hs` that router state `w` has not recorded. -/
def unseen (t p : Nat) (hs : List UInt64) (w : World σ) : Nat := (hs.filter (fun h => ¬ Fresh t p w.dedup h)).length

theorem filter_length_mono {α : Type} (p q : α → Bool) (hpq : ∀ x, p x = true → q x = true) : ∀ (l : List α),
    (l.filter p).length ≤ (l.filter q).length ∧ (∀ x ∈ l, p x = false → q x = true → (l.filter p).length < (l.filter q).length)
  | [] => by simp
  | y :: l => by
    obtain ⟨h1, h2⟩ := filter_length_mono p q hpq l
    simp only [List.filter_cons]
    have hy := hpq y
    constructor
    · cases hp : p y <;> cases hq : q y <;> simp_all
      omega
    · intro x hx hp hq
      rcases List.mem_cons.mp hx with rfl | hx
      · simp [hp, hq]; omega
      · have := h2 x hx hp hq
        cases hp : p y <;> cases hq : q y <;> simp_all
        omega

theorem handle_unseen (env : Env σ) (t : Nat) (hE : OnePeriod env t) (hs : List UInt64) (w w' : World σ) (hw : Reached env w)
    (i : Nat) (m : Msg) (b : Bool) (h : handleMsg env w i m = some (w', b)) (hm : env.hashFn m.data ∈ hs) :
    unseen t env.dedupPeriod.toNat hs w' + (if b then 1 else 0) ≤ unseen t env.dedupPeriod.toNat hs w := by
  obtain ⟨hp, ht, hc⟩ := hE
  obtain ⟨now, hnow, h1, h2⟩ := hc w.checks
  have hinv := (reached_inv hw).dedup
  have key : (∀ x, Fresh t env.dedupPeriod.toNat w.dedup x → Fresh t env.dedupPeriod.toNat w'.dedup x) ∧
      (b = true → ¬ Fresh t env.dedupPeriod.toNat w.dedup (env.hashFn m.data) ∧
        Fresh t env.dedupPeriod.toNat w'.dedup (env.hashFn m.data)) := by
    unfold handleMsg at h
    cases he : w.eps[i]? with
    | none => rw [he] at h; cases h; exact ⟨fun _ h => h, by simp⟩
    | some e =>
      rw [he] at h
      simp only [hnow] at h
      cases hd : w.dedup.check env.hashFn env.dedupPeriod (now : Int) m.data with
      | none => rw [hd] at h; cases h
      | some x =>
        obtain ⟨d, isNew⟩ := x
        have hf := check_fresh env.hashFn w.dedup d hinv env.dedupPeriod hp t now ht h1 h2 m.data isNew hd
        rw [hd] at h
        simp only [] at h
        cases isNew with
        | false => simp at h; obtain ⟨rfl, rfl⟩ := h; exact ⟨hf.1, by simp⟩
        | true =>
          simp only [Bool.not_true, Bool.false_eq_true, if_false] at h
          split at h
          · cases h; exact ⟨hf.1, by simp⟩
          · split at h
            · cases h
            · rename_i eps' _
              cases h
              obtain ⟨new, hk, _⟩ := routeMsg_spec env 1 { w with dedup := d, checks := w.checks + 1, eps := eps' } m
              rw [hk.dedup]
              exact hf
  have hmono := filter_length_mono (fun h => decide (¬ Fresh t env.dedupPeriod.toNat w'.dedup h))
    (fun h => decide (¬ Fresh t env.dedupPeriod.toNat w.dedup h)) (by
      intro x hx
      simp only [decide_eq_true_eq] at hx ⊢
      exact fun h => hx (key.1 x h)) hs
  cases b with
  | false => exact hmono.1
  | true =>
    have := hmono.2 (env.hashFn m.data) hm (by simpa using (key.2 rfl).2) (by simpa using (key.2 rfl).1)
    exact this

theorem sum_range_update (R r v : Nat) (f g : Nat → Nat) (hr : r < R) (hg : ∀ k, g k = if k = r then v else f k) :
    ((List.range R).map g).sum + f r = ((List.range R).map f).sum + v := by
  induction R with
  | zero => omega
  | succ R ih =>
    simp only [List.range_succ, List.map_append, List.map_cons, List.map_nil, List.sum_append, List.sum_cons, List.sum_nil]
    have hR := hg R
    by_cases e : r = R
    · subst e
      have : (List.range r).map g = (List.range r).map f := by
        apply List.map_congr_left
        intro k hk
        rw [hg k, if_neg (by have := List.mem_range.mp hk; omega)]
      rw [this, hR, if_pos rfl]
      omega
    · have := ih (by omega)
      rw [hR, if_neg (by omega)]
      omega

/-- **C109** (part): in any network of `R` routers, with any rings, if all routers de-duplicate and everything happens within one
de-duplication period of each router, `k` messages in transit are received at most `k + D * R * k` times altogether, `D` being the
largest number of endpoints of a router. Log endpoints that edit messages in place (ULog) are excluded, since an edited
message is another message. Missing: rings without de-duplication or slower than the period (`C109_violated`). -/
theorem C109_dedup_partial (env : Nat → Env σ) (wires : Wires) (R D : Nat) (hash : List UInt8 → UInt64)
    (hH : ∀ r, (env r).hashFn = hash) (t : Nat → Nat) (hE : ∀ r, OnePeriod (env r) (t r))
    (hwires : ∀ r j r' i, wires r j = some (r', i) → r' < R)
    (hlog : ∀ r i s m, ((env r).log i s m).2.2 = m.data)
    (n n' : Net σ) (d : Nat) (hw : ∀ r, Reached (env r) (n.routers r)) (hD : ∀ r, (n.routers r).active.length ≤ D)
    (hR : ∀ c ∈ n.transit, c.router < R) (h : Flows env wires n d n') :
    d ≤ n.transit.length + D * (R * n.transit.length) := by
  let hs := n.transit.map (fun c => hash c.msg.data)
  let U (n : Net σ) : Nat := ((List.range R).map (fun r => unseen (t r) (env r).dedupPeriod.toNat hs (n.routers r))).sum
  have hU0 : U n ≤ R * n.transit.length := by
    have : ∀ (l : List Nat), (l.map (fun r => unseen (t r) (env r).dedupPeriod.toNat hs (n.routers r))).sum ≤ l.length * n.transit.length := by
      intro l
      induction l with
      | nil => simp
      | cons r l ih =>
        have h1 : unseen (t r) (env r).dedupPeriod.toNat hs (n.routers r) ≤ n.transit.length := by
          unfold unseen
          exact Nat.le_trans (List.length_filter_le _ _) (by simp [hs])
        simp only [List.map_cons, List.sum_cons, List.length_cons, Nat.add_mul]
        omega
    simpa using this (List.range R)
  have hh : ∀ c ∈ n.transit, hash c.msg.data ∈ hs := fun c hc => List.mem_map.mpr ⟨c, hc, rfl⟩
  suffices d + n'.transit.length + D * U n' ≤ n.transit.length + D * U n by
    have := Nat.mul_le_mul_left D hU0
    omega
  clear hU0
  clear_value hs
  induction h with
  | done n => simp
  | @receive n n1 n2 pre post c d ht hr _ ih =>
    have hc : c ∈ n.transit := by rw [ht]; simp
    unfold Net.receive at hr
    cases hm : handleMsg (env c.router) (n.routers c.router) c.ep c.msg with
    | none => rw [hm] at hr; cases hr
    | some x =>
      obtain ⟨w, b⟩ := x
      rw [hm] at hr
      simp only [Option.some.injEq] at hr
      obtain ⟨w1, b1, h1, _, _, hact, hfalse, htrue, _⟩ := handleMsg_spec (env c.router) _ (reached_inv (hw c.router)) c.ep c.msg
      rw [hm] at h1; cases h1
      have hu := handle_unseen (env c.router) _ (hE c.router) hs _ _ (hw c.router) c.ep c.msg b hm (by rw [hH]; exact hh c hc)
      have hbytes : ∀ s ∈ directSince (n.routers c.router) w, s.bytes = c.msg.data := by
        cases b with
        | false => obtain ⟨d, k, rfl⟩ := hfalse rfl; simp [directSince]
        | true =>
          obtain ⟨h', d, _, _, rfl⟩ := htrue rfl
          exact C20_same_bytes_partial (env c.router) { n.routers c.router with eps := h', dedup := d, checks := (n.routers c.router).checks + 1 }
            c.msg 1 (fun i _ _ _ _ s => hlog c.router i s c.msg)
      have hlen : (directSince (n.routers c.router) w).length ≤ if b then D else 0 := by
        cases b with
        | false => obtain ⟨d, k, rfl⟩ := hfalse rfl; simp [directSince]
        | true => exact Nat.le_trans (direct_length (env c.router) (hw c.router) hm) (hD c.router)
      have hmem : ∀ x ∈ outgoing wires c.router c.msg (directSince (n.routers c.router) w),
          x.router < R ∧ hash x.msg.data ∈ hs := by
        intro x hx
        simp only [outgoing, List.mem_filterMap, Option.map_eq_some_iff] at hx
        obtain ⟨s, hs', ⟨r', i'⟩, hx, rfl⟩ := hx
        refine ⟨hwires _ _ _ _ hx, ?_⟩
        simp only [hbytes s hs']
        exact hh c hc
      have hout : (outgoing wires c.router c.msg (directSince (n.routers c.router) w)).length ≤ if b then D else 0 :=
        Nat.le_trans (List.length_filterMap_le _ _) hlen
      have hsum := sum_range_update R c.router (unseen (t c.router) (env c.router).dedupPeriod.toNat hs w)
        (fun r => unseen (t r) (env r).dedupPeriod.toNat hs (n.routers r))
        (fun r => unseen (t r) (env r).dedupPeriod.toNat hs (n1.routers r)) (hR c hc) (by
          intro k
          rw [← hr]
          simp only []
          by_cases e : k = c.router
          · subst e; simp
          · simp [e])
      have hlt1 : n1.transit.length = pre.length + post.length +
          (outgoing wires c.router c.msg (directSince (n.routers c.router) w)).length := by
        rw [← hr]; simp; omega
      have hlt : n.transit.length = pre.length + post.length + 1 := by rw [ht]; simp; omega
      have := ih
        (by
          intro r
          rw [← hr]
          simp only []
          by_cases e : r = c.router
          · subst e; rw [if_pos rfl]; exact .message (hw c.router) hm
          · rw [if_neg e]; exact hw r)
        (by
          intro r
          rw [← hr]
          simp only []
          by_cases e : r = c.router
          · subst e; rw [if_pos rfl, hact]; exact hD c.router
          · rw [if_neg e]; exact hD r)
        (by
          intro x hx
          rw [← hr] at hx
          simp only [List.mem_append] at hx
          rcases hx with (hx | hx) | hx
          · exact hR x (by rw [ht]; simp [hx])
          · exact hR x (by rw [ht]; simp [hx])
          · exact (hmem x hx).1)
        (by
          intro x hx
          rw [← hr] at hx
          simp only [List.mem_append] at hx
          rcases hx with (hx | hx) | hx
          · exact hh x (by rw [ht]; simp [hx])
          · exact hh x (by rw [ht]; simp [hx])
          · exact (hmem x hx).2)
      have hUU : U n1 + (if b then 1 else 0) ≤ U n := by
        simp only [U]
        omega
      cases b with
      | false =>
        have := Nat.mul_le_mul_left D hUU
        simp at hout this
        simp only [hout, List.length_nil] at hlt1
        omega
      | true =>
        have := Nat.mul_le_mul_left D hUU
        simp only [if_true, Nat.mul_add, Nat.mul_one] at this hout
        omega
  | @lose n n2 pre post c d ht _ ih =>
    have := ih hw hD (fun x hx => hR x (by rw [ht]; simp only [List.mem_append, List.mem_cons] at hx ⊢; rcases hx with h | h <;> simp [h]))
      (fun x hx => hh x (by rw [ht]; simp only [List.mem_append, List.mem_cons] at hx ⊢; rcases hx with h | h <;> simp [h]))
    have hl : n.transit.length = (pre ++ post).length + 1 := by rw [ht]; simp; omega
    have hu : U { n with transit := pre ++ post } = U n := rfl
    simp only [hu] at this
    omega

/-! ### A ring of three -/

namespace Sample

/-- No log endpoints, no de-duplication, writes succeed. -/
def netEnv : Env Unit := { tbl := tbl, hashFn := fun _ => 0, clock := fun _ => 0, wres := fun _ => 1, log := fun _ s m => (s, [], m.data) }

/-- Router 0 has the vehicle on endpoint 0 and routers 1 and 2 on endpoints 1 and 2. Routers 1 and 2 are connected too. -/
def ring : Wires
  | 0, 1 => some (1, 0)
  | 1, 0 => some (0, 1)
  | 1, 1 => some (2, 0)
  | 2, 0 => some (1, 1)
  | 2, 1 => some (0, 2)
  | 0, 2 => some (2, 1)
  | _, _ => none

/-- The routers when they start. -/
def ringStart : Nat → World Unit
  | 0 => start [{ kind := .uart }, { kind := .udp }, { kind := .udp }] (fun _ => ())
  | _ => start [{ kind := .udp }, { kind := .udp }] (fun _ => ())

/-- A heartbeat of the vehicle arriving. -/
def ringNet : Net Unit := { routers := ringStart, transit := [⟨0, 0, mHb⟩] }

/-- The same routers without the link between 1 and 2. -/
def chain : Wires
  | 0, 1 => some (1, 0)
  | 1, 0 => some (0, 1)
  | 2, 1 => some (0, 2)
  | 0, 2 => some (2, 1)
  | _, _ => none

/-- Hops left in the chain for a message arriving at an endpoint. -/
def chainDepth (r i : Nat) : Nat :=
  if r = 0 then 1 else if (chain r i).isSome then 0 else 2

theorem ringStart_reached : ∀ r, Reached netEnv (ringStart r)
  | 0 => .start (by unfold ConfigOk; decide)
  | _ + 1 => .start (by unfold ConfigOk; decide)

theorem chain_noRing : NoRing chain chainDepth := by
  intro r i j r' i' hj h
  unfold chain at h
  split at h <;> simp only [Option.some.injEq, Prod.mk.injEq, reduceCtorEq] at h
  all_goals obtain ⟨rfl, rfl⟩ := h
  · simp [chainDepth, chain]
  · have : chain 1 i = none := by unfold chain; split <;> simp_all
    simp [chainDepth, this]
  · have : chain 2 i = none := by unfold chain; split <;> simp_all
    simp [chainDepth, this]
  · simp [chainDepth, chain]

end Sample

/-- The hypotheses of `C109_no_ring_partial` hold of three routers in a row and a heartbeat arriving at the one in the middle; it
is received at most 4 times, and 3 times if nothing gets lost. -/
example : ∀ n' d, Flows (fun _ => Sample.netEnv) Sample.chain Sample.ringNet d n' → d ≤ 4 := by
  intro n' d h
  have hD : ∀ r, (Sample.ringNet.routers r).active.length ≤ 3
    | 0 => by decide
    | _ + 1 => by show (Sample.ringStart 1).active.length ≤ 3; decide
  exact C109_no_ring_partial _ _ _ Sample.chain_noRing 3 _ _ d Sample.ringStart_reached hD h

/-- The same ring with de-duplication over a second, all within 200 ms. -/
def Sample.netEnvDedup : Env Unit := { Sample.netEnv with
  dedupPeriod := 1000
  clock := fun k => if k < 20 then 10 * k else 200
  hashFn := fun bs => UInt64.ofNat (bs.foldl (fun a b => a * 256 + b.toNat) 0) }

/-- The hypotheses of `C109_dedup_partial` hold of the ring with de-duplication; the heartbeat is received at most 10 times. -/
example : ∀ n' d, Flows (fun _ => Sample.netEnvDedup) Sample.ring Sample.ringNet d n' → d ≤ 10 := by
  intro n' d h
  have hD : ∀ r, (Sample.ringNet.routers r).active.length ≤ 3
    | 0 => by decide
    | _ + 1 => by show (Sample.ringStart 1).active.length ≤ 3; decide
  have hst : ∀ r, Reached Sample.netEnvDedup (Sample.ringStart r)
    | 0 => .start (by unfold ConfigOk; decide)
    | _ + 1 => .start (by unfold ConfigOk; decide)
  exact C109_dedup_partial (fun _ => Sample.netEnvDedup) Sample.ring 3 3 Sample.netEnvDedup.hashFn (fun _ => rfl) (fun _ => 0)
    (fun _ => ⟨by decide, by decide, fun k => ⟨if k < 20 then 10 * k else 200, by
      show (if k < 20 then 10 * (k : Int) else 200) = _; split <;> simp, by omega, by
      show _ ≤ 0 + 1000; split <;> omega⟩⟩)
    (by intro r j r' i hx; unfold Sample.ring at hx; split at hx <;> simp_all <;> omega)
    (fun _ _ _ _ => rfl) _ _ d hst hD (by intro c hc; simp [Sample.ringNet] at hc; subst hc; decide) h

namespace Sample

/-- Where the messages sent go when their bytes are those received. -/
theorem outgoing_eq (wires : Wires) (r : Nat) (m : Msg) : ∀ (ss : List Sent), (∀ s ∈ ss, s.bytes = m.data) →
    outgoing wires r m ss = (ss.map Sent.ep).filterMap (fun j => (wires r j).map (fun x => ⟨x.1, x.2, m⟩))
  | [], _ => rfl
  | s :: ss, h => by
    have ih := outgoing_eq wires r m ss (fun x hx => h x (List.mem_cons_of_mem _ hx))
    have hs := h s List.mem_cons_self
    have hf : ∀ x : Nat × Nat, ({ router := x.1, ep := x.2, msg := { m with data := s.bytes } } : Transit) = ⟨x.1, x.2, m⟩ := by
      intro x; rw [hs]
    unfold outgoing at ih ⊢
    rw [List.filterMap_cons, List.map_cons, List.filterMap_cons, ih]
    cases wires r s.ep with
    | none => rfl
    | some x => simp only [Option.map_some, hf]

/-- One reception in a network of `netEnv` routers. -/
theorem hop (wires : Wires) (n : Net Unit) (c : Transit) (others : List Transit) (e : Ep) (E' : List Ep)
    (he : (n.routers c.router).eps[c.ep]? = some e) (hin : allowedIn e.filters c.msg = true)
    (ha : addSysComp ((n.routers c.router).eps.length + 1) (n.routers c.router).eps c.ep (sysComp c.msg.srcSys c.msg.srcComp) = some E') :
    ∃ w', n.receive (fun _ => netEnv) wires c others = some {
        routers := fun r => if r = c.router then w' else n.routers r
        transit := others ++ ((n.routers c.router).active.filter (fun i => decisionAt 0 E' c.msg i == some .accepted)).filterMap
          (fun j => (wires c.router j).map (fun x => ⟨x.1, x.2, c.msg⟩)) } ∧
      w'.eps = E' ∧ w'.active = (n.routers c.router).active := by
  generalize hw : n.routers c.router = w at *
  have hm : handleMsg netEnv w c.ep c.msg =
      some (routeMsg netEnv 2 false { w with checks := w.checks + 1, eps := E' } c.msg, true) := by
    unfold handleMsg
    rw [he]
    simp only [Dedup.check, netEnv, if_true, Bool.not_true, hin, ha]
    simp
  obtain ⟨new, hk, hnew⟩ := routeMsg_spec netEnv 1 { w with checks := w.checks + 1, eps := E' } c.msg
  have hb := C20_same_bytes_partial netEnv { w with checks := w.checks + 1, eps := E' } c.msg 1 (by
    intros; rfl)
  have hd : directSince w (routeMsg netEnv 2 false { w with checks := w.checks + 1, eps := E' } c.msg) =
    new.filter (fun s => !s.gen) := hk.direct
  refine ⟨_, ?_, hk.eps, hk.active⟩
  unfold Net.receive
  rw [hw, hm]
  simp only [Option.some.injEq, Net.mk.injEq, true_and]
  rw [outgoing_eq wires _ _ _ (by rw [hd]; intro s hs; exact hb s (by rw [hk.direct]; exact hs)), hd, hnew]
  rfl

/-- Endpoints of routers 0, 1 and 2 while the heartbeat goes round. -/
def E0 : List Ep := [{ kind := .uart, learned := [sysComp 1 1] }, { kind := .udp }, { kind := .udp, learned := [sysComp 1 1] }]
def E1 : List Ep := [{ kind := .udp, learned := [sysComp 1 1] }, { kind := .udp }]

/-- The endpoints of the routers and the messages in transit. -/
structure At (n : Net Unit) (a b c : List Ep) (ts : List Transit) : Prop where
  eps : ∀ r, (n.routers r).eps = if r = 0 then a else if r = 1 then b else if r = 2 then c else (n.routers r).eps
  active : ∀ r, (n.routers r).active = if r = 0 then [0, 1, 2] else if r ≤ 2 then [0, 1] else (n.routers r).active
  transit : n.transit = ts

/-- Reception of the only message in transit. -/
theorem At.step {n : Net Unit} {a b c : List Ep} (r i : Nat) (h : At n a b c [⟨r, i, mHb⟩]) (hr : r ≤ 2) (E' : List Ep) (ts : List Transit)
    (he : ((if r = 0 then a else if r = 1 then b else c)[i]?.map (fun e => allowedIn e.filters mHb)) = some true)
    (ha : addSysComp ((if r = 0 then a else if r = 1 then b else c).length + 1) (if r = 0 then a else if r = 1 then b else c) i
      (sysComp mHb.srcSys mHb.srcComp) = some E')
    (ht : ((if r = 0 then [0, 1, 2] else [0, 1]).filter (fun i => decisionAt 0 E' mHb i == some .accepted)).filterMap
          (fun j => (ring r j).map (fun x => (⟨x.1, x.2, mHb⟩ : Transit))) = ts) :
    ∃ n', At n' (if r = 0 then E' else a) (if r = 1 then E' else b) (if r = 2 then E' else c) ts ∧
      ∀ d n2, Flows (fun _ => netEnv) ring n' d n2 → Flows (fun _ => netEnv) ring n (d + 1) n2 := by
  have hE : (n.routers r).eps = if r = 0 then a else if r = 1 then b else c := by
    rw [h.eps r]
    split
    · rfl
    · split
      · rfl
      · rw [if_pos (by omega)]
  have hA : (n.routers r).active = if r = 0 then [0, 1, 2] else [0, 1] := by
    rw [h.active r, if_pos hr]
  rw [← hE] at he ha
  rw [← hA] at ht
  cases hx : (n.routers r).eps[i]? with
  | none => rw [hx] at he; cases he
  | some e =>
    rw [hx] at he
    simp only [Option.map_some, Option.some.injEq] at he
    obtain ⟨w', hrec, hw, hact⟩ := hop ring n ⟨r, i, mHb⟩ [] e E' hx he ha
    simp only [List.nil_append] at hrec hact
    rw [ht] at hrec
    refine ⟨_, ⟨?_, ?_, rfl⟩, fun d n2 hf => .receive (pre := []) (post := []) h.transit hrec hf⟩
    · intro k
      have hk := h.eps k
      by_cases e : k = r
      · subst e
        simp only [if_true, hw]
        split
        · rfl
        · split
          · rfl
          · split
            · rfl
            · rfl
      · simp only [if_neg e]
        rw [hk]
        by_cases k0 : k = 0
        · subst k0
          have e' : ¬r = 0 := fun x => e x.symm
          simp [e']
        · by_cases k1 : k = 1
          · subst k1
            have e' : ¬r = 1 := fun x => e x.symm
            simp [e']
          · by_cases k2 : k = 2
            · subst k2
              have e' : ¬r = 2 := fun x => e x.symm
              simp [e']
            · simp [k0, k1, k2]
    · intro k
      have hk := h.active k
      by_cases e : k = r
      · subst e
        simp only [if_true, hact]
        rw [hA, if_pos hr]
      · simp only [if_neg e]
        exact hk

theorem At.round {n : Net Unit} (h : At n E0 E1 E1 [⟨1, 0, mHb⟩]) :
    ∃ n', At n' E0 E1 E1 [⟨1, 0, mHb⟩] ∧
      ∀ d n2, Flows (fun _ => netEnv) ring n' d n2 → Flows (fun _ => netEnv) ring n (d + 1 + 1 + 1) n2 := by
  obtain ⟨n1, h1, f1⟩ := h.step 1 0 (by omega) E1 [⟨2, 0, mHb⟩] (by decide +kernel) (by decide +kernel) (by decide +kernel)
  obtain ⟨n2, h2, f2⟩ := At.step 2 0 h1 (by omega) E1 [⟨0, 2, mHb⟩] (by decide +kernel) (by decide +kernel) (by decide +kernel)
  obtain ⟨n3, h3, f3⟩ := At.step 0 2 h2 (by omega) E0 [⟨1, 0, mHb⟩] (by decide +kernel) (by decide +kernel) (by decide +kernel)
  exact ⟨n3, h3, fun d k hf => f1 _ _ (f2 _ _ (f3 _ _ hf))⟩

theorem At.forever : ∀ (d : Nat) {n : Net Unit}, At n E0 E1 E1 [⟨1, 0, mHb⟩] →
    ∃ d' n', d ≤ d' ∧ Flows (fun _ => netEnv) ring n d' n' ∧ n'.transit = [⟨1, 0, mHb⟩]
  | 0, n, h => ⟨0, n, Nat.le_refl _, .done n, h.transit⟩
  | d + 1, n, h => by
    obtain ⟨n1, h1, f1⟩ := h.round
    obtain ⟨d', n', hd, hf, ht⟩ := At.forever d h1
    exact ⟨d' + 1 + 1 + 1, n', by omega, f1 _ _ hf, ht⟩

end Sample

/-- **C109** is false of the code in rings: three routers connected with each other, default settings, a heartbeat of a vehicle
connected to the first. When the copy on one link is lost, the other copy goes round the ring and may do so for ever, although
it has left each router on every link before: `accept_msg` only looks whether the sender was seen there (src/endpoint.cpp:520-524),
and the direction in which the message circulates is never one it came from. -/
theorem C109_violated : (∀ r, Reached Sample.netEnv (Sample.ringNet.routers r)) ∧
    Sample.ringNet.transit.length = 1 ∧
    ∀ d, ∃ d' n', d ≤ d' ∧ Flows (fun _ => Sample.netEnv) Sample.ring Sample.ringNet d' n' ∧
      n'.transit = [⟨1, 0, Sample.mHb⟩] := by
  refine ⟨Sample.ringStart_reached, rfl, fun d => ?_⟩
  open Sample in
  have hstart : At ringNet [{ kind := .uart }, { kind := .udp }, { kind := .udp }] [{ kind := .udp }, { kind := .udp }]
      [{ kind := .udp }, { kind := .udp }] [⟨0, 0, mHb⟩] := by
    refine ⟨?_, ?_, rfl⟩
    · intro r
      match r with
      | 0 => rfl
      | 1 => rfl
      | 2 => rfl
      | r + 3 => rfl
    · intro r
      match r with
      | 0 => rfl
      | 1 => rfl
      | 2 => rfl
      | r + 3 => rfl
  open Sample in
  obtain ⟨n1, h1, f1⟩ := hstart.step 0 0 (by omega) [{ kind := .uart, learned := [sysComp 1 1] }, { kind := .udp }, { kind := .udp }]
    [⟨1, 0, mHb⟩, ⟨2, 1, mHb⟩] (by decide +kernel) (by decide +kernel) (by decide +kernel)
  open Sample in
  have h1' : At { n1 with transit := [⟨1, 0, mHb⟩] } _ _ _ [⟨1, 0, mHb⟩] := ⟨h1.eps, h1.active, rfl⟩
  open Sample in
  obtain ⟨n2, h2, f2⟩ := At.step 1 0 h1' (by omega) E1 [⟨2, 0, mHb⟩] (by decide +kernel) (by decide +kernel) (by decide +kernel)
  open Sample in
  obtain ⟨n3, h3, f3⟩ := At.step 2 0 h2 (by omega) E1 [⟨0, 2, mHb⟩] (by decide +kernel) (by decide +kernel) (by decide +kernel)
  open Sample in
  obtain ⟨n4, h4, f4⟩ := At.step 0 2 h3 (by omega) E0 [⟨1, 0, mHb⟩] (by decide +kernel) (by decide +kernel) (by decide +kernel)
  obtain ⟨d', n', hd, hf, ht⟩ := Sample.At.forever d h4
  refine ⟨_, n', ?_, f1 _ _ (.lose (pre := [⟨1, 0, Sample.mHb⟩]) (post := []) h1.transit (f2 _ _ (f3 _ _ (f4 _ _ hf)))), ht⟩
  omega

end Verif
