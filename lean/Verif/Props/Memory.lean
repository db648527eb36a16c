/-
C119: what the router remembers of the traffic stays bounded however long it runs.
-/
import Verif.Props.DedupRouter
import Verif.Props.Recover

namespace Verif

open Verif.Spec

variable {σ : Type}

/-! ### Lists without repetition are not long -/

theorem nodup_bounded : ∀ (n : Nat) (l : List Nat), l.Nodup → (∀ x ∈ l, x < n) → l.length ≤ n := by
  intro n
  induction n with
  | zero =>
    intro l _ h
    cases l with
    | nil => simp
    | cons a l => exact absurd (h a (by simp)) (by omega)
  | succ n ih =>
    intro l hl h
    by_cases hm : n ∈ l
    · have := ih (l.erase n) (hl.erase n) (fun x hx => by
        have h1 := h x (List.mem_of_mem_erase hx)
        have h2 : x ≠ n := fun e => by
          rw [e] at hx
          exact (List.Nodup.mem_erase_iff hl).mp hx |>.1 rfl
        omega)
      rw [List.length_erase_of_mem hm] at this
      omega
    · have := ih l hl (fun x hx => by
        have h1 := h x hx
        have h2 : x ≠ n := fun e => hm (e ▸ hx)
        omega)
      omega

theorem nodup_map_inj {α β : Type} (f : α → β) (hf : ∀ a b, f a = f b → a = b) : ∀ (l : List α), l.Nodup →
    (l.map f).Nodup := by
  intro l
  induction l with
  | nil => intro _; exact .nil
  | cons a l ih =>
    intro h
    rw [List.nodup_cons] at h
    rw [List.map_cons, List.nodup_cons]
    refine ⟨fun hm => ?_, ih h.2⟩
    obtain ⟨b, hb, e⟩ := List.mem_map.mp hm
    exact h.1 (hf _ _ e ▸ hb)

/-- C119, connected systems: whatever is received, for however long, on any number of connections, every endpoint
remembers every system and component once and so at most 65536 of them. -/
theorem C119_systems (env : Env σ) (w : World σ) (hw : Reached env w) (e : Ep) (he : e ∈ w.eps) :
    e.learned.Nodup ∧ e.learned.length ≤ 65536 := by
  have hn := (reached_inv hw).nodup e he
  refine ⟨hn, ?_⟩
  have := nodup_bounded 65536 (e.learned.map UInt16.toNat)
    (nodup_map_inj _ (fun a b h => UInt16.toNat_inj.mp h) _ hn)
    (fun x hx => by
      obtain ⟨y, _, rfl⟩ := List.mem_map.mp hx
      exact y.toNat_lt)
  rwa [List.length_map] at this


example : ∃ e ∈ Sample.w2.eps, e.learned = [sysComp 42 200] ∧ e.learned.Nodup ∧ e.learned.length ≤ 65536 :=
  ⟨Sample.w2.eps[1]'(by decide +kernel), List.getElem_mem _, by decide +kernel,
    C119_systems Sample.env Sample.w2 Sample.w2_reached _ (List.getElem_mem _)⟩

/-! ### De-duplication -/

theorem nodup_subset_length {α : Type} [BEq α] [LawfulBEq α] : ∀ (l m : List α), l.Nodup → (∀ x ∈ l, x ∈ m) →
    l.length ≤ m.length := by
  intro l
  induction l with
  | nil => intro m _ _; simp
  | cons a l ih =>
    intro m hl h
    rw [List.nodup_cons] at hl
    have ha := h a (by simp)
    have := ih (m.erase a) hl.2 (fun x hx => by
      refine (List.mem_erase_of_ne ?_).mpr (h x (by simp [hx]))
      rintro rfl
      exact hl.1 hx)
    rw [List.length_erase_of_mem ha] at this
    have := List.length_pos_of_mem ha
    simp only [List.length_cons]
    omega

theorem dedupExpire_sub (ts period : UInt32) : ∀ (q : List (UInt32 × UInt64)) (s : List UInt64) {q' s'},
    dedupExpire ts period q s = some (q', s') → ∀ x ∈ q', x ∈ q := by
  intro q
  induction q with
  | nil => intro s q' s' h; cases h; exact fun _ h => h
  | cons e q ih =>
    obtain ⟨t, y⟩ := e
    intro s q' s' h x hx
    unfold dedupExpire at h
    split at h
    · split at h
      · exact List.mem_cons_of_mem _ (ih _ h x hx)
      · cases h
    · cases h
      exact hx

/-- Everything remembered was received. -/
theorem Dedup.run_sound (hashFn : List UInt8 → UInt64) (period : UInt32) : ∀ (es : List (Int × List UInt8))
    (d d' : Dedup) (bs : List Bool), d.run hashFn period es = some (d', bs) →
    ∀ x ∈ d'.queue, x ∈ d.queue ∨ ∃ e ∈ es, x = (dedupTimestamp e.1, hashFn e.2) := by
  intro es
  induction es with
  | nil => intro d d' bs h x hx; cases h; exact .inl hx
  | cons e es ih =>
    intro d d' bs h x hx
    obtain ⟨t, pkt⟩ := e
    simp only [Dedup.run] at h
    cases hc : d.check hashFn period t pkt with
    | none => rw [hc] at h; cases h
    | some r =>
      obtain ⟨d1, b⟩ := r
      simp only [hc] at h
      cases hr : d1.run hashFn period es with
      | none => rw [hr] at h; cases h
      | some r2 =>
        obtain ⟨d2, bs2⟩ := r2
        simp only [hr] at h
        cases h
        rcases ih d1 _ _ hr x hx with h1 | ⟨e, he, rfl⟩
        · unfold Dedup.check at hc
          split at hc
          · cases hc; exact .inl h1
          · simp only [Dedup.checkHash] at hc
            cases hx' : dedupExpire (dedupTimestamp t) period d.queue d.set with
            | none => rw [hx'] at hc; cases hc
            | some r =>
              obtain ⟨q, s⟩ := r
              simp only [hx'] at hc
              split at hc
              · cases hc
                exact .inl (dedupExpire_sub _ _ _ _ hx' x h1)
              · cases hc
                rcases List.mem_append.mp h1 with h1 | h1
                · exact .inl (dedupExpire_sub _ _ _ _ hx' x h1)
                · rw [List.mem_singleton] at h1
                  exact .inr ⟨(t, pkt), by simp, h1⟩
        · exact .inr ⟨e, by simp [he], rfl⟩

/-- C119, de-duplication (partial): with a clock that does not go backwards nor exceed the 32-bit range, the memory
holds no more entries than messages were received within the last period. Missing: other clocks, for which it is false
(`C119_violated`). -/
theorem C119_dedup_partial (env : Env σ) (hp : env.dedupPeriod ≠ 0) (time : Nat → Nat)
    (hc : ∀ k, env.clock k = time k) (hmono : ∀ a b, a ≤ b → time a ≤ time b)
    (eps : List Ep) (hcfg : ConfigOk eps) (logs : Nat → σ) (evs : List RouterEv) (w : World σ) (as : List Arrival)
    (h : runRouter env (start eps logs) evs = some (w, as))
    (hrange : ∀ k < as.length, time k + env.dedupPeriod.toNat < 4294967296) :
    w.dedup.set.length = w.dedup.queue.length ∧
    w.dedup.queue.length ≤
      ((List.range as.length).filter (fun k => time (as.length - 1) ≤ time k + env.dedupPeriod.toNat)).length := by
  obtain ⟨_, bs, hrun, _⟩ := runRouter_dedup env evs _ (start_inv eps hcfg logs) h
  have hr : Dedup.run env.hashFn env.dedupPeriod {} (timed env.clock 0 as) = some (w.dedup, bs) := hrun
  have hinv : w.dedup.Inv := by
    obtain ⟨d, b, h1, h2, _⟩ := Dedup.run_inv env.hashFn env.dedupPeriod (timed env.clock 0 as) {} ⟨by simp, by simp⟩
    rw [hr] at h1; cases h1; exact h2
  refine ⟨by simpa using hinv.perm.length_eq, ?_⟩
  rw [← List.length_map (f := fun k : Nat => env.hashFn (((as[k]?).map (fun a : Arrival => a.msg.data)).getD [])),
    ← List.length_map (as := w.dedup.queue) (f := Prod.snd)]
  apply nodup_subset_length _ _ hinv.nodup
  intro y hy
  obtain ⟨x, hx, rfl⟩ := List.mem_map.mp hy
  rcases Dedup.run_sound _ _ _ _ _ _ hr x hx with h1 | ⟨e, he, rfl⟩
  · cases h1
  rw [timed_eq env.clock time hc] at he hr
  obtain ⟨e', he', rfl⟩ := List.mem_map.mp he
  obtain ⟨k, hk⟩ := List.getElem?_of_mem he'
  rw [arrivalTimes_get] at hk
  obtain ⟨a, ha, rfl⟩ := Option.map_eq_some_iff.mp hk
  have hlt := (List.getElem?_eq_some_iff.mp ha).1
  refine List.mem_map.mpr ⟨k, ?_, by rw [ha]; rfl⟩
  rw [List.mem_filter]
  refine ⟨List.mem_range.mpr hlt, ?_⟩
  have hne : as ≠ [] := by rintro rfl; simp at hlt
  have hsplit := List.dropLast_concat_getLast hne
  have htl : arrivalTimes time 0 as = arrivalTimes time 0 as.dropLast ++
      [(time (as.length - 1), (as.getLast hne).msg.data)] := by
    have h1 : ∀ (xs : List Arrival) (y : Arrival) (n : Nat),
        arrivalTimes time n (xs ++ [y]) = arrivalTimes time n xs ++ [(time (n + xs.length), y.msg.data)] := by
      intro xs
      induction xs with
      | nil => intro y n; rfl
      | cons x xs ih =>
        intro y n
        simp only [List.cons_append, arrivalTimes, ih, List.length_cons]
        rw [show n + 1 + xs.length = n + (xs.length + 1) by omega]
    conv => lhs; rw [← hsplit]
    rw [h1, List.length_dropLast, Nat.zero_add]
  rw [htl] at hr
  obtain ⟨d, b, h1, h2⟩ := C24_recent_only env.hashFn env.dedupPeriod hp (arrivalTimes time 0 as.dropLast)
    (time (as.length - 1), (as.getLast hne).msg.data) (by rw [← htl]; exact arrivalTimes_mono hmono as 0)
    (by
      rw [← htl]
      intro x hx
      obtain ⟨j, _, h2, h3⟩ := arrivalTimes_mem hx
      rw [h3]
      exact hrange j (by omega))
  rw [hr] at h1
  cases h1
  have h3 := (h2 _ hx).2
  have hk' := hrange k hlt
  have hts : (dedupTimestamp ((time (0 + k) : Nat) : Int)).toNat = time k := by
    rw [Nat.zero_add]
    unfold dedupTimestamp
    rw [UInt32.toNat_ofNat']
    omega
  rw [hts] at h3
  exact decide_eq_true h3


/-- Hypotheses and conclusion for three different messages, one every 60 ms, and a period of 100 ms: two are remembered. -/
example : ConfigOk Sample.eps ∧ Sample.envDedup.dedupPeriod ≠ 0 ∧ (∀ k, Sample.envDedup.clock k = ((60 * k : Nat) : Int)) ∧
    (runRouter Sample.envDedup Sample.w0
      [.read 1 (.got Sample.hb2.encode), .read 0 (.got Sample.hb1.encode), .read 0 (.got Sample.unk.encode)]).map
      (fun r => (r.1.dedup.queue.length, r.2.length,
        ((List.range r.2.length).filter (fun k => 60 * (r.2.length - 1) ≤ 60 * k + 100)).length)) = some (2, 3, 2) :=
  ⟨Sample.eps_ok, by decide, fun _ => rfl, by decide +kernel⟩

/-- C119, de-duplication switched off: nothing is remembered. -/
theorem C119_dedup_off (env : Env σ) (hp : env.dedupPeriod = 0) (eps : List Ep) (hcfg : ConfigOk eps) (logs : Nat → σ)
    (evs : List RouterEv) (w : World σ) (as : List Arrival)
    (h : runRouter env (start eps logs) evs = some (w, as)) : w.dedup.queue = [] ∧ w.dedup.set = [] := by
  obtain ⟨_, bs, hrun, _⟩ := runRouter_dedup env evs _ (start_inv eps hcfg logs) h
  rw [hp, C22_disabled] at hrun
  have := (Prod.mk.inj (Option.some.inj hrun)).1
  rw [← this]
  exact ⟨rfl, rfl⟩

example : (runRouter Sample.envQuiet Sample.w0 [.read 1 (.got Sample.hb2.encode), .read 0 (.got Sample.hb1.encode)]).map
    (fun r => (r.1.dedup.queue.length, r.2.length)) = some (0, 2) := by decide +kernel

/-- As long as the 32-bit clock does not show more than the end of the period of the entry in front, nothing is removed. -/
theorem Dedup.run_stuck (hashFn : List UInt8 → UInt64) (period : UInt32) (hp : period ≠ 0) :
    ∀ (es : List (Int × List UInt8)) (d d' : Dedup) (bs : List Bool) (t : UInt32) (y : UInt64)
    (q : List (UInt32 × UInt64)), d.queue = (t, y) :: q → (∀ e ∈ es, dedupTimestamp e.1 ≤ t + period) → d.Inv →
    d.run hashFn period es = some (d', bs) →
    (∀ x ∈ d.queue, x ∈ d'.queue) ∧ ∀ e ∈ es, hashFn e.2 ∈ d'.queue.map Prod.snd := by
  intro es
  induction es with
  | nil => intro d d' bs t y q hq ht hi h; cases h; exact ⟨fun _ h => h, by simp⟩
  | cons e es ih =>
    intro d d' bs t y q hq ht hi h
    obtain ⟨now, pkt⟩ := e
    simp only [Dedup.run] at h
    have hexp : dedupExpire (dedupTimestamp now) period d.queue d.set = some (d.queue, d.set) := by
      rw [hq]
      unfold dedupExpire
      rw [if_neg (UInt32.not_lt.mpr (ht (now, pkt) (by simp)))]
    have hc : ∃ d1 b, d.check hashFn period now pkt = some (d1, b) ∧ (∃ q1, d1.queue = (t, y) :: q1) ∧ d1.Inv ∧
        (∀ x ∈ d.queue, x ∈ d1.queue) ∧ ∃ x ∈ d1.queue, x.2 = hashFn pkt := by
      obtain ⟨d1, b, h1, h2⟩ := Dedup.check_inv hashFn d hi period now pkt
      refine ⟨d1, b, h1, ?_⟩
      unfold Dedup.check at h1
      rw [if_neg hp] at h1
      simp only [Dedup.checkHash, hexp] at h1
      split at h1
      · rename_i hm
        cases h1
        refine ⟨⟨q, hq⟩, h2, fun _ h => h, ?_⟩
        obtain ⟨x, hx, e⟩ := List.mem_map.mp (hi.perm.mem_iff.mp hm)
        exact ⟨x, hx, e⟩
      · cases h1
        exact ⟨⟨_, by rw [hq]; rfl⟩, h2, fun x hx => List.mem_append_left _ hx, _,
          List.mem_append_right _ (List.mem_singleton.mpr rfl), rfl⟩
    obtain ⟨d1, b, h1, ⟨q1, hq1⟩, hi1, hsub, x, hx, hxe⟩ := hc
    simp only [h1] at h
    cases hr : d1.run hashFn period es with
    | none => rw [hr] at h; cases h
    | some r2 =>
      obtain ⟨d2, bs2⟩ := r2
      simp only [hr] at h
      cases h
      obtain ⟨h3, h4⟩ := ih d1 _ _ t y q1 hq1 (fun e he => ht e (by simp [he])) hi1 hr
      refine ⟨fun z hz => h3 z (hsub z hz), ?_⟩
      intro e he
      rcases List.mem_cons.mp he with rfl | he
      · exact List.mem_map.mpr ⟨x, h3 x hx, hxe⟩
      · exact h4 e he

theorem timed_mem {clock : Nat → Int} : ∀ {as : List Arrival} {n : Nat} {x}, x ∈ timed clock n as →
    ∃ k, n ≤ k ∧ k < n + as.length ∧ x.1 = clock k := by
  intro as
  induction as with
  | nil => intro n x h; cases h
  | cons a as ih =>
    intro n x h
    rcases List.mem_cons.mp h with rfl | h
    · exact ⟨n, by omega, by simp, rfl⟩
    · obtain ⟨k, h1, h2, h3⟩ := ih h
      exact ⟨k, by omega, by simp only [List.length_cons]; omega, h3⟩

/-- C119, de-duplication, what goes wrong: if the first message arrives about one period before the 32-bit clock wraps, and no
other between the end of that period and the wrap, then the memory keeps the hash of every packet received afterwards, as
long as the 32-bit clock does not show more than the end of that period. If it is the last millisecond that the clock can
show, this is for ever. -/
theorem C119_kept_for_ever (env : Env σ) (hp : env.dedupPeriod ≠ 0)
    (eps : List Ep) (hcfg : ConfigOk eps) (logs : Nat → σ) (evs : List RouterEv) (w : World σ) (as : List Arrival)
    (h : runRouter env (start eps logs) evs = some (w, as))
    (ht : ∀ k < as.length, 0 < k → dedupTimestamp (env.clock k) ≤ dedupTimestamp (env.clock 0) + env.dedupPeriod) :
    ∀ a ∈ as, env.hashFn a.msg.data ∈ w.dedup.queue.map Prod.snd := by
  obtain ⟨_, bs, hrun, _⟩ := runRouter_dedup env evs _ (start_inv eps hcfg logs) h
  have hr : Dedup.run env.hashFn env.dedupPeriod {} (timed env.clock 0 as) = some (w.dedup, bs) := hrun
  cases as with
  | nil => simp
  | cons a as =>
    simp only [timed, Dedup.run] at hr
    have h1 : Dedup.check env.hashFn {} env.dedupPeriod (env.clock 0) a.msg.data =
        some ({ queue := [(dedupTimestamp (env.clock 0), env.hashFn a.msg.data)], set := [env.hashFn a.msg.data] }, true) := by
      unfold Dedup.check
      rw [if_neg hp]
      simp [Dedup.checkHash, dedupExpire]
    rw [h1] at hr
    simp only at hr
    cases hr2 : Dedup.run env.hashFn env.dedupPeriod
        { queue := [(dedupTimestamp (env.clock 0), env.hashFn a.msg.data)], set := [env.hashFn a.msg.data] }
        (timed env.clock (0 + 1) as) with
    | none => rw [hr2] at hr; cases hr
    | some r =>
      obtain ⟨d2, bs2⟩ := r
      rw [hr2] at hr
      cases hr
      obtain ⟨h3, h4⟩ := Dedup.run_stuck _ _ hp _ _ _ _ _ _ _ rfl (by
        intro e he
        obtain ⟨k, h1, h2, h3⟩ := timed_mem he
        rw [h3]
        exact ht k (by simp only [List.length_cons]; omega) (by omega)) ⟨by simp, by simp⟩ hr2
      intro b hb
      rcases List.mem_cons.mp hb with rfl | hb
      · exact List.mem_map.mpr ⟨_, h3 _ (List.mem_singleton.mpr rfl), rfl⟩
      · have : ∀ (as : List Arrival) (n : Nat), b ∈ as → ∃ t, (t, b.msg.data) ∈ timed env.clock n as := by
          intro as
          induction as with
          | nil => intro n h; cases h
          | cons c as ih =>
            intro n h
            rcases List.mem_cons.mp h with rfl | h
            · exact ⟨_, List.mem_cons_self⟩
            · obtain ⟨t, ht⟩ := ih (n + 1) h
              exact ⟨t, List.mem_cons_of_mem _ ht⟩
        obtain ⟨t, ht⟩ := this as (0 + 1) hb
        exact h4 _ ht

namespace Sample

/-- The `k`-th of many different valid messages. -/
def many (k : Nat) : Frame :=
  { v2 := false, seq := 0, sys := 1, comp := 1, msgid := 99,
    payload := [UInt8.ofNat (k / 16777216), UInt8.ofNat (k / 65536), UInt8.ofNat (k / 256), UInt8.ofNat k], crcLo := 0, crcHi := 0 }

/-- A router with a period of 1 s, 49.7 days after its start: the clock shows 4294966295 ms when the first message arrives,
and one day more with each message. Message 99 is not in its table. -/
def envDays : Env Nat :=
  { env with tbl := fun _ => none, clock := fun k => 4294966295 + 86400000 * k, dedupPeriod := 1000,
             hashFn := fun bs => UInt64.ofNat (((bs.drop 6).take 4).foldl (fun a b => a * 256 + b.toNat) 0) }

/-- One message per read. -/
def manyReads (n : Nat) : List RouterEv := (List.range n).map (fun k => .read 0 (.got (many k).encode))

end Sample

theorem envDays_late (k : Nat) : dedupTimestamp (Sample.envDays.clock k) ≤
    dedupTimestamp (Sample.envDays.clock 0) + Sample.envDays.dedupPeriod := by
  have h : dedupTimestamp (Sample.envDays.clock 0) + Sample.envDays.dedupPeriod = 4294967295 := by decide +kernel
  rw [h, UInt32.le_iff_toNat_le]
  have := (dedupTimestamp (Sample.envDays.clock k)).toNat_lt
  simp only [UInt32.reduceToNat]
  omega

theorem many_hash (k : Nat) (hk : k < 4294967296) : Sample.envDays.hashFn (Sample.many k).encode = UInt64.ofNat k := by
  have : ((Sample.many k).encode.drop 6).take 4 =
      [UInt8.ofNat (k / 16777216), UInt8.ofNat (k / 65536), UInt8.ofNat (k / 256), UInt8.ofNat k] := rfl
  show UInt64.ofNat (List.foldl _ 0 (((Sample.many k).encode.drop 6).take 4)) = _
  rw [this]
  simp only [List.foldl, UInt8.toNat_ofNat']
  congr 1
  omega

theorem runMsgs_ep (env : Env σ) (i : Nat) : ∀ (ms : List Msg) (w : World σ) {w' as},
    runMsgs env i w ms = some (w', as) → ∀ a ∈ as, a.ep = i := by
  intro ms
  induction ms with
  | nil => intro w w' as h; cases h; simp
  | cons m ms ih =>
    intro w w' as h
    simp only [runMsgs] at h
    cases hm : handleMsg env w i m with
    | none => rw [hm] at h; cases h
    | some r =>
      simp only [hm] at h
      cases hr : runMsgs env i r.1 ms with
      | none => rw [hr] at h; cases h
      | some r2 =>
        simp only [hr] at h
        cases h
        intro a ha
        rcases List.mem_cons.mp ha with rfl | ha
        · rfl
        · exact ih _ hr a ha

theorem runRouter_ep (env : Env σ) (i : Nat) : ∀ (evs : List RouterEv), (∀ ev ∈ evs, ∃ io, ev = .read i io) →
    ∀ (w : World σ) {w' as}, runRouter env w evs = some (w', as) → ∀ a ∈ as, a.ep = i := by
  intro evs
  induction evs with
  | nil => intro _ w w' as h; cases h; simp
  | cons ev evs ih =>
    intro hev w w' as h
    obtain ⟨io, rfl⟩ := hev ev (by simp)
    simp only [runRouter, routerStep] at h
    cases hm : handleRead env w i io with
    | none => rw [hm] at h; cases h
    | some r =>
      simp only [hm] at h
      cases hr : runRouter env r.1 evs with
      | none => rw [hr] at h; cases h
      | some r2 =>
        simp only [hr] at h
        cases h
        intro a ha
        rcases List.mem_append.mp ha with ha | ha
        · unfold handleRead at hm
          split at hm
          · cases hm; cases ha
          · exact runMsgs_ep _ _ _ _ hm a ha
        · exact ih (fun e he => hev e (by simp [he])) _ hr a ha

theorem manyReads_open (l : List Nat) : openReads 0 true (l.map (fun k => RouterEv.read 0 (.got (Sample.many k).encode))) =
    (l.map (fun k => (Sample.many k).encode)).map SysRead.got := by
  induction l with
  | nil => rfl
  | cons a l ih => simp only [List.map_cons, openReads]; simpa using ih

/-- The hypotheses of `C119_kept_for_ever`. -/
example : Sample.envDays.dedupPeriod ≠ 0 ∧ (∀ k, 0 < k → dedupTimestamp (Sample.envDays.clock k) ≤
      dedupTimestamp (Sample.envDays.clock 0) + Sample.envDays.dedupPeriod) ∧
    (runRouter Sample.envDays (start [{ kind := .uart }] (fun _ => 0)) (Sample.manyReads 3)).map
      (fun r => (r.1.dedup.queue.map Prod.snd, r.2.length)) = some ([0, 1, 2], 3) :=
  ⟨by decide, fun k _ => envDays_late k, by decide +kernel⟩

/-- **C119** is false of the code: with a period of 1 s and one message a day, all messages of all days are still in
memory, however many there were. -/
theorem C119_violated (n : Nat) (hn : n < 4294967296) : ∃ w as,
    runRouter Sample.envDays (start [{ kind := .uart }] (fun _ => 0)) (Sample.manyReads n) = some (w, as) ∧
    as.map (fun a => a.msg.data) = (List.range n).map (fun k => (Sample.many k).encode) ∧
    n ≤ w.dedup.queue.length := by
  have hcfg : ConfigOk [({ kind := .uart } : Ep)] := by unfold ConfigOk; decide
  obtain ⟨w, as, h1, h2⟩ := arrivals_open Sample.envDays (Sample.manyReads n)
    (start [{ kind := .uart }] (fun _ => 0)) (.start hcfg) 0 { kind := .uart } rfl
  have hrx : (runRx Sample.envDays.tbl ({ kind := .uart } : Ep).rx
      (openReads 0 ({ kind := .uart } : Ep).fdOpen (Sample.manyReads n))).2.map Prod.fst =
      (List.range n).map (fun k => ((Sample.many k).toMsg Sample.envDays.tbl).1) := by
    show (runRx Sample.envDays.tbl {} (openReads 0 true (Sample.manyReads n))).2.map Prod.fst = _
    rw [Sample.manyReads, manyReads_open]
    have := (C06_noise_transparent Sample.envDays.tbl ((List.range n).map (fun k => ([], Sample.many k))) []
      ((List.range n).map (fun k => (Sample.many k).encode)) (by
        intro x hx
        obtain ⟨k, _, rfl⟩ := List.mem_map.mp hx
        refine ⟨by simp, ⟨by simp [Sample.many], by simp [Sample.many]⟩, ?_⟩
        intro e he
        exact absurd he (by simp [Sample.envDays])) rfl (by
        intro c hc
        obtain ⟨k, _, rfl⟩ := List.mem_map.mp hc
        simp [Frame.encode, Frame.body, Sample.many]) (by
        simp [List.flatMap_def]
        rfl)).1
    rw [this]
    simp
  rw [hrx] at h2
  have hall : ∀ a ∈ as, a.ep = 0 := by
    refine runRouter_ep _ 0 _ (fun ev he => ?_) _ h1
    obtain ⟨k, _, rfl⟩ := List.mem_map.mp he
    exact ⟨_, rfl⟩
  rw [List.filter_eq_self.mpr (by intro a ha; simp [hall a ha])] at h2
  refine ⟨w, as, h1, ?_, ?_⟩
  · have := congrArg (List.map Msg.data) h2
    rw [List.map_map, List.map_map] at this
    exact this
  · have hk := C119_kept_for_ever Sample.envDays (by decide) _ hcfg _ _ w as h1 (fun k _ _ => envDays_late k)
    have hsub := nodup_subset_length ((List.range n).map UInt64.ofNat) (w.dedup.queue.map Prod.snd) (by
      refine List.pairwise_map.mpr (List.Pairwise.imp_of_mem ?_ List.nodup_range)
      intro a b ha hb hab e
      have ha := List.mem_range.mp ha
      have hb := List.mem_range.mp hb
      have := congrArg UInt64.toNat e
      simp only [UInt64.toNat_ofNat'] at this
      omega) (by
      intro x hx
      obtain ⟨k, hk1, rfl⟩ := List.mem_map.mp hx
      have hk2 := List.mem_range.mp hk1
      have hm : ((Sample.many k).toMsg Sample.envDays.tbl).1 ∈ as.map Arrival.msg := by
        rw [h2]; exact List.mem_map.mpr ⟨k, hk1, rfl⟩
      obtain ⟨a, ha, e⟩ := List.mem_map.mp hm
      have := hk a ha
      rw [e] at this
      rw [← many_hash k (by omega)]
      exact this)
    simpa using hsub

end Verif
