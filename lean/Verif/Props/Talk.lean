import Verif.Spec.Talk
import Verif.Props.Net
import Verif.Props.Complete

/- Property C114: a reply gets to whoever has been heard, across any number of routers. -/

namespace Verif
open Spec

variable {σ : Type}

/-! ### Ways -/

theorem Way.snoc {wires : Wires} {t : Nat → Nat} {a b c j : Nat} (h : Way wires t a b) (hw : wires b (t b) = some (c, j)) :
    Way wires t a c := by
  induction h with
  | here r => exact .hop hw (.here _)
  | hop h1 _ ih => exact .hop h1 (ih hw)

theorem Way.rest {wires : Wires} {t : Nat → Nat} {home a b : Nat} (hh : wires home (t home) = none) (h : Way wires t a b)
    (hl : Way wires t a home) : Way wires t b home := by
  induction h with
  | here r => exact hl
  | hop h1 _ ih =>
    cases hl with
    | here => rw [hh] at h1; cases h1
    | hop h2 h3 => rw [h1] at h2; cases h2; exact ih h3

theorem Way.last {wires : Wires} {t : Nat → Nat} {a b : Nat} (h : Way wires t a b) (hne : a ≠ b) :
    ∃ q j, Way wires t a q ∧ wires q (t q) = some (b, j) := by
  induction h with
  | here r => exact absurd rfl hne
  | @hop r r' j q h1 h2 ih =>
    by_cases e : r' = q
    · subst e; exact ⟨r, j, .here _, h1⟩
    · obtain ⟨x, y, h3, h4⟩ := ih e
      exact ⟨x, y, .hop h1 h3, h4⟩

/-- A way to somebody does not go back and forth. -/
theorem Way.noBack {wires : Wires} {t : Nat → Nat} {home r r' i j : Nat} (hh : wires home (t home) = none)
    (hl : Way wires t r home) (h1 : wires r (t r) = some (r', i)) (h2 : wires r' (t r') = some (r, j)) : False := by
  generalize hg : home = g at hl
  induction hl generalizing r' i j with
  | here => subst hg; rw [hh] at h1; cases h1
  | hop h3 _ ih =>
    rw [h1] at h3
    cases h3
    exact ih h2 h1 hg

/-! ### One reception -/

theorem knows_mem (e : Ep) (s c : UInt8) : Knows e s.toNat c.toNat ↔ sysComp s c ∈ e.learned := by
  rw [← hasSysComp_iff, hasSysComp_mem]

/-- What the theorems assume of the routers: no groups, no de-duplication, no message in `keep` is held back by filters, bytes are not
edited; `A r` are the endpoints of router `r`. -/
structure NetOk (env : Nat → Env σ) (wires : Wires) (keep : Msg → Prop) (A : Nat → List Nat) (n : Net σ) : Prop where
  reached : ∀ r, Reached (env r) (n.routers r)
  group : ∀ (r k : Nat) (e : Ep), (n.routers r).eps[k]? = some e → e.group = ""
  filters : ∀ (r k : Nat) (e : Ep), (n.routers r).eps[k]? = some e → ∀ m, keep m → inOk e.filters m ∧ outOk e.filters m
  active : ∀ r, (n.routers r).active = A r
  transit : ∀ c ∈ n.transit, c.ep ∈ A c.router ∧ MsgOk c.msg

/-- The address is known at a router only in the direction of `toward`, and its messages come from there. -/
structure Placed (s c : UInt8) (toward : Nat → Nat) (n : Net σ) : Prop where
  known : ∀ (r k : Nat) (e : Ep), (n.routers r).eps[k]? = some e → Knows e s.toNat c.toNat → k = toward r
  coming : ∀ x ∈ n.transit, FromAddr s c x.msg → x.ep = toward x.router

/-- Everything about one reception. -/
structure Received (env : Nat → Env σ) (wires : Wires) (keep : Msg → Prop) (n : Net σ) (c : Transit) (others : List Transit)
    (n1 : Net σ) : Prop where
  other : ∀ r, r ≠ c.router → n1.routers r = n.routers r
  stays : ∀ x ∈ others, x ∈ n1.transit
  from_ : ∀ x ∈ n1.transit, x ∈ others ∨ (x.msg = c.msg ∧ ∃ j, j ≠ c.ep ∧
    Gets (env c.router).sniffer.toNat (n1.routers c.router).eps c.msg j ∧ wires c.router j = some (x.router, x.ep))
  only : ∀ x ∈ directSince (n.routers c.router) (n1.routers c.router), Gets (env c.router).sniffer.toNat (n1.routers c.router).eps c.msg x.ep
  still : ∀ (r k : Nat) (e : Ep), (n.routers r).eps[k]? = some e → ∃ e' : Ep, (n1.routers r).eps[k]? = some e' ∧ e'.group = e.group ∧
    e'.filters = e.filters ∧ ∀ s c, Knows e s c → Knows e' s c
  learned : ∀ (r k : Nat) (e' : Ep), (n1.routers r).eps[k]? = some e' → ∃ e : Ep, (n.routers r).eps[k]? = some e ∧ ∀ s a : UInt8, Knows e' s.toNat a.toNat →
    Knows e s.toNat a.toNat ∨ (FromAddr s a c.msg ∧ r = c.router ∧ k = c.ep)
  out : ∀ r, ∃ new, (n1.routers r).out = (n.routers r).out ++ new
  learns : keep c.msg → ∃ e : Ep, (n1.routers c.router).eps[c.ep]? = some e ∧ Knows e c.msg.srcSys.toNat c.msg.srcComp.toNat
  sends : keep c.msg → ∀ j ∈ (n.routers c.router).active, Gets (env c.router).sniffer.toNat (n1.routers c.router).eps c.msg j →
    (∃ x ∈ (n1.routers c.router).out.drop (n.routers c.router).out.length, x.gen = false ∧ x.ep = j ∧ x.bytes = c.msg.data) ∧
    ∀ r' i', wires c.router j = some (r', i') → ⟨r', i', c.msg⟩ ∈ n1.transit
  memory : ∀ r, ∀ h ∈ (n1.routers r).dedup.set, h ∈ (n.routers r).dedup.set ∨ (r = c.router ∧ h = (env r).hashFn c.msg.data)
  list : ∃ js : List Nat, js.Nodup ∧ c.ep ∉ js ∧
    n1.transit = others ++ js.filterMap (fun j => (wires c.router j).map (fun x => (⟨x.1, x.2, c.msg⟩ : Transit)))

/-- The set of remembered hashes grows by the packet's at most; a packet that is not in it is new. -/
theorem expire_set (ts period : UInt32) : ∀ (q : List (UInt32 × UInt64)) (s : List UInt64) q' s',
    dedupExpire ts period q s = some (q', s') → ∀ x ∈ s', x ∈ s := by
  intro q
  induction q with
  | nil => intro s q' s' he; cases he; exact fun x hx => hx
  | cons e q ih =>
    intro s q' s' he
    obtain ⟨t, k⟩ := e
    unfold dedupExpire at he
    split at he
    · split at he
      · exact fun x hx => List.mem_of_mem_erase (ih _ _ _ he x hx)
      · cases he
    · cases he; exact fun x hx => hx

theorem check_set (hashFn : List UInt8 → UInt64) (d : Dedup) (period : UInt32) (now : Int) (pkt : List UInt8) {d' : Dedup} {b : Bool}
    (h : d.check hashFn period now pkt = some (d', b)) : ∀ x ∈ d'.set, x ∈ d.set ∨ x = hashFn pkt := by
  unfold Dedup.check at h
  split at h
  · cases h; exact fun x hx => .inl hx
  · unfold Dedup.checkHash at h
    simp only at h
    split at h
    · cases h
    · next q s he =>
      split at h
      · cases h
        exact fun x hx => .inl (expire_set _ _ _ _ _ _ he x hx)
      · cases h
        intro x hx
        rcases List.mem_cons.mp hx with e | e
        · exact .inr e
        · exact .inl (expire_set _ _ _ _ _ _ he x e)

theorem check_new (hashFn : List UInt8 → UInt64) (d : Dedup) (hd : d.Inv) (period : UInt32) (now : Int) (pkt : List UInt8)
    (hn : period = 0 ∨ hashFn pkt ∉ d.set) : ∃ d', d.check hashFn period now pkt = some (d', true) := by
  unfold Dedup.check
  split
  · exact ⟨_, rfl⟩
  · next hp =>
    obtain ⟨q', s', ha, _⟩ := dedupExpire_inv (dedupTimestamp now) period d.queue d.set hd.nodup hd.perm
    unfold Dedup.checkHash
    simp only [ha]
    rw [if_neg (fun h => (hn.resolve_left hp) (expire_set _ _ _ _ _ _ ha _ h))]
    exact ⟨_, rfl⟩

theorem handleMsg_memory (env : Env σ) (w : World σ) (hw : RouterInv w) (i : Nat) (m : Msg) {w' : World σ} {b : Bool}
    (h : handleMsg env w i m = some (w', b)) : ∀ x ∈ w'.dedup.set, x ∈ w.dedup.set ∨ x = env.hashFn m.data := by
  unfold handleMsg at h
  split at h
  · cases h; exact fun x hx => .inl hx
  · next e he =>
    split at h
    · cases h
    · next d isNew hc =>
      simp only at h
      cases isNew with
      | false => cases h; exact check_set _ _ _ _ _ hc
      | true =>
        rw [if_neg (by decide)] at h
        by_cases hal : allowedIn e.filters m = true
        · rw [hal, if_neg (by decide)] at h
          split at h
          · cases h
          · next h' _ =>
          cases h
          obtain ⟨new, hk, _⟩ := routeMsg_spec env 1 { w with eps := h', dedup := d, checks := w.checks + 1 } m
          rw [hk.dedup]
          exact check_set _ _ _ _ _ hc
        · rw [if_pos (by simpa using hal)] at h
          cases h
          exact check_set _ _ _ _ _ hc

theorem received (env : Nat → Env σ) (wires : Wires) (keep : Msg → Prop) (A : Nat → List Nat) {n n1 : Net σ} {c : Transit}
    {others : List Transit} (hlog : ∀ r i s m, ((env r).log i s m).2.2 = m.data)
    (H : NetOk env wires keep A n)
    (hd : keep c.msg → (env c.router).dedupPeriod = 0 ∨ (env c.router).hashFn c.msg.data ∉ (n.routers c.router).dedup.set) (hc : c.ep ∈ A c.router) (hm : MsgOk c.msg)
    (hr : n.receive env wires c others = some n1) : Received env wires keep n c others n1 := by
  unfold Net.receive at hr
  cases hh : handleMsg (env c.router) (n.routers c.router) c.ep c.msg with
  | none => rw [hh] at hr; cases hr
  | some x =>
    obtain ⟨w, b⟩ := x
    rw [hh] at hr
    simp only [Option.some.injEq] at hr
    subst hr
    have hinv := reached_inv (H.reached c.router)
    obtain ⟨w1, b1, h1, _, hist, hact, hfalse, htrue, hiff⟩ := handleMsg_spec (env c.router) _ hinv c.ep c.msg
    rw [hh] at h1; cases h1
    have hlt : c.ep < (n.routers c.router).eps.length := hinv.actLt _ (by rw [H.active]; exact hc)
    have hee : (n.routers c.router).eps[c.ep]? = some (n.routers c.router).eps[c.ep] := List.getElem?_eq_getElem hlt
    have hpeer : ∀ {eps' : List Ep}, Ext (n.routers c.router).eps eps' → ∀ k, Peer eps' c.ep k → k = c.ep := by
      intro eps' x k hp
      rw [x.peer] at hp
      rcases hp with h | ⟨e, e', h1, _, h3, _⟩
      · exact h.symm
      · exact absurd (H.group _ _ _ h1) h3
    have hpass : keep c.msg → b = true := by
      intro hk
      refine (C13_passed_iff (env c.router) _ _ (H.reached c.router) c.ep _ hee c.msg hm b hh).mpr 
        ⟨check_new _ _ hinv.dedup _ _ _ (hd hk), (H.filters _ _ _ hee _ hk).1⟩
    have hbytes : ∀ s ∈ directSince (n.routers c.router) w, s.bytes = c.msg.data := by
      cases b with
      | false => obtain ⟨d, k, rfl⟩ := hfalse rfl; simp [directSince]
      | true =>
        obtain ⟨h', d, _, _, rfl⟩ := htrue rfl
        exact C20_same_bytes_partial (env c.router) { n.routers c.router with eps := h', dedup := d, checks := (n.routers c.router).checks + 1 }
          c.msg 1 (fun i _ _ _ _ s => hlog c.router i s c.msg)
    have hout : ∃ new, w.out = (n.routers c.router).out ++ new := by
      cases b with
      | false => obtain ⟨d, k, rfl⟩ := hfalse rfl; exact ⟨[], by simp⟩
      | true =>
        obtain ⟨h', d, _, _, rfl⟩ := htrue rfl
        obtain ⟨new, hk, _⟩ := routeMsg_spec (env c.router) 1 { n.routers c.router with eps := h', dedup := d, checks := (n.routers c.router).checks + 1 } c.msg
        exact ⟨new, hk.out⟩
    have hgo := Sample.outgoing_eq wires c.router c.msg _ hbytes
    have honly : ∀ x ∈ directSince (n.routers c.router) w, Gets (env c.router).sniffer.toNat w.eps c.msg x.ep := by
      have h2 := C12_end_to_end (env c.router) _ _ (H.reached c.router) c.ep c.msg hm b hh
      intro x hx
      have hxm : x.ep ∈ (directSince (n.routers c.router) w).map Sent.ep := List.mem_map_of_mem hx
      cases b with
      | false => simp [directSince, h2.1 rfl] at hx
      | true =>
        rw [h2.2 rfl, List.mem_filter] at hxm
        simpa using hxm.2
    refine ⟨?_, ?_, ?_, ?_, ?_, ?_, ?_, ?_, ?_, ?_, ?_⟩
    · intro r hr; simp only []; rw [if_neg hr]
    · intro x hx; exact List.mem_append_left _ hx
    · intro x hx
      simp only [] at hx
      rcases List.mem_append.mp hx with hx | hx
      · exact .inl hx
      · right
        rw [hgo] at hx
        simp only [List.mem_filterMap, List.mem_map, Option.map_eq_some_iff] at hx
        obtain ⟨j, ⟨s, hs, rfl⟩, ⟨r', i'⟩, hwx, rfl⟩ := hx
        refine ⟨rfl, s.ep, ?_, by simp only [if_true]; exact honly s hs, hwx⟩
        intro e
        exact C11_no_echo (env c.router) _ _ (H.reached c.router) c.ep c.msg b hh s hs (.inl e.symm)
    · simp only [if_true]; exact honly
    · intro r k e he
      simp only []
      by_cases hrr : r = c.router
      · subst hrr
        rw [if_pos rfl]
        obtain ⟨e', h1, _, h3, h4, _, x, hx⟩ := hist.ext.each k e he
        refine ⟨e', h1, h3, h4, ?_⟩
        rintro s a ⟨y, hy, hy2⟩
        exact ⟨y, by rw [hx]; exact List.mem_append_left _ hy, hy2⟩
      · rw [if_neg hrr]; exact ⟨e, he, rfl, rfl, fun _ _ h => h⟩
    · intro r k e' he
      simp only [] at he
      by_cases hrr : r = c.router
      · subst hrr
        rw [if_pos rfl] at he
        have hk : k < (n.routers c.router).eps.length := by
          have h1 := (List.getElem?_eq_some_iff.mp he).1
          cases b with
          | false => obtain ⟨d, k, rfl⟩ := hfalse rfl; exact h1
          | true =>
            obtain ⟨h', d, l, _, rfl⟩ := htrue rfl
            obtain ⟨new, hkk, _⟩ := routeMsg_spec (env c.router) 1 { n.routers c.router with eps := h', dedup := d, checks := (n.routers c.router).checks + 1 } c.msg
            rw [hkk.eps] at h1
            have h2 : k < h'.length := h1
            rwa [l.grow.len] at h2
        refine ⟨_, List.getElem?_eq_getElem hk, ?_⟩
        intro s a hkn
        rw [knows_mem, hist.iff k e' he] at hkn
        rcases hkn with ⟨e, h1, h2⟩ | ⟨y, hy, _, hid, hp⟩
        · rw [List.getElem?_eq_getElem hk] at h1; cases h1
          exact .inl ((knows_mem _ _ _).mpr h2)
        · simp only [List.mem_singleton] at hy
          subst hy
          obtain ⟨e1, e2⟩ := (sysComp_inj _ _ _ _).mp hid
          exact .inr ⟨⟨e1.symm, e2.symm⟩, rfl, hpeer hist.ext k hp⟩
      · rw [if_neg hrr] at he
        exact ⟨e', he, fun s a h => .inl h⟩
    · intro r
      simp only []
      by_cases hrr : r = c.router
      · subst hrr; rw [if_pos rfl]; exact hout
      · rw [if_neg hrr]; exact ⟨[], by simp⟩
    · intro hk
      obtain ⟨e', h1, _⟩ := hist.ext.each c.ep _ hee
      simp only [if_true]
      refine ⟨e', h1, ?_⟩
      rw [knows_mem, hist.iff c.ep e' h1]
      exact .inr ⟨_, List.mem_singleton.mpr rfl, hpass hk, rfl, .inl rfl⟩
    · intro hk j hj hg
      simp only [if_true] at hg ⊢
      have h2 := (C12_end_to_end (env c.router) _ _ (H.reached c.router) c.ep c.msg hm b hh).2 (hpass hk)
      have hjm : j ∈ (directSince (n.routers c.router) w).map Sent.ep := by
        rw [h2, List.mem_filter]
        refine ⟨by rw [hact]; exact hj, ?_⟩
        simpa using hg
      constructor
      · obtain ⟨s, hs, rfl⟩ := List.mem_map.mp hjm
        refine ⟨s, ?_, ?_, rfl, hbytes s hs⟩
        · exact (List.mem_filter.mp hs).1
        · simpa using (List.mem_filter.mp hs).2
      · intro r' i' hw
        rw [hgo]
        refine List.mem_append_right _ (List.mem_filterMap.mpr ⟨j, hjm, ?_⟩)
        rw [hw]; rfl
    · intro r
      simp only []
      by_cases hrr : r = c.router
      · subst hrr
        rw [if_pos rfl]
        exact fun h hh' => (handleMsg_memory (env c.router) _ hinv c.ep c.msg hh h hh').imp id fun e => ⟨rfl, e⟩
      · rw [if_neg hrr]; exact fun h hh => .inl hh
    · refine ⟨(directSince (n.routers c.router) w).map Sent.ep, ?_, ?_, by simp only []; rw [hgo]⟩
      · cases b with
        | false => obtain ⟨d, k, rfl⟩ := hfalse rfl; simp [directSince]
        | true =>
          rw [(C12_end_to_end (env c.router) _ _ (H.reached c.router) c.ep c.msg hm true hh).2 rfl]
          refine List.Nodup.sublist List.filter_sublist ?_
          rw [hact]
          exact hinv.actNodup
      · intro hmem
        obtain ⟨s, hs, e⟩ := List.mem_map.mp hmem
        exact C11_no_echo (env c.router) _ _ (H.reached c.router) c.ep c.msg b hh s hs (.inl e.symm)

/-! ### Invariants -/

theorem netOk_receive (env : Nat → Env σ) (wires : Wires) (keep : Msg → Prop) (A : Nat → List Nat) {n n1 : Net σ} {c : Transit}
    {pre post : List Transit} (hA : ∀ r j x, wires r j = some x → j ∈ A r) (h2 : TwoEnded wires)
    (H : NetOk env wires keep A n) (ht : n.transit = pre ++ c :: post)
    (hr : n.receive env wires c (pre ++ post) = some n1) (R : Received env wires keep n c (pre ++ post) n1) :
    NetOk env wires keep A n1 := by
  have hc := H.transit c (by rw [ht]; simp)
  refine ⟨?_, ?_, ?_, ?_, ?_⟩
  · intro r
    unfold Net.receive at hr
    cases hh : handleMsg (env c.router) (n.routers c.router) c.ep c.msg with
    | none => rw [hh] at hr; cases hr
    | some x =>
      rw [hh] at hr
      simp only [Option.some.injEq] at hr
      subst hr
      simp only []
      by_cases e : r = c.router
      · subst e; rw [if_pos rfl]; exact .message (H.reached _) hh
      · rw [if_neg e]; exact H.reached r
  · intro r k e' he'
    obtain ⟨e, he, _⟩ := R.learned r k e' he'
    obtain ⟨e'', h1, h3, _⟩ := R.still r k e he
    rw [he'] at h1; cases h1
    rw [h3]; exact H.group r k e he
  · intro r k e' he' m hm
    obtain ⟨e, he, _⟩ := R.learned r k e' he'
    obtain ⟨e'', h1, _, h4, _⟩ := R.still r k e he
    rw [he'] at h1; cases h1
    rw [h4]; exact H.filters r k e he m hm
  · intro r
    unfold Net.receive at hr
    cases hh : handleMsg (env c.router) (n.routers c.router) c.ep c.msg with
    | none => rw [hh] at hr; cases hr
    | some x =>
      rw [hh] at hr
      simp only [Option.some.injEq] at hr
      subst hr
      simp only []
      by_cases e : r = c.router
      · subst e
        rw [if_pos rfl]
        obtain ⟨w1, b1, h1, _, _, hact, _⟩ := handleMsg_spec (env c.router) _ (reached_inv (H.reached c.router)) c.ep c.msg
        rw [hh] at h1; cases h1
        rw [hact]; exact H.active _
      · rw [if_neg e]; exact H.active r
  · intro x hx
    rcases R.from_ x hx with hx | ⟨hm, j, _, _, hw⟩
    · exact H.transit x (by rw [ht]; rcases List.mem_append.mp hx with h | h <;> simp [h])
    · exact ⟨hA _ _ _ (h2 _ _ _ _ hw), by rw [hm]; exact hc.2⟩

theorem placed_receive {env : Nat → Env σ} {wires : Wires} {keep : Msg → Prop} {n n1 : Net σ} {c : Transit}
    {pre post : List Transit} {home : Nat} {toward : Nat → Nat} {s a : UInt8} (hL : Lives wires home toward)
    (P : Placed s a toward n) (ht : n.transit = pre ++ c :: post)
    (R : Received env wires keep n c (pre ++ post) n1) : Placed s a toward n1 := by
  have hc : c ∈ n.transit := by rw [ht]; simp
  refine ⟨?_, ?_⟩
  · intro r k e' he' hk
    obtain ⟨e, he, hl⟩ := R.learned r k e' he'
    rcases hl s a hk with h | ⟨hf, rfl, rfl⟩
    · exact P.known r k e he h
    · exact P.coming c hc hf
  · intro x hx hf
    rcases R.from_ x hx with hx | ⟨hm, j, hj, _, hw⟩
    · exact P.coming x (by rw [ht]; rcases List.mem_append.mp hx with h | h <;> simp [h]) hf
    · rw [hm] at hf
      have := P.coming c hc hf
      exact (hL.away _ _ _ _ (this ▸ hj) hw).symm

/-- Assumptions on the network and on what enters it. -/
structure TalkOk (env : Nat → Env σ) (wires : Wires) (A : Nat → List Nat) : Prop where
  log : ∀ r i s m, ((env r).log i s m).2.2 = m.data
  wired : ∀ r j x, wires r j = some x → j ∈ A r
  two : TwoEnded wires

/-- The property `F` of networks lasts in executions, and with it the messages in `good` are not dropped as duplicates. -/
structure Lasting (env : Nat → Env σ) (wires : Wires) (A : Nat → List Nat) (enters : Transit → Prop) (keep good : Msg → Prop)
    (F : Net σ → Prop) : Prop where
  fresh : ∀ n, F n → ∀ c ∈ n.transit, good c.msg →
    (env c.router).dedupPeriod = 0 ∨ (env c.router).hashFn c.msg.data ∉ (n.routers c.router).dedup.set
  receive : ∀ n n1 pre post c, NetOk env wires keep A n → F n → n.transit = pre ++ c :: post →
      Received env wires keep n c (pre ++ post) n1 → F n1
  lose : ∀ (n : Net σ) pre post c, F n → n.transit = pre ++ c :: post → ¬ keep c.msg → F { n with transit := pre ++ post }
  enter : ∀ (n : Net σ) c, F n → enters c → F { n with transit := n.transit ++ [c] }

/-- Without de-duplication nothing is dropped as duplicate. -/
theorem lasting_off {env : Nat → Env σ} {wires : Wires} {A : Nat → List Nat} {enters : Transit → Prop} {keep : Msg → Prop}
    (hd : ∀ r, (env r).dedupPeriod = 0) : Lasting env wires A enters keep keep (fun _ => True) :=
  ⟨fun _ _ _ _ _ => .inl (hd _), fun _ _ _ _ _ _ _ _ _ => trivial, fun _ _ _ _ _ _ _ => trivial, fun _ _ _ _ => trivial⟩

/-- Nothing is claimed of no message. -/
theorem lasting_none {env : Nat → Env σ} {wires : Wires} {A : Nat → List Nat} {enters : Transit → Prop} :
    Lasting env wires A enters (fun _ => False) (fun _ => False) (fun _ => True) :=
  ⟨fun _ _ _ _ h => h.elim, fun _ _ _ _ _ _ _ _ _ => trivial, fun _ _ _ _ _ _ _ => trivial, fun _ _ _ _ => trivial⟩

/-- An execution in which more is kept is one in which less is. -/
theorem talk_keep {env : Nat → Env σ} {wires : Wires} {enters : Transit → Prop} {keep keep' : Msg → Prop}
    (hk : ∀ m, keep' m → keep m) {n n' : Net σ} (h : Talk env wires enters keep n n') : Talk env wires enters keep' n n' := by
  induction h with
  | done n => exact .done n
  | receive ht hr _ ih => exact .receive ht hr ih
  | lose ht hn _ ih => exact .lose ht (fun h => hn (hk _ h)) ih
  | enter hw ha hm he _ ih => exact .enter hw ha hm he ih

/-- An invariant of executions. -/
theorem talk_induct {env : Nat → Env σ} {wires : Wires} {A : Nat → List Nat} {enters : Transit → Prop} {keep : Msg → Prop}
    (T : TalkOk env wires A) {F : Net σ → Prop} (K : Lasting env wires A enters keep keep F) (I : Net σ → Prop)
    (hrecv : ∀ n n1 pre post c, NetOk env wires keep A n → I n → n.transit = pre ++ c :: post →
      Received env wires keep n c (pre ++ post) n1 → NetOk env wires keep A n1 → I n1)
    (hlose : ∀ n pre post c, NetOk env wires keep A n → I n → n.transit = pre ++ c :: post → ¬ keep c.msg →
      I { n with transit := pre ++ post })
    (henter : ∀ n c, NetOk env wires keep A n → I n → wires c.router c.ep = none → enters c →
      I { n with transit := n.transit ++ [c] })
    {n n' : Net σ} (h : Talk env wires enters keep n n') (H : NetOk env wires keep A n) (hF : F n) (hI : I n) :
    NetOk env wires keep A n' ∧ F n' ∧ I n' := by
  induction h with
  | done n => exact ⟨H, hF, hI⟩
  | @receive n n1 n2 pre post c ht hr _ ih =>
    have hc := H.transit c (by rw [ht]; simp)
    have R := received env wires keep A T.log H (fun hk => K.fresh _ hF c (by rw [ht]; simp) hk) hc.1 hc.2 hr
    have H1 := netOk_receive env wires keep A T.wired T.two H ht hr R
    exact ih H1 (K.receive _ _ _ _ _ H hF ht R) (hrecv _ _ _ _ _ H hI ht R H1)
  | @lose n n2 pre post c ht hk _ ih =>
    refine ih ⟨H.reached, H.group, H.filters, H.active, ?_⟩ (K.lose _ _ _ _ hF ht hk) (hlose _ _ _ _ H hI ht hk)
    intro x hx
    exact H.transit x (by rw [ht]; rcases List.mem_append.mp hx with h | h <;> simp [h])
  | @enter n n2 c hw ha hm he _ ih =>
    refine ih ⟨H.reached, H.group, H.filters, H.active, ?_⟩ (K.enter _ _ hF he) (henter _ _ H hI hw he)
    intro x hx
    rcases List.mem_append.mp hx with h | h
    · exact H.transit x h
    · simp only [List.mem_singleton] at h
      subst h
      exact ⟨by rw [← H.active]; exact ha, hm⟩

theorem placed_talk {env : Nat → Env σ} {wires : Wires} {A : Nat → List Nat} {enters : Transit → Prop} {keep : Msg → Prop}
    (T : TalkOk env wires A) {F : Net σ → Prop} (K : Lasting env wires A enters keep keep F) {home : Nat} {toward : Nat → Nat} {s a : UInt8} (hL : Lives wires home toward)
    (hE : ∀ c, enters c → FromAddr s a c.msg → c.router = home ∧ c.ep = toward home)
    {n n' : Net σ} (h : Talk env wires enters keep n n') (H : NetOk env wires keep A n) (hF : F n) (P : Placed s a toward n) :
    NetOk env wires keep A n' ∧ F n' ∧ Placed s a toward n' := by
  refine talk_induct T K (Placed s a toward) ?_ ?_ ?_ h H hF P
  · intro n n1 pre post c _ P ht R _
    exact placed_receive hL P ht R
  · intro n pre post c _ P ht _
    exact ⟨P.known, fun x hx => P.coming x (by rw [ht]; rcases List.mem_append.mp hx with h | h <;> simp [h])⟩
  · intro n c _ P hw he
    refine ⟨P.known, fun x hx hf => ?_⟩
    rcases List.mem_append.mp hx with h | h
    · exact P.coming x h hf
    · simp only [List.mem_singleton] at h
      subst h
      obtain ⟨h1, h2⟩ := hE _ he hf
      rw [h1, h2]

/-! ### The broadcast reaches every router -/

/-- Router `r` knows the address in the direction `toward`, or the broadcast `b` is on its way to `r`. -/
def Hearing (wires : Wires) (toward : Nat → Nat) (s a : UInt8) (b : Msg) (r : Nat) (n : Net σ) : Prop :=
  (∃ e : Ep, (n.routers r).eps[toward r]? = some e ∧ Knows e s.toNat a.toNat) ∨
  ∃ c ∈ n.transit, c.msg = b ∧ Way wires toward r c.router

theorem hearing_talk {env : Nat → Env σ} {wires : Wires} {A : Nat → List Nat} {enters : Transit → Prop} {keep : Msg → Prop}
    (T : TalkOk env wires A) {F : Net σ → Prop} (K : Lasting env wires A enters keep keep F) {home : Nat} {toward : Nat → Nat} {s a : UInt8} (hL : Lives wires home toward)
    (hE : ∀ c, enters c → FromAddr s a c.msg → c.router = home ∧ c.ep = toward home)
    {b : Msg} (hb : FromAddr s a b) (hbc : b.targetSys ≤ 0) (hk : keep b) {r : Nat} (hr : Way wires toward r home)
    {n n' : Net σ} (h : Talk env wires enters keep n n') (H : NetOk env wires keep A n) (hF : F n) (P : Placed s a toward n)
    (hI : Hearing wires toward s a b r n) : Hearing wires toward s a b r n' := by
  have key := talk_induct (keep := keep) (enters := enters) T K (fun n => Placed s a toward n ∧ Hearing wires toward s a b r n)
    ?_ ?_ ?_ h H hF ⟨P, hI⟩
  · exact key.2.2.2
  · rintro n n1 pre post c H ⟨P, hI⟩ ht R H1
    have P1 := placed_receive hL P ht R
    refine ⟨P1, ?_⟩
    rcases hI with ⟨e, he, hke⟩ | ⟨x, hx, hxb, hway⟩
    · obtain ⟨e', h1, _, _, h4⟩ := R.still _ _ _ he
      exact .inl ⟨e', h1, h4 _ _ hke⟩
    · rw [ht] at hx
      by_cases hxc : x = c
      · subst hxc
        have hcoming := P.coming x (by rw [ht]; simp) (hxb ▸ hb)
        by_cases hrr : r = x.router
        · left
          obtain ⟨e, h1, h2⟩ := R.learns (hxb ▸ hk)
          rw [hcoming, ← hrr] at h1
          rw [hxb, hb.1, hb.2] at h2
          exact ⟨e, h1, h2⟩
        · right
          obtain ⟨q, j, hq, hlast⟩ := Way.last hway hrr
          have hback := T.two _ _ _ _ hlast
          have hj : j ≠ toward x.router := by
            intro e
            exact Way.noBack hL.edge (Way.rest hL.edge hq hr) hlast (e ▸ hback)
          have hact : j ∈ (n.routers x.router).active := by rw [H.active]; exact T.wired _ _ _ hback
          have hlt : j < (n1.routers x.router).eps.length :=
            (reached_inv (H1.reached x.router)).actLt _ (by rw [H1.active, ← H.active]; exact hact)
          have hg : Gets (env x.router).sniffer.toNat (n1.routers x.router).eps x.msg j := by
            refine ⟨_, List.getElem?_eq_getElem hlt, ?_, ?_, .inl (.inl ?_)⟩
            · intro hf
              unfold FromHere at hf
              rw [hxb, hb.1, hb.2] at hf
              exact hj (P1.known _ _ _ (List.getElem?_eq_getElem hlt) hf)
            · exact (H1.filters _ _ _ (List.getElem?_eq_getElem hlt) _ (hxb ▸ hk)).2
            · rw [hxb]; exact hbc
          have := (R.sends (hxb ▸ hk) j hact hg).2 _ _ hback
          exact ⟨_, this, hxb, hq⟩
      · right
        refine ⟨x, R.stays x ?_, hxb, hway⟩
        rcases List.mem_append.mp hx with h | h
        · exact List.mem_append_left _ h
        · rcases List.mem_cons.mp h with h | h
          · exact absurd h hxc
          · exact List.mem_append_right _ h
  · rintro n pre post c H ⟨P, hI⟩ ht hnk
    refine ⟨⟨P.known, fun x hx => P.coming x (by rw [ht]; rcases List.mem_append.mp hx with h | h <;> simp [h])⟩, ?_⟩
    rcases hI with h | ⟨x, hx, hxb, hway⟩
    · exact .inl h
    · right
      refine ⟨x, ?_, hxb, hway⟩
      rw [ht] at hx
      rcases List.mem_append.mp hx with h | h
      · exact List.mem_append_left _ h
      · rcases List.mem_cons.mp h with h | h
        · subst h; exact absurd (hxb ▸ hk) hnk
        · exact List.mem_append_right _ h
  · rintro n c H ⟨P, hI⟩ hw he
    refine ⟨⟨P.known, fun x hx hf => ?_⟩, ?_⟩
    · rcases List.mem_append.mp hx with h | h
      · exact P.coming x h hf
      · simp only [List.mem_singleton] at h
        subst h
        obtain ⟨h1, h2⟩ := hE _ he hf
        rw [h1, h2]
    · rcases hI with h | ⟨x, hx, h⟩
      · exact .inl h
      · exact .inr ⟨x, List.mem_append_left _ hx, h⟩

/-! ### The reply finds its way -/

/-- On the way to somebody the direction of somebody else is another one. -/
theorem directions {wires : Wires} (h2 : TwoEnded wires) {home : Nat} {toward back : Nat → Nat} {homeB : Nat}
    (hL : Lives wires home toward) (hB : Lives wires homeB back) {r q : Nat} (hr : Way wires toward r home)
    (hne : back r ≠ toward r) (h : Way wires toward r q) : back q ≠ toward q := by
  induction h with
  | here r => exact hne
  | @hop r r' j q h1 _ ih =>
    cases hr with
    | here => rw [hL.edge] at h1; cases h1
    | hop h3 h4 =>
      rw [h1] at h3; cases h3
      refine ih h4 ?_
      have hb := hB.away _ _ _ _ (Ne.symm hne) h1
      intro e
      exact Way.noBack hL.edge (.hop h1 h4) h1 (by rw [← e, hb]; exact h2 _ _ _ _ h1)

/-- The message `m` was written at router `home` on endpoint `i` after the first `k` writes. -/
def Written (n : Net σ) (home i k : Nat) (m : Msg) : Prop :=
  ∃ x ∈ (n.routers home).out.drop k, x.gen = false ∧ x.ep = i ∧ x.bytes = m.data

theorem written_more {n n1 : Net σ} {home i k : Nat} {m : Msg} (h : ∃ new, (n1.routers home).out = (n.routers home).out ++ new)
    (hw : Written n home i k m) : Written n1 home i k m := by
  obtain ⟨new, h⟩ := h
  obtain ⟨x, hx, h1⟩ := hw
  refine ⟨x, ?_, h1⟩
  rw [h, List.drop_append]
  exact List.mem_append_left _ hx

/-- The message was written, or it is on its way. -/
def Replying (wires : Wires) (toward : Nat → Nat) (home k : Nat) (m : Msg) (from_ : Nat) (n : Net σ) : Prop :=
  Written n home (toward home) k m ∨ ∃ c ∈ n.transit, c.msg = m ∧ Way wires toward from_ c.router

theorem replying_talk {env : Nat → Env σ} {wires : Wires} {A : Nat → List Nat} {enters : Transit → Prop} {keep : Msg → Prop}
    (T : TalkOk env wires A) {F : Net σ → Prop} (K : Lasting env wires A enters keep keep F) {home homeB k : Nat} {toward back : Nat → Nat} {s a s' a' : UInt8} (hL : Lives wires home toward)
    (hB : Lives wires homeB back) (hEB : ∀ c, enters c → FromAddr s' a' c.msg → c.router = homeB ∧ c.ep = back homeB)
    (hA : toward home ∈ A home) {m : Msg} (hm : FromAddr s' a' m) (hto : ToAddr s a m) (hk : keep m)
    (hway : Way wires toward homeB home) (hne : back homeB ≠ toward homeB)
    {n n' : Net σ} (h : Talk env wires enters keep n n') (H : NetOk env wires keep A n) (hF : F n) (P : Placed s' a' back n)
    (hkn : ∀ r, Way wires toward r home → ∃ e : Ep, (n.routers r).eps[toward r]? = some e ∧ Knows e s.toNat a.toNat)
    (hlen : k ≤ (n.routers home).out.length)
    (hI : Replying wires toward home k m homeB n) : Replying wires toward home k m homeB n' := by
  have key := talk_induct (keep := keep) (enters := enters) T K (fun n => Placed s' a' back n ∧
    (∀ r, Way wires toward r home → ∃ e : Ep, (n.routers r).eps[toward r]? = some e ∧ Knows e s.toNat a.toNat) ∧
    k ≤ (n.routers home).out.length ∧ Replying wires toward home k m homeB n)
    ?_ ?_ ?_ h H hF ⟨P, hkn, hlen, hI⟩
  · exact key.2.2.2.2.2
  · rintro n n1 pre post c H ⟨P, hkn, hlen, hI⟩ ht R H1
    have P1 := placed_receive hB P ht R
    have hkn1 : ∀ r, Way wires toward r home → ∃ e : Ep, (n1.routers r).eps[toward r]? = some e ∧ Knows e s.toNat a.toNat := by
      intro r hr
      obtain ⟨e, he, hke⟩ := hkn r hr
      obtain ⟨e', h1, _, _, h4⟩ := R.still _ _ _ he
      exact ⟨e', h1, h4 _ _ hke⟩
    have hlen1 : k ≤ (n1.routers home).out.length := by
      obtain ⟨new, h⟩ := R.out home
      rw [h, List.length_append]; omega
    refine ⟨P1, hkn1, hlen1, ?_⟩
    rcases hI with hw | ⟨x, hx, hxm, hxw⟩
    · exact .inl (written_more (R.out home) hw)
    · rw [ht] at hx
      by_cases hxc : x = c
      · subst hxc
        have hrest := Way.rest hL.edge hxw hway
        have hdir : back x.router ≠ toward x.router := directions T.two hL hB hway hne hxw
        obtain ⟨e, he, hke⟩ := hkn1 _ hrest
        have hg : Gets (env x.router).sniffer.toNat (n1.routers x.router).eps x.msg (toward x.router) := by
          refine ⟨e, he, ?_, (H1.filters _ _ _ he _ (hxm ▸ hk)).2, .inl (.inr ?_)⟩
          · intro hf
            unfold FromHere at hf
            rw [hxm, hm.1, hm.2] at hf
            exact hdir (P1.known _ _ _ he hf).symm
          · rw [hxm, hto.1]
            have hs : ((s.toNat : Int)).toNat = s.toNat := Int.toNat_natCast _
            rw [hs]
            rcases hto.2.2 with h0 | ⟨h0, h1⟩
            · exact .inl ⟨h0, a.toNat, a.toNat_lt, hke⟩
            · refine .inr ⟨?_, ?_⟩
              · rw [h0]
                have : a.toNat ≠ 0 := fun h => h1 (UInt8.toNat_inj.mp h)
                omega
              · rw [h0, Int.toNat_natCast]; exact hke
        have hend : x.router = home ∨ ∃ r' j, wires x.router (toward x.router) = some (r', j) := by
          generalize hq : home = q at hrest
          cases hrest with
          | here => exact .inl rfl
          | hop h1 _ => exact .inr ⟨_, _, h1⟩
        have hact : toward x.router ∈ (n.routers x.router).active := by
          rw [H.active]
          rcases hend with h | ⟨r', j, h⟩
          · rw [h]; exact hA
          · exact T.wired _ _ _ h
        obtain ⟨hwr, hgo⟩ := R.sends (hxm ▸ hk) _ hact hg
        rcases hend with h | ⟨r', j, h⟩
        · left
          obtain ⟨y, hy, h3, h4, h5⟩ := hwr
          rw [h] at hy h4
          refine ⟨y, ?_, h3, h4, by rw [h5, hxm]⟩
          have : (n.routers home).out.length = k + ((n.routers home).out.length - k) := by omega
          rw [this, ← List.drop_drop] at hy
          exact List.mem_of_mem_drop hy
        · right
          exact ⟨_, hgo _ _ h, hxm, Way.snoc hxw h⟩
      · right
        refine ⟨x, R.stays x ?_, hxm, hxw⟩
        rcases List.mem_append.mp hx with h | h
        · exact List.mem_append_left _ h
        · rcases List.mem_cons.mp h with h | h
          · exact absurd h hxc
          · exact List.mem_append_right _ h
  · rintro n pre post c H ⟨P, hkn, hlen, hI⟩ ht hnk
    refine ⟨⟨P.known, fun x hx => P.coming x (by rw [ht]; rcases List.mem_append.mp hx with h | h <;> simp [h])⟩, hkn, hlen, ?_⟩
    rcases hI with h | ⟨x, hx, hxb, hxw⟩
    · exact .inl h
    · right
      refine ⟨x, ?_, hxb, hxw⟩
      rw [ht] at hx
      rcases List.mem_append.mp hx with h | h
      · exact List.mem_append_left _ h
      · rcases List.mem_cons.mp h with h | h
        · subst h; exact absurd (hxb ▸ hk) hnk
        · exact List.mem_append_right _ h
  · rintro n c H ⟨P, hkn, hlen, hI⟩ hw he
    refine ⟨⟨P.known, fun x hx hf => ?_⟩, hkn, hlen, ?_⟩
    · rcases List.mem_append.mp hx with h | h
      · exact P.coming x h hf
      · simp only [List.mem_singleton] at h
        subst h
        obtain ⟨h1, h2⟩ := hEB _ he hf
        rw [h1, h2]
    · rcases hI with h | ⟨x, hx, h⟩
      · exact .inl h
      · exact .inr ⟨x, List.mem_append_left _ hx, h⟩

/-! ### C114 -/

/-- A network of routers that have just started. -/
def Spec.netStart (eps : Nat → List Ep) (logs : Nat → Nat → σ) : Net σ := { routers := fun r => start (eps r) (logs r), transit := [] }

/-- A vehicle or ground station sends a message. -/
def Spec.netEnter (n : Net σ) (r i : Nat) (m : Msg) : Net σ := { n with transit := n.transit ++ [⟨r, i, m⟩] }

/-- A network of routers without groups, whose filters let the messages of `keep` pass and whose log endpoints
do not change messages; links have two ends, at endpoints that exist. -/
structure Spec.PlainNet (env : Nat → Env σ) (wires : Wires) (eps : Nat → List Ep) (keep : Msg → Prop) : Prop where
  log : ∀ r i s m, ((env r).log i s m).2.2 = m.data
  conf : ∀ r, ConfigOk (eps r)
  group : ∀ r, ∀ e ∈ eps r, e.group = ""
  filters : ∀ r, ∀ e ∈ eps r, ∀ m, keep m → inOk e.filters m ∧ outOk e.filters m
  wired : ∀ r j x, wires r j = some x → j < (eps r).length
  two : TwoEnded wires

theorem PlainNet.talkOk {env : Nat → Env σ} {wires : Wires} {eps : Nat → List Ep} {keep : Msg → Prop}
    (N : PlainNet env wires eps keep) : TalkOk env wires (fun r => List.range (eps r).length) :=
  ⟨N.log, fun r j x h => List.mem_range.mpr (N.wired r j x h), N.two⟩

theorem linkGroups_from (eps : List Ep) (k : Nat) (e : Ep) (he : (linkGroups eps)[k]? = some e) :
    ∃ y ∈ eps, e.kind = y.kind ∧ e.group = y.group ∧ e.filters = y.filters ∧ e.learned = y.learned := by
  rcases linkGroups_get eps k with ⟨g, _⟩ | ⟨x, x', hx, hx', e1, e2, e3, e4, _⟩
  · rw [g] at he; cases he
  · rw [hx'] at he; cases he; exact ⟨x, List.mem_of_getElem? hx, e1, e2, e3, e4⟩

theorem PlainNet.start {env : Nat → Env σ} {wires : Wires} {eps : Nat → List Ep} {keep : Msg → Prop}
    (N : PlainNet env wires eps keep) (logs : Nat → Nat → σ) :
    NetOk env wires keep (fun r => List.range (eps r).length) (netStart eps logs) := by
  refine ⟨fun r => .start (N.conf r), ?_, ?_, fun _ => rfl, by intro c hc; cases hc⟩
  · intro r k e he
    obtain ⟨y, hy, _, g, _⟩ := linkGroups_from _ k e he
    rw [g]; exact N.group r y hy
  · intro r k e he m hm
    obtain ⟨y, hy, _, _, g, _⟩ := linkGroups_from _ k e he
    rw [g]; exact N.filters r y hy m hm

theorem PlainNet.placed {env : Nat → Env σ} {wires : Wires} {eps : Nat → List Ep} {keep : Msg → Prop}
    (N : PlainNet env wires eps keep) (logs : Nat → Nat → σ) {s a : UInt8} (t : Nat → Nat) (hsa : (s, a) ≠ (2, 0)) :
    Placed s a t (netStart eps logs) := by
  refine ⟨?_, by intro c hc; cases hc⟩
  intro r k e he hkn
  exfalso
  obtain ⟨y, hy, g1, _, _, g4⟩ := linkGroups_from _ k e he
  rw [knows_mem, g4] at hkn
  by_cases hlog : y.kind = .log
  · rw [((N.conf r y hy).2.1 hlog).2, List.mem_singleton, sysComp_inj] at hkn
    exact hsa (by rw [hkn.1, hkn.2])
  · rw [(N.conf r y hy).2.2 hlog] at hkn; cases hkn

theorem netOk_enter {env : Nat → Env σ} {wires : Wires} {A : Nat → List Nat} {keep : Msg → Prop} {n : Net σ} {r i : Nat} {x : Msg}
    (H : NetOk env wires keep A n) (hi : i ∈ A r) (hx : MsgOk x) : NetOk env wires keep A (netEnter n r i x) := by
  refine ⟨H.reached, H.group, H.filters, H.active, ?_⟩
  intro c hc
  rcases List.mem_append.mp hc with h | h
  · exact H.transit c h
  · simp only [List.mem_singleton] at h
    subst h
    exact ⟨hi, hx⟩

theorem placed_enter {n : Net σ} {r i : Nat} {x : Msg} {s a : UInt8} {t : Nat → Nat} (P : Placed s a t n)
    (hx : FromAddr s a x → i = t r) : Placed s a t (netEnter n r i x) := by
  refine ⟨P.known, ?_⟩
  intro c hc hf
  rcases List.mem_append.mp hc with h | h
  · exact P.coming c h hf
  · simp only [List.mem_singleton] at h
    subst h
    exact hx hf

/-- The reply gets there if neither message is dropped as a duplicate. -/
theorem reply_core {env : Nat → Env σ} {wires : Wires} {eps : Nat → List Ep} {logs : Nat → Nat → σ} {enters : Transit → Prop}
    {keep : Msg → Prop} {home home' : Nat} {toward toward' : Nat → Nat} {s a s' a' : UInt8} {b m : Msg} {n1 n2 n3 : Net σ}
    {F1 F2 F3 : Net σ → Prop} (K1 : Lasting env wires (fun r => List.range (eps r).length) enters keep keep F1)
    (K2 : Lasting env wires (fun r => List.range (eps r).length) enters keep keep F2)
    (K3 : Lasting env wires (fun r => List.range (eps r).length) enters keep keep F3)
    (hF1 : F1 (netStart eps logs))
    (hF2 : F1 n1 → Placed s a toward n1 → F2 (netEnter n1 home (toward home) b))
    (hF3 : F2 n2 → Placed s' a' toward' n2 → F3 (netEnter n2 home' (toward' home') m))
    (N : PlainNet env wires eps keep) (hL : Lives wires home toward) (hL' : Lives wires home' toward')
    (hhome : toward home < (eps home).length) (hhome' : toward' home' < (eps home').length)
    (hne : (home, toward home) ≠ (home', toward' home')) (hway : Way wires toward home' home)
    (ha : (s, a) ≠ (2, 0)) (ha' : (s', a') ≠ (2, 0)) (haa : (s, a) ≠ (s', a'))
    (hE : ∀ c, enters c → FromAddr s a c.msg → c.router = home ∧ c.ep = toward home)
    (hE' : ∀ c, enters c → FromAddr s' a' c.msg → c.router = home' ∧ c.ep = toward' home')
    (hb : FromAddr s a b) (hbc : b.targetSys ≤ 0) (hbo : MsgOk b) (hkb : keep b)
    (hm : FromAddr s' a' m) (hto : ToAddr s a m) (hmo : MsgOk m) (hkm : keep m)
    (h1 : Talk env wires enters keep (netStart eps logs) n1)
    (h2 : Talk env wires enters keep (netEnter n1 home (toward home) b) n2) (hgone : ∀ c ∈ n2.transit, c.msg ≠ b)
    (h3 : Talk env wires enters keep (netEnter n2 home' (toward' home') m) n3) (hgone' : ∀ c ∈ n3.transit, c.msg ≠ m) :
    ∃ x ∈ (n3.routers home).out.drop (n2.routers home).out.length,
      x.gen = false ∧ x.ep = toward home ∧ x.bytes = m.data := by
  have T := PlainNet.talkOk N
  have H0 := PlainNet.start N logs
  have hdiff : toward' home' ≠ toward home' := by
    generalize hq : home = q at hway
    cases hway with
    | here => subst hq; intro h; exact hne (by rw [h])
    | hop h _ => intro he; rw [← he, hL'.edge] at h; cases h
  -- before the broadcast
  obtain ⟨H1, G1, P1⟩ := placed_talk T K1 hL hE h1 H0 hF1 (PlainNet.placed N logs toward ha)
  obtain ⟨_, _, Q1⟩ := placed_talk T K1 hL' hE' h1 H0 hF1 (PlainNet.placed N logs toward' ha')
  -- the broadcast
  have H1' := netOk_enter H1 (List.mem_range.mpr hhome) hbo
  have P1' := placed_enter (r := home) (x := b) P1 (fun _ => rfl)
  have Q1' : Placed s' a' toward' (netEnter n1 home (toward home) b) := placed_enter Q1 (fun hf => by
    exact absurd (by rw [← hb.1, ← hb.2, hf.1, hf.2]) haa)
  have G1' := hF2 G1 P1
  obtain ⟨H2, G2, P2⟩ := placed_talk T K2 hL hE h2 H1' G1' P1'
  obtain ⟨_, _, Q2⟩ := placed_talk T K2 hL' hE' h2 H1' G1' Q1'
  have hkn : ∀ r, Way wires toward r home → ∃ e : Ep, (n2.routers r).eps[toward r]? = some e ∧ Knows e s.toNat a.toNat := by
    intro r hr
    rcases hearing_talk T K2 hL hE hb hbc hkb hr h2 H1' G1' P1' (.inr ⟨⟨home, toward home, b⟩, by simp [netEnter], rfl, hr⟩) with h | ⟨c, hc, hcb, _⟩
    · exact h
    · exact absurd hcb (hgone c hc)
  -- the reply
  have H2' := netOk_enter H2 (List.mem_range.mpr hhome') hmo
  have Q2' := placed_enter (r := home') (x := m) Q2 (fun _ => rfl)
  have := replying_talk (k := (n2.routers home).out.length) T K3 hL hL' hE' (List.mem_range.mpr hhome) hm hto hkm hway hdiff h3 H2' (hF3 G2 Q2) Q2'
    hkn (Nat.le_refl _) (.inr ⟨⟨home', toward' home', m⟩, by simp [netEnter], rfl, .here _⟩)
  rcases this with h | ⟨c, hc, hcm, _⟩
  · exact h
  · exact absurd hcm (hgone' c hc)

/-- **C114**, partial: in a network of routers without groups and de-duplication, and without filters against the two messages, in
which `s`/`a` and `s'`/`a'` are in different places with a way from one to the other: once a broadcast `b` of `s`/`a` has got through
the network, a message `m` of `s'`/`a'` to `s`/`a` is written to the link where `s`/`a` is as soon as it has got through too –
whatever else is sent by anybody, received in whatever order, and whatever other messages get lost. Missing: groups,
de-duplication (see `C114_reply_dedup_partial`), and networks with rings. -/
theorem C114_reply_partial (env : Nat → Env σ) (wires : Wires) (eps : Nat → List Ep) (logs : Nat → Nat → σ) (enters : Transit → Prop)
    (keep : Msg → Prop) (home home' : Nat) (toward toward' : Nat → Nat) (s a s' a' : UInt8) (b m : Msg) (n1 n2 n3 : Net σ)
    (N : PlainNet env wires eps keep) (hd : ∀ r, (env r).dedupPeriod = 0) (hL : Lives wires home toward) (hL' : Lives wires home' toward')
    (hhome : toward home < (eps home).length) (hhome' : toward' home' < (eps home').length)
    (hne : (home, toward home) ≠ (home', toward' home')) (hway : Way wires toward home' home)
    (ha : (s, a) ≠ (2, 0)) (ha' : (s', a') ≠ (2, 0)) (haa : (s, a) ≠ (s', a'))
    (hE : ∀ c, enters c → FromAddr s a c.msg → c.router = home ∧ c.ep = toward home)
    (hE' : ∀ c, enters c → FromAddr s' a' c.msg → c.router = home' ∧ c.ep = toward' home')
    (hb : FromAddr s a b) (hbc : b.targetSys ≤ 0) (hbo : MsgOk b) (hkb : keep b)
    (hm : FromAddr s' a' m) (hto : ToAddr s a m) (hmo : MsgOk m) (hkm : keep m)
    (h1 : Talk env wires enters keep (netStart eps logs) n1)
    (h2 : Talk env wires enters keep (netEnter n1 home (toward home) b) n2) (hgone : ∀ c ∈ n2.transit, c.msg ≠ b)
    (h3 : Talk env wires enters keep (netEnter n2 home' (toward' home') m) n3) (hgone' : ∀ c ∈ n3.transit, c.msg ≠ m) :
    ∃ x ∈ (n3.routers home).out.drop (n2.routers home).out.length,
      x.gen = false ∧ x.ep = toward home ∧ x.bytes = m.data := by
  exact reply_core (lasting_off hd) (lasting_off hd) (lasting_off hd) trivial (fun _ _ => trivial) (fun _ _ => trivial) N hL hL' hhome hhome'
    hne hway ha ha' haa hE hE' hb hbc hbo hkb hm hto hmo hkm h1 h2 hgone h3 hgone'

/-- **C114**, partial: a message for one component travels only in its direction. In a network of routers without groups and
sniffers, with or without de-duplication and filters, let `m` be addressed to component `a` of system `s`, and sent once, at router `home'`. Every router that ever gets it is on the way from `home'`
toward `s`/`a`, and writes it only to its endpoint in that direction. -/
theorem C114_private_partial (env : Nat → Env σ) (wires : Wires) (eps : Nat → List Ep) (logs : Nat → Nat → σ) (enters : Transit → Prop)
    (home home' : Nat) (toward : Nat → Nat) (s a : UInt8) (i' : Nat) (m : Msg) (n1 n2 : Net σ)
    (N : PlainNet env wires eps (fun _ => False)) (hsn : ∀ r, (env r).sniffer = 0) (hL : Lives wires home toward) (ha : (s, a) ≠ (2, 0))
    (hE : ∀ c, enters c → FromAddr s a c.msg → c.router = home ∧ c.ep = toward home)
    (hm : ¬ FromAddr s a m) (hts : m.targetSys = s.toNat) (hs : s ≠ 0) (htc : m.targetComp = a.toNat) (hac : a ≠ 0) (hmo : MsgOk m)
    (hi' : i' < (eps home').length)
    (h1 : Talk env wires enters (fun _ => False) (netStart eps logs) n1) (hnew : ∀ c ∈ n1.transit, c.msg ≠ m) (honce : ∀ c, enters c → c.msg ≠ m)
    (h2 : Talk env wires enters (fun _ => False) (netEnter n1 home' i' m) n2) :
    ∀ c ∈ n2.transit, c.msg = m → Way wires toward home' c.router ∧
      ∀ others n3, n2.receive env wires c others = some n3 →
        ∀ x ∈ directSince (n2.routers c.router) (n3.routers c.router), x.ep = toward c.router := by
  have T := PlainNet.talkOk N
  have H0 := PlainNet.start N logs
  obtain ⟨H1, _, P1⟩ := placed_talk T lasting_none hL hE h1 H0 trivial (PlainNet.placed N logs toward ha)
  have H1' := netOk_enter H1 (List.mem_range.mpr hi') hmo
  have P1' : Placed s a toward (netEnter n1 home' i' m) := placed_enter P1 (fun hf => absurd hf hm)
  have hdir : ∀ (n n1 : Net σ) (c : Transit) (j : Nat), c.msg = m → Placed s a toward n1 →
      Gets (env c.router).sniffer.toNat (n1.routers c.router).eps c.msg j → j = toward c.router := by
    rintro n n1 c j hcm P ⟨e, he, _, _, hA⟩
    rw [hcm] at hA
    have hs' : s.toNat ≠ 0 := fun h => hs (UInt8.toNat_inj.mp h)
    have ha' : a.toNat ≠ 0 := fun h => hac (UInt8.toNat_inj.mp h)
    rcases hA with (h | ⟨h, _⟩ | ⟨_, h⟩) | ⟨h, _⟩
    · rw [hts] at h; omega
    · rw [htc] at h; omega
    · rw [hts, htc, Int.toNat_natCast, Int.toNat_natCast] at h
      exact P.known _ _ _ he h
    · rw [hsn] at h; exact absurd rfl h
  obtain ⟨H2, _, P2, I2⟩ := talk_induct (keep := fun _ => False) (enters := enters) T lasting_none
    (fun n => Placed s a toward n ∧ ∀ c ∈ n.transit, c.msg = m → Way wires toward home' c.router)
    (by
      rintro n n1 pre post c H ⟨P, I⟩ ht R _
      have P1 := placed_receive hL P ht R
      refine ⟨P1, fun x hx hxm => ?_⟩
      rcases R.from_ x hx with hx | ⟨hcm, j, _, hg, hw⟩
      · exact I x (by rw [ht]; rcases List.mem_append.mp hx with h | h <;> simp [h]) hxm
      · have hc : c.msg = m := by rw [← hcm, hxm]
        have := hdir n n1 c j hc P1 hg
        subst this
        exact Way.snoc (I c (by rw [ht]; simp) hc) hw)
    (by
      rintro n pre post c H ⟨P, I⟩ ht _
      have hsub : ∀ x ∈ pre ++ post, x ∈ n.transit := fun x hx => by rw [ht]; rcases List.mem_append.mp hx with h | h <;> simp [h]
      exact ⟨⟨P.known, fun x hx => P.coming x (hsub x hx)⟩, fun x hx => I x (hsub x hx)⟩)
    (by
      rintro n c H ⟨P, I⟩ hw he
      refine ⟨placed_enter (r := c.router) (i := c.ep) (x := c.msg) P (fun hf => ?_), fun x hx hxm => ?_⟩
      · obtain ⟨h1, h2⟩ := hE _ he hf
        rw [h1, h2]
      · rcases List.mem_append.mp hx with h | h
        · exact I x h hxm
        · simp only [List.mem_singleton] at h
          subst h
          exact absurd hxm (honce _ he))
    h2 H1' trivial ⟨P1', fun c hc hcm => by
      rcases List.mem_append.mp hc with h | h
      · exact absurd hcm (hnew c h)
      · simp only [List.mem_singleton] at h
        subst h
        exact .here _⟩
  intro c hc hcm
  refine ⟨I2 c hc hcm, ?_⟩
  intro others n3 hr x hx
  have hcok := H2.transit c hc
  have R := received env wires (fun _ => False) _ N.log H2 (fun h => h.elim) hcok.1 hcok.2 hr
  have P3 : Placed s a toward ({ n3 with transit := [] } : Net σ) := by
    refine ⟨?_, by intro c hc; cases hc⟩
    intro r k e' he' hk
    obtain ⟨e, he, hl⟩ := R.learned r k e' he'
    rcases hl s a hk with h | ⟨hf, rfl, rfl⟩
    · exact P2.known r k e he h
    · exact P2.coming c hc hf
  exact hdir n2 { n3 with transit := [] } c x.ep hcm P3 (R.only x hx)

namespace Sample

/-- The endpoints of the routers of the chain. -/
def chainEps : Nat → List Ep
  | 0 => [{ kind := .uart }, { kind := .udp }, { kind := .udp }]
  | _ => [{ kind := .udp }, { kind := .udp }]

/-- The vehicle 1/1 is at endpoint 0 of router 0. -/
def towardVehicle (r : Nat) : Nat := if r = 2 then 1 else 0

/-- The ground station 42/200 is at endpoint 1 of router 1. -/
def towardGcs (_ : Nat) : Nat := 1

/-- The two send from where they are; anybody else sends from anywhere. -/
def chainEnters (c : Transit) : Prop :=
  (FromAddr 1 1 c.msg → c.router = 0 ∧ c.ep = 0) ∧ (FromAddr 42 200 c.msg → c.router = 1 ∧ c.ep = 1)

theorem chain_cases {r j r' i' : Nat} (h : chain r j = some (r', i')) :
    (r = 0 ∧ j = 1 ∧ r' = 1 ∧ i' = 0) ∨ (r = 1 ∧ j = 0 ∧ r' = 0 ∧ i' = 1) ∨
    (r = 2 ∧ j = 1 ∧ r' = 0 ∧ i' = 2) ∨ (r = 0 ∧ j = 2 ∧ r' = 2 ∧ i' = 1) := by
  unfold chain at h
  split at h <;> simp only [Option.some.injEq, Prod.mk.injEq, reduceCtorEq] at h
  all_goals obtain ⟨rfl, rfl⟩ := h; simp

end Sample

namespace Sample

theorem chainPlainOf {env : Nat → Env Unit} (hlog : ∀ r i s m, ((env r).log i s m).2.2 = m.data) (keep : Msg → Prop) :
    PlainNet env chain chainEps keep where
  log := hlog
  conf := by intro r; unfold chainEps ConfigOk; split <;> decide
  group := by intro r e he; unfold chainEps at he; split at he <;> simp at he <;> rcases he with rfl | rfl | rfl <;> rfl
  filters := by
    intro r e he m _
    have : e.filters = {} := by
      unfold chainEps at he; split at he <;> simp at he <;> rcases he with rfl | rfl | rfl <;> rfl
    rw [this]; simp [inOk, outOk, passes]
  wired := by
    intro r j x h
    obtain ⟨r', i'⟩ := x
    rcases chain_cases h with ⟨rfl, rfl, _⟩ | ⟨rfl, rfl, _⟩ | ⟨rfl, rfl, _⟩ | ⟨rfl, rfl, _⟩ <;> decide
  two := by
    intro r j r' i' h
    rcases chain_cases h with ⟨rfl, rfl, rfl, rfl⟩ | ⟨rfl, rfl, rfl, rfl⟩ | ⟨rfl, rfl, rfl, rfl⟩ | ⟨rfl, rfl, rfl, rfl⟩ <;> rfl

theorem chainPlain : PlainNet (fun _ => netEnv) chain chainEps (fun _ => True) := chainPlainOf (fun _ _ _ _ => rfl) _

theorem vehicleLives : Lives chain 0 towardVehicle := ⟨rfl, by
  intro r j r' i' hj h
  rcases chain_cases h with ⟨rfl, rfl, rfl, rfl⟩ | ⟨rfl, rfl, rfl, rfl⟩ | ⟨rfl, rfl, rfl, rfl⟩ | ⟨rfl, rfl, rfl, rfl⟩ <;>
    revert hj <;> decide⟩

theorem gcsLives : Lives chain 1 towardGcs := ⟨rfl, by
  intro r j r' i' hj h
  rcases chain_cases h with ⟨rfl, rfl, rfl, rfl⟩ | ⟨rfl, rfl, rfl, rfl⟩ | ⟨rfl, rfl, rfl, rfl⟩ | ⟨rfl, rfl, rfl, rfl⟩ <;>
    revert hj <;> decide⟩

end Sample

open Sample in
/-- The hypotheses of `C114_reply_partial` hold of the vehicle 1/1 and the ground station 42/200 at the two ends of the chain, its
heartbeat and a command to it. -/
example (n1 n2 n3 : Net Unit)
    (h1 : Talk (fun _ => netEnv) chain chainEnters (fun _ => True) (netStart chainEps fun _ _ => ()) n1)
    (h2 : Talk (fun _ => netEnv) chain chainEnters (fun _ => True) (netEnter n1 0 0 mHb) n2) (hg2 : ∀ c ∈ n2.transit, c.msg ≠ mHb)
    (h3 : Talk (fun _ => netEnv) chain chainEnters (fun _ => True) (netEnter n2 1 1 mCmd) n3) (hg3 : ∀ c ∈ n3.transit, c.msg ≠ mCmd) :
    ∃ x ∈ (n3.routers 0).out.drop (n2.routers 0).out.length, x.gen = false ∧ x.ep = 0 ∧ x.bytes = mCmd.data :=
  C114_reply_partial (fun _ => netEnv) chain chainEps (fun _ _ => ()) chainEnters (fun _ => True) 0 1 towardVehicle towardGcs
    1 1 42 200 mHb mCmd n1 n2 n3 chainPlain (fun _ => rfl) vehicleLives gcsLives
    (by decide) (by decide) (by decide) (.hop (r' := 0) (j := 1) rfl (.here _)) (by decide) (by decide) (by decide)
    (fun c h hf => h.1 hf) (fun c h hf => h.2 hf) (by unfold FromAddr; decide) (by decide) mHb_ok trivial
    (by unfold FromAddr; decide) (by unfold ToAddr; decide) mCmd_ok trivial h1 h2 hg2 h3 hg3

open Sample in
/-- The hypotheses of `C114_private_partial` hold of the same command, in every execution in which nobody else sends it, with and
without de-duplication. -/
example (period : Nat → UInt32) (n1 n2 : Net Unit) (enters : Transit → Prop) (he : ∀ c, enters c → chainEnters c ∧ c.msg ≠ mCmd)
    (h1 : Talk (fun r => { netEnv with dedupPeriod := period r }) chain enters (fun _ => False) (netStart chainEps fun _ _ => ()) n1) (hnew : ∀ c ∈ n1.transit, c.msg ≠ mCmd)
    (h2 : Talk (fun r => { netEnv with dedupPeriod := period r }) chain enters (fun _ => False) (netEnter n1 1 1 mCmd) n2) :
    ∀ c ∈ n2.transit, c.msg = mCmd → c.router ≠ 2 := by
  intro c hc hcm hr
  have := (C114_private_partial (fun r => { netEnv with dedupPeriod := period r }) chain chainEps (fun _ _ => ()) enters 0 1 towardVehicle 1 1 1 mCmd
    n1 n2 (chainPlainOf (fun _ _ _ _ => rfl) _) (fun _ => rfl) vehicleLives (by decide) (fun c h hf => (he c h).1.1 hf) (by unfold FromAddr; decide) (by decide)
    (by decide) (by decide) (by decide) mCmd_ok (by decide) h1 hnew (fun c h => (he c h).2) h2 c hc hcm).1
  rw [hr] at this
  cases this with
  | hop h1 h2 =>
    cases h1
    cases h2 with
    | hop h3 _ => cases h3

namespace Sample

/-- The first message in transit is received. -/
def chainStep (n : Net Unit) : Net Unit :=
  match n.transit with
  | [] => n
  | c :: rest => (n.receive (fun _ => netEnv) chain c rest).getD n

theorem chainStep_talk {enters : Transit → Prop} {keep : Msg → Prop} {n n' : Net Unit} (hs : (n.transit.head?.bind fun c =>
    (n.receive (fun _ => netEnv) chain c n.transit.tail)).isSome) (h : Talk (fun _ => netEnv) chain enters keep (chainStep n) n') :
    Talk (fun _ => netEnv) chain enters keep n n' := by
  unfold chainStep at h
  split at h
  · exact h
  · rename_i c rest ht
    rw [ht] at hs
    obtain ⟨n1, h1⟩ := Option.isSome_iff_exists.mp hs
    simp only [List.head?_cons, Option.bind_some, List.tail_cons] at h1
    rw [h1] at h
    exact .receive (pre := []) ht h1 h

/-- After the heartbeat has got through. -/
def chainN2 : Net Unit := chainStep (chainStep (chainStep (netEnter (netStart chainEps fun _ _ => ()) 0 0 mHb)))

/-- After the command has got through. -/
def chainN3 : Net Unit := chainStep (chainStep (netEnter chainN2 1 1 mCmd))

end Sample

open Sample in
/-- Such an execution: the heartbeat is received by the three routers, the command by two. -/
example : Talk (fun _ => netEnv) chain chainEnters (fun _ => True) (netEnter (netStart chainEps fun _ _ => ()) 0 0 mHb) chainN2 ∧
    chainN2.transit = [] ∧
    Talk (fun _ => netEnv) chain chainEnters (fun _ => True) (netEnter chainN2 1 1 mCmd) chainN3 ∧ chainN3.transit = [] ∧
    (chainN2.routers 1).out.length = 1 ∧ (chainN3.routers 2).out.length = (chainN2.routers 2).out.length := by
  refine ⟨?_, by decide +kernel, ?_, by decide +kernel, by decide +kernel, by decide +kernel⟩
  · exact chainStep_talk (by decide +kernel) (chainStep_talk (by decide +kernel) (chainStep_talk (by decide +kernel) (.done _)))
  · exact chainStep_talk (by decide +kernel) (chainStep_talk (by decide +kernel) (.done _))

namespace Sample

/-- The routers of the example with de-duplication over one second; the clock stands still. -/
def chainEnvDedup : Env Unit := { netEnv with dedupPeriod := 1000, hashFn := fun b => UInt64.ofNat (b.foldl (fun a x => 256 * a + x.toNat) 1) }

/-- The first message in transit is received by such a router. -/
def dedupStep (n : Net Unit) : Net Unit :=
  match n.transit with
  | [] => n
  | c :: rest => (n.receive (fun _ => chainEnvDedup) chain c rest).getD n

theorem dedupStep_talk {enters : Transit → Prop} {keep : Msg → Prop} {n n' : Net Unit} (hs : (n.transit.head?.bind fun c =>
    (n.receive (fun _ => chainEnvDedup) chain c n.transit.tail)).isSome) (h : Talk (fun _ => chainEnvDedup) chain enters keep (dedupStep n) n') :
    Talk (fun _ => chainEnvDedup) chain enters keep n n' := by
  unfold dedupStep at h
  split at h
  · exact h
  · rename_i c rest ht
    rw [ht] at hs
    obtain ⟨n1, h1⟩ := Option.isSome_iff_exists.mp hs
    simp only [List.head?_cons, Option.bind_some, List.tail_cons] at h1
    rw [h1] at h
    exact .receive (pre := []) ht h1 h

/-- The heartbeat has got through. -/
def dedupN2 : Net Unit := dedupStep (dedupStep (dedupStep (netEnter (netStart chainEps fun _ _ => ()) 0 0 mHb)))

/-- A first copy of the command has been received by the router of the ground station and got lost behind it. -/
def dedupN3 : Net Unit := { dedupStep (netEnter dedupN2 1 1 mCmd) with transit := [] }

/-- The same command has been sent again, and nothing got lost. -/
def dedupN4 : Net Unit := dedupStep (netEnter dedupN3 1 1 mCmd)

end Sample

open Sample in
/-- **C114** is false of routers with de-duplication: when a command is repeated with the same bytes because its first copy got lost
behind the first router, that router drops the repetition (src/endpoint.cpp:232-235), and the command does not get to the vehicle
although its second copy was neither lost nor filtered. -/
theorem C114_violated :
    Talk (fun _ => chainEnvDedup) chain chainEnters (fun _ => True) (netEnter (netStart chainEps fun _ _ => ()) 0 0 mHb) dedupN2 ∧
    dedupN2.transit = [] ∧
    Talk (fun _ => chainEnvDedup) chain chainEnters (fun _ => False) (netEnter dedupN2 1 1 mCmd) dedupN3 ∧
    (dedupStep (netEnter dedupN2 1 1 mCmd)).transit.length = 1 ∧
    Talk (fun _ => chainEnvDedup) chain chainEnters (fun _ => True) (netEnter dedupN3 1 1 mCmd) dedupN4 ∧ dedupN4.transit = [] ∧
    (dedupN4.routers 0).out = (dedupN2.routers 0).out := by
  refine ⟨?_, by decide +kernel, ?_, by decide +kernel, ?_, by decide +kernel, by decide +kernel⟩
  · exact dedupStep_talk (by decide +kernel) (dedupStep_talk (by decide +kernel) (dedupStep_talk (by decide +kernel) (.done _)))
  · refine dedupStep_talk (by decide +kernel) ?_
    have hl : (dedupStep (netEnter dedupN2 1 1 mCmd)).transit.length = 1 := by decide +kernel
    match ht : (dedupStep (netEnter dedupN2 1 1 mCmd)).transit, hl with
    | [c], _ => exact .lose (pre := []) (post := []) ht (fun h => h) (.done _)
  · exact dedupStep_talk (by decide +kernel) (.done _)

end Verif
