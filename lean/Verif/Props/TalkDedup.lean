import Verif.Props.Talk

/- Property C114 in networks whose routers drop duplicates: a message that is sent once is not dropped on its way. -/

namespace Verif
open Spec

variable {σ : Type}

/-- A way to somebody does not come back to where it was. -/
theorem Way.noRing {wires : Wires} {t : Nat → Nat} {home a b j : Nat} (hh : wires home (t home) = none) (hl : Way wires t a home)
    (h : Way wires t a b) (hw : wires b (t b) = some (a, j)) : False := by
  generalize hg : home = g at hl
  induction hl generalizing b j with
  | here =>
    subst hg
    cases h with
    | here => rw [hh] at hw; cases hw
    | hop h1 _ => rw [hh] at h1; cases h1
  | hop h1 _ ih =>
    refine ih ?_ h1 hg
    cases h with
    | here => rw [h1] at hw; cases hw; exact .here _
    | hop h2 h3 => rw [h1] at h2; cases h2; exact Way.snoc h3 hw

theorem Way.trans {wires : Wires} {t : Nat → Nat} {a b c : Nat} (h : Way wires t a b) (h' : Way wires t b c) : Way wires t a c := by
  induction h with
  | here => exact h'
  | hop h1 _ ih => exact .hop h1 (ih h')

/-- Two messages have different hashes at all routers. -/
def Spec.Differ (env : Nat → Env σ) (x y : Msg) : Prop := ∀ r, (env r).hashFn x.data ≠ (env r).hashFn y.data

theorem Differ.ne {env : Nat → Env σ} {x y : Msg} (h : Differ env x y) : x ≠ y := fun e => h 0 (by rw [e])

/-- Nothing like `x` has been sent yet. -/
structure Unsent (env : Nat → Env σ) (x : Msg) (n : Net σ) : Prop where
  transit : ∀ c ∈ n.transit, Differ env c.msg x
  memory : ∀ r, (env r).hashFn x.data ∉ (n.routers r).dedup.set

/-- The message `x` of the sender `s`/`a` at router `home` has been sent once: its copies move away from there, each in a part of the
network that has not seen it. -/
structure Sole (env : Nat → Env σ) (wires : Wires) (home : Nat) (toward : Nat → Nat) (s a : UInt8) (x : Msg) (n : Net σ) : Prop where
  placed : Placed s a toward n
  unheard : ∀ c ∈ n.transit, c.msg = x → ∀ q, Way wires toward q c.router → (env q).hashFn x.data ∉ (n.routers q).dedup.set
  apart : n.transit.Pairwise (fun c d => c.msg = x → d.msg = x → ¬ Way wires toward c.router d.router ∧ ¬ Way wires toward d.router c.router)
  way : ∀ c ∈ n.transit, c.msg = x → Way wires toward c.router home
  others : ∀ c ∈ n.transit, c.msg ≠ x → Differ env c.msg x

theorem lasting_unsent {env : Nat → Env σ} {wires : Wires} {A : Nat → List Nat} {enters : Transit → Prop} {keep : Msg → Prop} {x : Msg}
    (he : ∀ c, enters c → Differ env c.msg x) : Lasting env wires A enters keep (fun m => m = x) (Unsent env x) := by
  refine ⟨fun n U c hc hx => absurd hx (Differ.ne (U.transit c hc)), ?_, ?_, ?_⟩
  · intro n n1 pre post c _ U ht R
    have hc : c ∈ n.transit := by rw [ht]; simp
    refine ⟨fun y hy => ?_, fun r hr => ?_⟩
    · rcases R.from_ y hy with h | ⟨h, _⟩
      · exact U.transit y (by rw [ht]; rcases List.mem_append.mp h with h | h <;> simp [h])
      · rw [h]; exact U.transit c hc
    · rcases R.memory r _ hr with h | ⟨_, h⟩
      · exact U.memory r h
      · exact U.transit c hc r h.symm
  · intro n pre post c U ht _
    exact ⟨fun y hy => U.transit y (by rw [ht]; rcases List.mem_append.mp hy with h | h <;> simp [h]), U.memory⟩
  · intro n c U hc
    refine ⟨fun y hy => ?_, U.memory⟩
    rcases List.mem_append.mp hy with h | h
    · exact U.transit y h
    · rw [List.mem_singleton.mp h]; exact he c hc

theorem sole_receive {env : Nat → Env σ} {wires : Wires} {keep : Msg → Prop} {home : Nat} {toward : Nat → Nat} {s a : UInt8} {x : Msg}
    (h2 : TwoEnded wires) (hL : Lives wires home toward) (hx : FromAddr s a x) {n n1 : Net σ} {pre post : List Transit} {c : Transit}
    (S : Sole env wires home toward s a x n) (ht : n.transit = pre ++ c :: post) (R : Received env wires keep n c (pre ++ post) n1) :
    Sole env wires home toward s a x n1 := by
  have hc : c ∈ n.transit := by rw [ht]; simp
  have hsub : ∀ y ∈ pre ++ post, y ∈ n.transit := fun y hy => by rw [ht]; rcases List.mem_append.mp hy with h | h <;> simp [h]
  have hap := S.apart
  rw [ht] at hap
  have hrest : (pre ++ post).Pairwise (fun c d => c.msg = x → d.msg = x → ¬ Way wires toward c.router d.router ∧ ¬ Way wires toward d.router c.router) :=
    hap.sublist ((List.Sublist.refl pre).append (List.sublist_cons_self c post))
  obtain ⟨js, hnd, hcj, hlist⟩ := R.list
  by_cases hcx : c.msg = x
  · -- a copy of `x`
    have hfrom : c.ep = toward c.router := S.placed.coming c hc (hcx ▸ hx)
    have hcw := S.way c hc hcx
    have hcd : ∀ d ∈ pre ++ post, d.msg = x → ¬ Way wires toward c.router d.router ∧ ¬ Way wires toward d.router c.router := by
      intro d hd hdx
      rw [List.pairwise_append] at hap
      rcases List.mem_append.mp hd with h | h
      · have := hap.2.2 d h c (by simp) hdx hcx
        exact ⟨this.2, this.1⟩
      · exact (List.pairwise_cons.mp hap.2.1).1 d h hcx hdx
    have hnew : ∀ {j r' i'}, j ∈ js → wires c.router j = some (r', i') → i' = toward r' ∧ wires r' (toward r') = some (c.router, j) := by
      intro j r' i' hj hw
      have hne : j ≠ toward c.router := fun e => hcj (by rw [hfrom, ← e]; exact hj)
      have := hL.away _ _ _ _ hne hw
      exact ⟨this.symm, by rw [this]; exact h2 _ _ _ _ hw⟩
    have hmem : ∀ y ∈ n1.transit, y ∈ pre ++ post ∨ (y.msg = x ∧ ∃ j ∈ js, wires c.router j = some (y.router, y.ep) ∧
        wires y.router (toward y.router) = some (c.router, j)) := by
      intro y hy
      rw [hlist] at hy
      rcases List.mem_append.mp hy with h | h
      · exact .inl h
      · right
        obtain ⟨j, hj, hw⟩ := List.mem_filterMap.mp h
        obtain ⟨⟨r', i'⟩, hw', rfl⟩ := Option.map_eq_some_iff.mp hw
        exact ⟨hcx, j, hj, hw', (hnew hj hw').2⟩
    refine ⟨placed_receive hL S.placed ht R, ?_, ?_, ?_, ?_⟩
    · intro y hy hyx q hq hh
      rcases hmem y hy with h | ⟨_, j, _, _, hb⟩
      · rcases R.memory q _ hh with h' | ⟨h', _⟩
        · exact S.unheard y (hsub y h) hyx q hq h'
        · subst h'; exact (hcd y h hyx).1 hq
      · rcases R.memory q _ hh with h' | ⟨h', _⟩
        · exact S.unheard c hc hcx q (Way.snoc hq hb) h'
        · subst h'; exact Way.noRing hL.edge hcw hq hb
    · rw [hlist, List.pairwise_append]
      refine ⟨hrest, ?_, ?_⟩
      · rw [List.pairwise_filterMap]
        refine hnd.imp_of_mem ?_
        intro j1 j2 hj1 hj2 hne y1 hy1 y2 hy2 _ _
        obtain ⟨⟨r1, i1⟩, hw1, rfl⟩ := Option.map_eq_some_iff.mp hy1
        obtain ⟨⟨r2, i2⟩, hw2, rfl⟩ := Option.map_eq_some_iff.mp hy2
        have e1 := (hnew hj1 hw1).2
        have e2 := (hnew hj2 hw2).2
        simp only
        constructor <;> intro hway <;> cases hway with
        | here => rw [e1] at e2; cases e2; exact hne rfl
        | hop h3 h4 =>
          first
            | (rw [e1] at h3; cases h3; exact Way.noRing hL.edge hcw h4 e2)
            | (rw [e2] at h3; cases h3; exact Way.noRing hL.edge hcw h4 e1)
      · intro d hd y hy hdx _
        obtain ⟨j, hj, hw⟩ := List.mem_filterMap.mp hy
        obtain ⟨⟨r', i'⟩, hw', rfl⟩ := Option.map_eq_some_iff.mp hw
        have e := (hnew hj hw').2
        have hh := hcd d hd hdx
        refine ⟨fun h => hh.2 (Way.snoc h e), fun h => ?_⟩
        simp only at h
        generalize hq : d.router = q at h
        cases h with
        | here => exact hh.2 (by rw [hq]; exact .hop e (.here _))
        | hop h3 h4 => rw [e] at h3; cases h3; exact hh.1 (by rw [hq]; exact h4)
    · intro y hy hyx
      rcases hmem y hy with h | ⟨_, j, _, _, hb⟩
      · exact S.way y (hsub y h) hyx
      · exact .hop hb hcw
    · intro y hy hyx
      rcases hmem y hy with h | ⟨h, _⟩
      · exact S.others y (hsub y h) hyx
      · exact absurd h hyx
  · -- another message
    have hmem : ∀ y ∈ n1.transit, y.msg = x → y ∈ pre ++ post := by
      intro y hy hyx
      rcases R.from_ y hy with h | ⟨h, _⟩
      · exact h
      · exact absurd (by rw [← h, hyx]) hcx
    refine ⟨placed_receive hL S.placed ht R, ?_, ?_, ?_, ?_⟩
    · intro y hy hyx q hq hh
      rcases R.memory q _ hh with h' | ⟨h', e⟩
      · exact S.unheard y (hsub y (hmem y hy hyx)) hyx q hq h'
      · exact S.others c hc hcx q e.symm
    · rw [hlist, List.pairwise_append]
      have hno : ∀ y ∈ js.filterMap (fun j => (wires c.router j).map (fun x => (⟨x.1, x.2, c.msg⟩ : Transit))), y.msg ≠ x := by
        intro y hy
        obtain ⟨j, hj, hw⟩ := List.mem_filterMap.mp hy
        obtain ⟨z, hw, rfl⟩ := Option.map_eq_some_iff.mp hw
        exact hcx
      refine ⟨hrest, ?_, fun d _ y hy _ hyx => absurd hyx (hno y hy)⟩
      exact List.Pairwise.imp_of_mem (fun hy _ _ hyx => absurd hyx (hno _ hy)) (List.pairwise_of_forall (R := fun _ _ => True) (fun _ _ => trivial))
    · intro y hy hyx
      exact S.way y (hsub y (hmem y hy hyx)) hyx
    · intro y hy hyx
      rcases R.from_ y hy with h | ⟨h, _⟩
      · exact S.others y (hsub y h) hyx
      · rw [h]; exact S.others c hc hcx

/-- One more message that is not like `x`. -/
theorem sole_other {env : Nat → Env σ} {wires : Wires} {home : Nat} {toward : Nat → Nat} {s a : UInt8} {x : Msg} {n : Net σ} {c : Transit}
    (S : Sole env wires home toward s a x n) (hd : Differ env c.msg x) (hc : FromAddr s a c.msg → c.ep = toward c.router) :
    Sole env wires home toward s a x { n with transit := n.transit ++ [c] } := by
  have hcx : c.msg ≠ x := Differ.ne hd
  have hmem : ∀ y ∈ n.transit ++ [c], y.msg = x → y ∈ n.transit := by
    intro y hy hyx
    rcases List.mem_append.mp hy with h | h
    · exact h
    · rw [List.mem_singleton.mp h] at hyx; exact absurd hyx hcx
  refine ⟨placed_enter (r := c.router) (i := c.ep) (x := c.msg) S.placed hc, fun y hy hyx => S.unheard y (hmem y hy hyx) hyx, ?_,
    fun y hy hyx => S.way y (hmem y hy hyx) hyx, ?_⟩
  · rw [List.pairwise_append]
    refine ⟨S.apart, List.pairwise_singleton _ _, fun d _ y hy _ hyx => ?_⟩
    rw [List.mem_singleton.mp hy] at hyx; exact absurd hyx hcx
  · intro y hy hyx
    rcases List.mem_append.mp hy with h | h
    · exact S.others y h hyx
    · rw [List.mem_singleton.mp h]; exact hd

theorem lasting_sole {env : Nat → Env σ} {wires : Wires} {A : Nat → List Nat} {enters : Transit → Prop} {keep : Msg → Prop} {home : Nat}
    {toward : Nat → Nat} {s a : UInt8} {x : Msg} (h2 : TwoEnded wires) (hL : Lives wires home toward) (hx : FromAddr s a x)
    (he : ∀ c, enters c → Differ env c.msg x)
    (hE : ∀ c, enters c → FromAddr s a c.msg → c.router = home ∧ c.ep = toward home) :
    Lasting env wires A enters keep (fun m => m = x) (Sole env wires home toward s a x) := by
  refine ⟨fun n S c hc hcx => .inr (by rw [hcx]; exact S.unheard c hc hcx _ (.here _)), ?_, ?_, ?_⟩
  · intro n n1 pre post c _ S ht R
    exact sole_receive h2 hL hx S ht R
  · intro n pre post c S ht _
    have hsub : ∀ y ∈ pre ++ post, y ∈ n.transit := fun y hy => by rw [ht]; rcases List.mem_append.mp hy with h | h <;> simp [h]
    have hap := S.apart
    rw [ht] at hap
    exact ⟨⟨S.placed.known, fun y hy => S.placed.coming y (hsub y hy)⟩, fun y hy => S.unheard y (hsub y hy),
      hap.sublist ((List.Sublist.refl pre).append (List.sublist_cons_self c post)), fun y hy => S.way y (hsub y hy), fun y hy => S.others y (hsub y hy)⟩
  · intro n c S hc
    exact sole_other S (he c hc) (fun hf => by obtain ⟨e1, e2⟩ := hE c hc hf; rw [e1, e2])

theorem lasting_and {env : Nat → Env σ} {wires : Wires} {A : Nat → List Nat} {enters : Transit → Prop} {keep g1 g2 : Msg → Prop}
    {F1 F2 : Net σ → Prop} (K1 : Lasting env wires A enters keep g1 F1) (K2 : Lasting env wires A enters keep g2 F2) :
    Lasting env wires A enters keep (fun m => g1 m ∨ g2 m) (fun n => F1 n ∧ F2 n) :=
  ⟨fun n h c hc hg => hg.elim (K1.fresh n h.1 c hc) (K2.fresh n h.2 c hc),
    fun n n1 pre post c H h ht R => ⟨K1.receive n n1 pre post c H h.1 ht R, K2.receive n n1 pre post c H h.2 ht R⟩,
    fun n pre post c h ht hk => ⟨K1.lose n pre post c h.1 ht hk, K2.lose n pre post c h.2 ht hk⟩,
    fun n c h hc => ⟨K1.enter n c h.1 hc, K2.enter n c h.2 hc⟩⟩

/-- The first message of its kind enters the network where its sender is. -/
theorem sole_first {env : Nat → Env σ} {wires : Wires} {home : Nat} {toward : Nat → Nat} {s a : UInt8} {x : Msg} {n : Net σ}
    (U : Unsent env x n) (P : Placed s a toward n) :
    Sole env wires home toward s a x (netEnter n home (toward home) x) := by
  have hmem : ∀ y ∈ n.transit ++ [⟨home, toward home, x⟩], y.msg = x → y = ⟨home, toward home, x⟩ := by
    intro y hy hyx
    rcases List.mem_append.mp hy with h | h
    · exact absurd hyx (Differ.ne (U.transit y h))
    · exact List.mem_singleton.mp h
  refine ⟨placed_enter P (fun _ => rfl), fun y hy hyx q _ => U.memory q, ?_, ?_, ?_⟩
  · show (n.transit ++ [_]).Pairwise _
    rw [List.pairwise_append]
    refine ⟨?_, List.pairwise_singleton _ _, fun d hd y _ hdx => absurd hdx (Differ.ne (U.transit d hd))⟩
    exact List.Pairwise.imp_of_mem (fun hy _ _ hyx => absurd hyx (Differ.ne (U.transit _ hy))) (List.pairwise_of_forall (R := fun _ _ => True) (fun _ _ => trivial))
  · intro y hy hyx
    rw [hmem y hy hyx]; exact .here _
  · intro y hy hyx
    rcases List.mem_append.mp hy with h | h
    · exact U.transit y h
    · rw [List.mem_singleton.mp h] at hyx; exact absurd rfl hyx

/-- **C114**, partial: the same in networks whose routers may drop duplicates, of messages `b` and `m` that are each sent once: no
other message that is sent has the hash of one of them. Missing: repetitions (see `C114_violated`), groups, and networks with
rings. -/
theorem C114_reply_dedup_partial (env : Nat → Env σ) (wires : Wires) (eps : Nat → List Ep) (logs : Nat → Nat → σ)
    (enters : Transit → Prop) (keep : Msg → Prop) (home home' : Nat) (toward toward' : Nat → Nat) (s a s' a' : UInt8) (b m : Msg)
    (n1 n2 n3 : Net σ)
    (N : PlainNet env wires eps keep) (hL : Lives wires home toward) (hL' : Lives wires home' toward')
    (hhome : toward home < (eps home).length) (hhome' : toward' home' < (eps home').length)
    (hne : (home, toward home) ≠ (home', toward' home')) (hway : Way wires toward home' home)
    (ha : (s, a) ≠ (2, 0)) (ha' : (s', a') ≠ (2, 0)) (haa : (s, a) ≠ (s', a'))
    (hE : ∀ c, enters c → FromAddr s a c.msg → c.router = home ∧ c.ep = toward home)
    (hE' : ∀ c, enters c → FromAddr s' a' c.msg → c.router = home' ∧ c.ep = toward' home')
    (hob : ∀ c, enters c → Differ env c.msg b) (hom : ∀ c, enters c → Differ env c.msg m) (hbm : Differ env b m)
    (hb : FromAddr s a b) (hbc : b.targetSys ≤ 0) (hbo : MsgOk b) (hkb : keep b)
    (hm : FromAddr s' a' m) (hto : ToAddr s a m) (hmo : MsgOk m) (hkm : keep m)
    (h1 : Talk env wires enters keep (netStart eps logs) n1)
    (h2 : Talk env wires enters keep (netEnter n1 home (toward home) b) n2) (hgone : ∀ c ∈ n2.transit, c.msg ≠ b)
    (h3 : Talk env wires enters keep (netEnter n2 home' (toward' home') m) n3) (hgone' : ∀ c ∈ n3.transit, c.msg ≠ m) :
    ∃ x ∈ (n3.routers home).out.drop (n2.routers home).out.length,
      x.gen = false ∧ x.ep = toward home ∧ x.bytes = m.data := by
  have hkeep : ∀ y, y = b ∨ y = m → keep y := fun y h => h.elim (fun e => e ▸ hkb) (fun e => e ▸ hkm)
  have N' : PlainNet env wires eps (fun y => y = b ∨ y = m) :=
    ⟨N.log, N.conf, N.group, fun r e he y hy => N.filters r e he y (hkeep y hy), N.wired, N.two⟩
  have hmb : Differ env m b := fun r h => hbm r h.symm
  have hs0 : ∀ x, Unsent env x (netStart eps logs) := fun x =>
    ⟨fun c hc => by simp [netStart] at hc, fun r hr => by simp [netStart, Spec.start] at hr⟩
  exact reply_core (lasting_and (lasting_unsent hob) (lasting_unsent hom)) (lasting_and (lasting_sole N.two hL hb hob hE) (lasting_unsent hom))
    (lasting_and (lasting_sole N.two hL hb hob hE) (lasting_sole N.two hL' hm hom hE'))
    ⟨hs0 b, hs0 m⟩
    (fun F P => ⟨sole_first F.1 P, ⟨fun c hc => by
      rcases List.mem_append.mp hc with h | h
      · exact F.2.transit c h
      · rw [List.mem_singleton.mp h]; exact hbm, F.2.memory⟩⟩)
    (fun F P => ⟨sole_other (c := ⟨home', toward' home', m⟩) F.1 hmb (fun hf => absurd (by rw [← hf.1, ← hf.2, hm.1, hm.2]) haa),
      sole_first F.2 P⟩)
    N' hL hL' hhome hhome' hne hway ha ha' haa hE hE' hb hbc hbo (.inl rfl) hm hto hmo (.inr rfl)
    (talk_keep hkeep h1) (talk_keep hkeep h2) hgone (talk_keep hkeep h3) hgone'

open Sample in
/-- The hypotheses hold of the heartbeat and the command in the example chain with de-duplication. -/
example (enters : Transit → Prop)
    (he : ∀ c, enters c → chainEnters c ∧ Differ (fun _ => chainEnvDedup) c.msg mHb ∧ Differ (fun _ => chainEnvDedup) c.msg mCmd)
    (n1 n2 n3 : Net Unit)
    (h1 : Talk (fun _ => chainEnvDedup) chain enters (fun _ => True) (netStart chainEps fun _ _ => ()) n1)
    (h2 : Talk (fun _ => chainEnvDedup) chain enters (fun _ => True) (netEnter n1 0 0 mHb) n2) (hg2 : ∀ c ∈ n2.transit, c.msg ≠ mHb)
    (h3 : Talk (fun _ => chainEnvDedup) chain enters (fun _ => True) (netEnter n2 1 1 mCmd) n3) (hg3 : ∀ c ∈ n3.transit, c.msg ≠ mCmd) :
    ∃ x ∈ (n3.routers 0).out.drop (n2.routers 0).out.length, x.gen = false ∧ x.ep = 0 ∧ x.bytes = mCmd.data :=
  C114_reply_dedup_partial (fun _ => chainEnvDedup) chain chainEps (fun _ _ => ()) enters (fun _ => True) 0 1 towardVehicle towardGcs
    1 1 42 200 mHb mCmd n1 n2 n3 (chainPlainOf (fun _ _ _ _ => rfl) _) vehicleLives gcsLives
    (by decide) (by decide) (by decide) (.hop (r' := 0) (j := 1) rfl (.here _)) (by decide) (by decide) (by decide)
    (fun c h hf => (he c h).1.1 hf) (fun c h hf => (he c h).1.2 hf) (fun c h => (he c h).2.1) (fun c h => (he c h).2.2)
    (fun _ => show chainEnvDedup.hashFn mHb.data ≠ chainEnvDedup.hashFn mCmd.data by decide +kernel)
    (by unfold FromAddr; decide) (by decide) mHb_ok trivial
    (by unfold FromAddr; decide) (by unfold ToAddr; decide) mCmd_ok trivial h1 h2 hg2 h3 hg3

open Sample in
/-- Such an execution: after the heartbeat (`C114_violated`) the command is received by two routers. -/
example : Talk (fun _ => chainEnvDedup) chain (fun _ => False) (fun _ => True) (netEnter dedupN2 1 1 mCmd)
      (dedupStep (dedupStep (netEnter dedupN2 1 1 mCmd))) ∧
    (dedupStep (dedupStep (netEnter dedupN2 1 1 mCmd))).transit = [] :=
  ⟨dedupStep_talk (by decide +kernel) (dedupStep_talk (by decide +kernel) (.done _)), by decide +kernel⟩

end Verif
