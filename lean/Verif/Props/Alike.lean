/-
C120: a message is routed by its id, its source and its target, whatever form it has on the wire.
-/
import Verif.Lemmas.NoCopies

namespace Verif

open Verif.Spec

variable {σ : Type}

/-- Two frames carry the same message: same id, source and contents, where a payload may lack zeros at its end. Protocol
version, sequence number, flags, checksum and signature may differ. -/
structure Spec.SameMessage (f g : Frame) : Prop where
  id : f.msgid = g.msgid
  sys : f.sys = g.sys
  comp : f.comp = g.comp
  payload : ∀ k : Nat, f.payload.getD k 0 = g.payload.getD k 0

/-- What routing may look at. -/
structure Spec.SameRoute (m m' : Msg) : Prop where
  id : m.msgId = m'.msgId
  sys : m.srcSys = m'.srcSys
  comp : m.srcComp = m'.srcComp
  tsys : m.targetSys = m'.targetSys
  tcomp : m.targetComp = m'.targetComp

/-- Two lists of arrivals: on the same endpoints, in the same order, messages that are alike. -/
inductive Spec.AlikeAll : List Arrival → List Arrival → Prop
  | nil : AlikeAll [] []
  | cons {a b : Arrival} {as bs : List Arrival} : a.ep = b.ep → SameRoute a.msg b.msg → AlikeAll as bs →
      AlikeAll (a :: as) (b :: bs)

/-- The elements of a list at the marked places. -/
def Spec.pick {α : Type} : List Bool → List α → List α
  | b :: bs, a :: as => (if b then [a] else []) ++ Spec.pick bs as
  | _, _ => []

theorem target_same (p : Bool) (o : Nat) (a b : List UInt8) (h : ∀ k : Nat, a.getD k 0 = b.getD k 0) :
    target p o a = target p o b := by
  have key : ∀ (l : List UInt8), (l ++ List.replicate (o + 1) 0).getD o 0 = l.getD o 0 := by
    intro l
    simp only [List.getD_eq_getElem?_getD]
    by_cases hl : o < l.length
    · rw [List.getElem?_append_left hl]
    · rw [List.getElem?_append_right (by omega), List.getElem?_eq_none (l := l) (by omega), List.getElem?_replicate]
      split <;> rfl
  unfold target
  rw [key, key, h]

/-- C120, frames: frames that carry the same message are alike for routing, known or unknown id, MAVLink 1 or 2, signed or
not, trimmed or not. -/
theorem C120_frames (tbl : MsgTable) (f g : Frame) (h : SameMessage f g) : SameRoute (f.toMsg tbl).1 (g.toMsg tbl).1 := by
  refine ⟨?_, h.sys, h.comp, ?_, ?_⟩
  · simp only [Frame.toMsg, h.id]
  · simp only [Frame.toMsg, h.id]
    cases tbl g.msgid with
    | none => rfl
    | some e => exact target_same _ _ _ _ h.payload
  · simp only [Frame.toMsg, h.id]
    cases tbl g.msgid with
    | none => rfl
    | some e => exact target_same _ _ _ _ h.payload

/-- Zeros cut off at the end make no difference. -/
theorem payload_trim (a : List UInt8) (n k : Nat) : (a ++ List.replicate n 0).getD k 0 = a.getD k 0 := by
  simp only [List.getD_eq_getElem?_getD]
  by_cases h : k < a.length
  · rw [List.getElem?_append_left h]
  · rw [List.getElem?_append_right (by omega), List.getElem?_eq_none (l := a) (by omega), List.getElem?_replicate]
    split <;> rfl

namespace Sample

/-- A command to system 1, all components, in MAVLink 1 and, trimmed and signed, in MAVLink 2. -/
def cmdV1 : Frame :=
  { v2 := false, seq := 7, sys := 42, comp := 200, msgid := 76,
    payload := (List.replicate 28 0 ++ [144, 1, 1]) ++ List.replicate 2 0, crcLo := 1, crcHi := 2 }

def cmdV2 : Frame :=
  { v2 := true, incompat := 1, seq := 99, sys := 42, comp := 200, msgid := 76,
    payload := List.replicate 28 0 ++ [144, 1, 1], crcLo := 3, crcHi := 4, signature := List.replicate 13 5 }

theorem cmd_same : SameMessage cmdV1 cmdV2 := ⟨rfl, rfl, rfl, fun k => payload_trim _ 2 k⟩

end Sample

example : SameMessage Sample.cmdV1 Sample.cmdV2 ∧ Sample.cmdV1.payload.length = 33 ∧ Sample.cmdV2.payload.length = 31 ∧
    ((Sample.cmdV1.toMsg Sample.tbl).1.targetSys, (Sample.cmdV1.toMsg Sample.tbl).1.targetComp) = (1, 0) ∧
    ((Sample.cmdV2.toMsg Sample.tbl).1.targetSys, (Sample.cmdV2.toMsg Sample.tbl).1.targetComp) = (1, 0) :=
  ⟨Sample.cmd_same, by decide, by decide, by decide, by decide⟩

/-- The two lists agree also in what was let in. -/
inductive SamePassed : List Arrival → List Arrival → Prop
  | nil : SamePassed [] []
  | cons {a b : Arrival} {as bs : List Arrival} : a.ep = b.ep → SameRoute a.msg b.msg → a.passed = b.passed → SamePassed as bs →
      SamePassed (a :: as) (b :: bs)

theorem SamePassed.append : ∀ {as bs as' bs'}, SamePassed as bs → SamePassed as' bs' → SamePassed (as ++ as') (bs ++ bs') := by
  intro as bs as' bs' h h'
  induction h with
  | nil => exact h'
  | cons h1 h2 h3 _ ih => exact .cons h1 h2 h3 ih

theorem SamePassed.symm : ∀ {as bs}, SamePassed as bs → SamePassed bs as := by
  intro as bs h
  induction h with
  | nil => exact .nil
  | cons h1 h2 h3 _ ih => exact .cons h1.symm ⟨h2.1.symm, h2.2.symm, h2.3.symm, h2.4.symm, h2.5.symm⟩ h3.symm ih

theorem SamePassed.alike : ∀ {as bs}, SamePassed as bs → AlikeAll as bs := by
  intro as bs h
  induction h with
  | nil => exact .nil
  | cons h1 h2 _ _ ih => exact .cons h1 h2 ih

theorem SamePassed.mem : ∀ {as bs}, SamePassed as bs → ∀ a ∈ as, ∃ b ∈ bs, a.ep = b.ep ∧ SameRoute a.msg b.msg ∧ a.passed = b.passed := by
  intro as bs h
  induction h with
  | nil => intro a ha; cases ha
  | cons h1 h2 h3 _ ih =>
    intro a ha
    rcases List.mem_cons.mp ha with rfl | ha
    · exact ⟨_, List.mem_cons_self, h1, h2, h3⟩
    · obtain ⟨b, hb, x⟩ := ih a ha
      exact ⟨b, List.mem_cons_of_mem _ hb, x⟩

theorem seenAt_same {eps : List Ep} {as bs : List Arrival} (h : SamePassed as bs) (j s c : Nat) :
    SeenAt eps as j s c → SeenAt eps bs j s c := by
  rintro (h1 | ⟨a, ha, hp, hs, hc, hpeer⟩)
  · exact .inl h1
  · obtain ⟨b, hb, e1, e2, e3⟩ := h.mem a ha
    exact .inr ⟨b, hb, by rw [← e3]; exact hp, by rw [← e2.sys]; exact hs, by rw [← e2.comp]; exact hc, by rw [← e1]; exact hpeer⟩

theorem wanted_same {sniffer : Nat} {eps : List Ep} {as bs : List Arrival} (h : SamePassed as bs) (j : Nat) {m m' : Msg}
    (hm : SameRoute m m') : Wanted sniffer eps j as m → Wanted sniffer eps j bs m' := by
  rintro ⟨h1, h2, h3⟩
  refine ⟨fun hs => h1 (seenAt_same h.symm j _ _ (by rw [hm.sys, hm.comp]; exact hs)), ?_, ?_⟩
  · intro e he
    have := h2 e he
    unfold outOk at this ⊢
    rw [← hm.id, ← hm.sys, ← hm.comp]
    exact this
  · rw [← hm.tsys, ← hm.tcomp]
    rcases h3 with h3 | ⟨h3, c, h4⟩ | ⟨h3, h4⟩ | ⟨h3, c, h4⟩
    · exact .inl h3
    · exact .inr (.inl ⟨h3, c, seenAt_same h j _ _ h4⟩)
    · exact .inr (.inr (.inl ⟨h3, seenAt_same h j _ _ h4⟩))
    · exact .inr (.inr (.inr ⟨h3, c, seenAt_same h j _ _ h4⟩))

theorem sameRoute_flip {m m' : Msg} (h : SameRoute m m') : SameRoute m' m := ⟨h.1.symm, h.2.symm, h.3.symm, h.4.symm, h.5.symm⟩

theorem expected_same (sniffer : Nat) (eps : List Ep) (j : Nat) : ∀ {as bs}, SamePassed as bs → ∀ {past past'},
    SamePassed past past' → ∃ mask : List Bool, mask.length = as.length ∧
      expected sniffer eps j past as = pick mask as ∧ expected sniffer eps j past' bs = pick mask bs := by
  intro as bs h
  induction h with
  | nil => intro _ _ _; exact ⟨[], rfl, rfl, rfl⟩
  | @cons a b as bs h1 h2 h3 _ ih =>
    intro past past' hp
    have hp' : SamePassed (past ++ [a]) (past' ++ [b]) := hp.append (.cons h1 h2 h3 .nil)
    have hiff : (a.passed = true ∧ Wanted sniffer eps j (past ++ [a]) a.msg) ↔
        (b.passed = true ∧ Wanted sniffer eps j (past' ++ [b]) b.msg) := by
      rw [h3]
      exact ⟨fun x => ⟨x.1, wanted_same hp' j h2 x.2⟩, fun x => ⟨x.1, wanted_same hp'.symm j (sameRoute_flip h2) x.2⟩⟩
    obtain ⟨mask, m1, m2, m3⟩ := ih hp'
    by_cases hw : b.passed = true ∧ Wanted sniffer eps j (past' ++ [b]) b.msg
    · refine ⟨true :: mask, by simp [m1], ?_, ?_⟩
      · rw [expected, if_pos (hiff.mpr hw), m2]; rfl
      · rw [expected, if_pos hw, m3]; rfl
    · refine ⟨false :: mask, by simp [m1], ?_, ?_⟩
      · rw [expected, if_neg (fun x => hw (hiff.mp x)), m2]; rfl
      · rw [expected, if_neg hw, m3]; rfl

theorem SamePassed.passed : ∀ {as bs}, SamePassed as bs → as.map Arrival.passed = bs.map Arrival.passed := by
  intro as bs h
  induction h with
  | nil => rfl
  | cons _ _ h3 _ ih => rw [List.map_cons, List.map_cons, h3, ih]

theorem alike_passed {f : Nat → Filters} : ∀ {as bs : List Arrival}, AlikeAll as bs →
    (∀ a ∈ as, (a.passed = true ↔ inOk (f a.ep) a.msg)) → (∀ a ∈ bs, (a.passed = true ↔ inOk (f a.ep) a.msg)) →
    SamePassed as bs := by
  intro as bs h
  induction h with
  | nil => intro _ _; exact .nil
  | @cons a b as bs h1 h2 _ ih =>
    intro ha hb
    refine .cons h1 h2 ?_ (ih (fun x hx => ha x (by simp [hx])) (fun x hx => hb x (by simp [hx])))
    have e1 := ha a (by simp)
    have e2 := hb b (by simp)
    rw [← h1] at e2
    have : inOk (f a.ep) a.msg ↔ inOk (f a.ep) b.msg := by
      unfold inOk; rw [h2.id, h2.sys, h2.comp]
    rw [this, ← e2] at e1
    exact Bool.eq_iff_iff.mpr e1

/-- C120: take two histories of the same router, without de-duplication or without packets that arrive twice, in which, one by one, messages that are alike arrive on the same endpoints
(and anything else may happen). Then the same of them are let in, and every configured endpoint that is not hung up is written
the same of them (`mask`), in order, each in the form it arrived in. -/
theorem C120_routed_alike (env : Env σ) (ht : TableOk env.tbl) (eps : List Ep) (hc : ConfigOk eps)
    (logs : Nat → σ) (evs evs' : List RouterEv) (w w' : World σ) (as as' : List Arrival)
    (hp : env.dedupPeriod = 0 ∨ NoCopies env.hashFn [] as ∧ NoCopies env.hashFn [] as')
    (h : runRouter env (start eps logs) evs = some (w, as)) (h' : runRouter env (start eps logs) evs' = some (w', as'))
    (hsame : AlikeAll as as') (j : Nat) (hj : j < eps.length)
    (hgone : ∀ gone, RouterEv.hangups gone ∈ evs ∨ RouterEv.hangups gone ∈ evs' → j ∉ gone) :
    as.map Arrival.passed = as'.map Arrival.passed ∧
    ∃ mask : List Bool, mask.length = as.length ∧ Accounts (UneditedBefore env eps j) (writesTo j (start eps logs) w) (pick mask as) ∧
      Accounts (UneditedBefore env eps j) (writesTo j (start eps logs) w') (pick mask as') := by
  have hs := alike_passed (f := fun k => ((eps[k]?).map Ep.filters).getD {}) hsame
    (passed_once env ht eps hc logs evs w [] as h (hp.imp_right And.left))
    (passed_once env ht eps hc logs evs' w' [] as' h' (hp.imp_right And.right))
  have hact : j ∈ (start eps logs).active := List.mem_range.mpr hj
  obtain ⟨mask, m1, m2, m3⟩ := expected_same env.sniffer.toNat eps j hs .nil
  refine ⟨hs.passed, mask, m1, ?_, ?_⟩
  · rw [← m2]
    exact C88_complete_partial env ht eps hc logs [] evs _ w [] as rfl h j hact (fun g hg => hgone g (.inl hg))
  · rw [← m3]
    exact C88_complete_partial env ht eps hc logs [] evs' _ w' [] as' rfl h' j hact (fun g hg => hgone g (.inr hg))


/-- A heartbeat of 1/1 on the serial port, once in MAVLink 1 and once in MAVLink 2, and then another message: endpoint 1 gets both,
in the form in which they arrived. -/
example : ConfigOk Sample.eps ∧ SameMessage Sample.hb1 Sample.hb2 ∧ Sample.envQuiet.dedupPeriod = 0 ∧
    ∀ f ∈ [Sample.hb1, Sample.hb2],
      (runRouter Sample.envQuiet Sample.w0 [.read 0 (.got f.encode), .read 0 (.got Sample.unk.encode)]).map
        (fun r => (r.2, (writesTo 1 Sample.w0 r.1).map Sent.bytes)) =
        some ([⟨0, (f.toMsg Sample.tbl).1, true⟩, ⟨0, (Sample.unk.toMsg Sample.tbl).1, true⟩], [f.encode, Sample.unk.encode]) := by
  refine ⟨Sample.eps_ok, ⟨rfl, rfl, rfl, fun _ => rfl⟩, rfl, ?_⟩
  intro f hf
  rcases List.mem_cons.mp hf with rfl | hf
  · decide +kernel
  · rw [List.mem_singleton] at hf
    subst hf
    decide +kernel

/-- The same with de-duplication on: neither history has a packet twice. -/
example : Sample.envDedup.dedupPeriod = 100 ∧ ∀ f ∈ [Sample.hb1, Sample.hb2],
      (runRouter Sample.envDedup Sample.w0 [.read 0 (.got f.encode), .read 0 (.got Sample.unk.encode)]).map
        (fun r => (decide (NoCopies Sample.envDedup.hashFn [] r.2), r.2.map (fun a => (a.ep, a.passed)), (writesTo 1 Sample.w0 r.1).map Sent.bytes)) =
        some (true, [(0, true), (0, true)], [f.encode, Sample.unk.encode]) := by
  refine ⟨rfl, ?_⟩
  intro f hf
  rcases List.mem_cons.mp hf with rfl | hf
  · decide +kernel
  · rw [List.mem_singleton] at hf
    subst hf
    decide +kernel

end Verif
