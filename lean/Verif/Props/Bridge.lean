import Verif.Props.Moved
import Verif.Props.ArrivalOrder
import Verif.Props.Alike

/-
C125: what goes into the links of a router comes out of the others, from bytes to bytes.
-/

namespace Verif

open Spec

variable {σ : Type}

/-! ### Specification -/

/-- In the history `evs` link `i` brings the valid frames `fs`, cut into reads in any way and in between any reads of other links.
(841 bytes is the space the receiver always has for a read, C02.) -/
structure Spec.Brings (tbl : MsgTable) (evs : List RouterEv) (i : Nat) (fs : List Frame) : Prop where
  reads : ∀ io, RouterEv.read i io ∈ evs → ∃ c, io = .got c ∧ c.length ≤ 841
  bytes : bytesRead i evs = fs.flatMap Frame.encode
  valid : ∀ f ∈ fs, f.WF ∧ f.CrcOk tbl

/-- A router as one gets it by naming links in the configuration and nothing else: no filters, no groups, no de-duplication; its
links are open and nothing has been received; its log endpoints (if any) come behind the links. -/
structure Spec.Hub (env : Env σ) (eps : List Ep) : Prop where
  table : TableOk env.tbl
  order : ∀ j e, eps[j]? = some e → e.kind ≠ .log → LinkAt eps j
  dedup : env.dedupPeriod = 0
  conf : ConfigOk eps
  links : ∀ e ∈ eps, e.filters = {} ∧ e.group = "" ∧ e.fdOpen = true ∧ e.rx = {}

/-- Frame `f` is for everyone, or for a system (or component) one of the frames `heard` is from. -/
def Spec.MeantFor (tbl : MsgTable) (heard : List Frame) (f : Frame) : Prop :=
  (f.toMsg tbl).1.targetSys ≤ 0 ∨
  ∃ g ∈ heard, (f.toMsg tbl).1.targetSys = g.sys.toNat ∧
    ((f.toMsg tbl).1.targetComp ≤ 0 ∨ (f.toMsg tbl).1.targetComp = g.comp.toNat)

/-- `ws` are the frames of the links other than `j`, each once and byte for byte, those of each link in their order. -/
def Spec.Interleaves (n j : Nat) (F : Nat → List Frame) (ws : List (List UInt8)) : Prop :=
  ∃ t : List (Nat × List UInt8), t.map Prod.snd = ws ∧ (∀ x ∈ t, x.1 < n ∧ x.1 ≠ j) ∧
    ∀ i, i < n → i ≠ j → (t.filter (fun x => x.1 == i)).map Prod.snd = (F i).map Frame.encode

/-! ### Proof -/

/-- The reads of link `i`, in order. -/
def readsOf (i : Nat) : List RouterEv → List SysRead
  | [] => []
  | .read j io :: evs => (if j = i then [io] else []) ++ readsOf i evs
  | _ :: evs => readsOf i evs

theorem readsOf_append (i : Nat) : ∀ (evs evs' : List RouterEv), readsOf i (evs ++ evs') = readsOf i evs ++ readsOf i evs'
  | [], _ => rfl
  | ev :: evs, evs' => by
    have := readsOf_append i evs evs'
    cases ev <;> simp [readsOf, this]

theorem bytesRead_append (i : Nat) : ∀ (evs evs' : List RouterEv), bytesRead i (evs ++ evs') = bytesRead i evs ++ bytesRead i evs'
  | [], _ => rfl
  | ev :: evs, evs' => by
    have := bytesRead_append i evs evs'
    cases ev <;> simp [bytesRead, this]

theorem readsOf_chunks (i : Nat) : ∀ (evs : List RouterEv), (∀ io, RouterEv.read i io ∈ evs → ∃ c, io = .got c ∧ c.length ≤ 841) →
    ∃ chunks : List (List UInt8), readsOf i evs = chunks.map .got ∧ (∀ c ∈ chunks, c.length ≤ 841) ∧ chunks.flatten = bytesRead i evs
  | [], _ => ⟨[], rfl, by simp, rfl⟩
  | ev :: evs, h => by
    obtain ⟨cs, h1, h2, h3⟩ := readsOf_chunks i evs (fun io hm => h io (List.mem_cons_of_mem _ hm))
    cases ev with
    | read j io =>
      by_cases hj : j = i
      · subst hj
        obtain ⟨c, rfl, hc⟩ := h io (by simp)
        refine ⟨c :: cs, by simp [readsOf, h1], ?_, by simp [bytesRead, bytesOf, h3]⟩
        intro x hx
        rcases List.mem_cons.mp hx with rfl | hx
        · exact hc
        · exact h2 x hx
      · exact ⟨cs, by simp [readsOf, h1, hj], h2, by simp [bytesRead, hj, h3]⟩
    | _ => exact ⟨cs, by simp [readsOf, h1], h2, by simp [bytesRead, h3]⟩

/-- Neither a new client nor a link that is closed or reopened. -/
def Spec.Steady (evs : List RouterEv) : Prop := ∀ ev ∈ evs, ev ≠ .accept ∧ ∀ k o, ev ≠ .fd k o

theorem step_arrivals (env : Env σ) (i : Nat) {w w1 : World σ} {ev : RouterEv} {as : List Arrival}
    (hs : routerStep env w ev = some (w1, as)) (hst : ev ≠ .accept ∧ ∀ k o, ev ≠ .fd k o) (rx : Rx)
    (hr : (receivers w)[i]? = some (rx, true)) :
    (as.filter (fun a => a.ep == i)).map Arrival.msg = (runRx env.tbl rx (readsOf i [ev])).2.map Prod.fst ∧
    (receivers w1)[i]? = some ((runRx env.tbl rx (readsOf i [ev])).1, true) := by
  have hrec := receivers_step env hs
  cases ev with
  | read j io =>
    have hg : (receivers w)[j]? = (w.eps[j]?).map (fun e => (e.rx, e.fdOpen)) := by simp [receivers]
    cases he : w.eps[j]? with
    | none =>
      simp only [routerStep, handleRead, he] at hs
      cases hs
      have hij : j ≠ i := by rintro rfl; rw [hg, he] at hr; cases hr
      simp [readsOf, hij, runRx, hr]
    | some e =>
      simp only [routerStep, handleRead, he] at hs
      obtain ⟨h1, h2⟩ := runMsgs_arrivals env j _ hs
      simp only [receiversAfter, hg, he, Option.map_some] at hrec
      by_cases hij : j = i
      · subst hij
        rw [hg, he] at hr
        simp only [Option.map_some, Option.some.injEq, Prod.mk.injEq] at hr
        obtain ⟨hr1, hr2⟩ := hr
        have hlt : j < (receivers w).length := (List.getElem?_eq_some_iff.mp (hg.trans (by rw [he]; rfl))).1
        have hf : as.filter (fun a => a.ep == j) = as := List.filter_eq_self.mpr (fun a ha => by simp [h2 a ha])
        rw [hf, h1, hrec, List.getElem?_set_self hlt]
        simp [readsOf, runRx, handleReadRx, hr1, hr2]
      · have hf : as.filter (fun a => a.ep == i) = [] := List.filter_eq_nil_iff.mpr (fun a ha => by simp [h2 a ha, hij])
        rw [hf, hrec]
        simp [readsOf, hij, runRx, hr]
  | accept => exact absurd rfl hst.1
  | fd j o => exact absurd rfl (hst.2 j o)
  | hangups gone => cases hs; rw [hrec]; simp [receiversAfter, readsOf, runRx, hr]
  | logCall j c => cases hs; rw [hrec]; simp [receiversAfter, readsOf, runRx, hr]
  | aggregate => cases hs; rw [hrec]; simp [receiversAfter, readsOf, runRx, hr]

theorem runRx_append (tbl : MsgTable) : ∀ (ios ios' : List SysRead) (rx : Rx),
    runRx tbl rx (ios ++ ios') = ((runRx tbl (runRx tbl rx ios).1 ios').1, (runRx tbl rx ios).2 ++ (runRx tbl (runRx tbl rx ios).1 ios').2)
  | [], ios', rx => by simp [runRx]
  | io :: ios, ios', rx => by simp [runRx, runRx_append tbl ios ios']

theorem run_arrivals (env : Env σ) (i : Nat) : ∀ (evs : List RouterEv) (w : World σ) {w' : World σ} {as : List Arrival},
    runRouter env w evs = some (w', as) → Steady evs → ∀ rx, (receivers w)[i]? = some (rx, true) →
    (as.filter (fun a => a.ep == i)).map Arrival.msg = (runRx env.tbl rx (readsOf i evs)).2.map Prod.fst ∧
    (receivers w')[i]? = some ((runRx env.tbl rx (readsOf i evs)).1, true)
  | [], w, w', as, h, _, rx, hr => by cases h; simp [readsOf, runRx, hr]
  | ev :: evs, w, w', as, h, hst, rx, hr => by
    unfold runRouter at h
    split at h
    · cases h
    · rename_i w1 as1 hs
      split at h
      · cases h
      · rename_i w2 as2 hr2
        cases h
        obtain ⟨h1, h2⟩ := step_arrivals env i hs (hst ev (by simp)) rx hr
        obtain ⟨h3, h4⟩ := run_arrivals env i evs w1 hr2 (fun e he => hst e (List.mem_cons_of_mem _ he)) _ h2
        have hc : readsOf i (ev :: evs) = readsOf i [ev] ++ readsOf i evs := readsOf_append i [ev] evs
        rw [hc, runRx_append]
        simp only [List.filter_append, List.map_append, h1, h3, h4, and_self]

theorem start_receiver {env : Env σ} {eps : List Ep} (H : Hub env eps) (logs : Nat → σ) (i : Nat) (hi : i < eps.length) :
    (receivers (start eps logs))[i]? = some ({}, true) := by
  have hl := H.links eps[i] (List.getElem_mem hi)
  simp only [receivers, start, linkGroups, List.getElem?_map, List.getElem?_mapIdx, List.getElem?_eq_getElem hi, Option.map_some]
  rw [if_pos hl.2.1, hl.2.2.1, hl.2.2.2]

/-- The messages that arrive on a link are the frames it brings. -/
theorem brings_arrivals {env : Env σ} {eps : List Ep} (H : Hub env eps) (logs : Nat → σ) (evs : List RouterEv) (hst : Steady evs)
    {w : World σ} {as : List Arrival} (h : runRouter env (start eps logs) evs = some (w, as)) (i : Nat) (hi : i < eps.length)
    (fs : List Frame) (hb : Brings env.tbl evs i fs) :
    (as.filter (fun a => a.ep == i)).map Arrival.msg = fs.map (fun f => (f.toMsg env.tbl).1) := by
  obtain ⟨cs, h1, h2, h3⟩ := readsOf_chunks i evs hb.reads
  rw [(run_arrivals env i evs _ h hst {} (start_receiver H logs i hi)).1, h1,
    (C01_reassembly env.tbl fs [] Sample.hb2 cs hb.valid Sample.hb2_wf (List.nil_prefix) (by decide) h2 (by rw [h3, hb.bytes]; simp)).1,
    List.map_map]
  rfl

theorem brings_append {tbl : MsgTable} {evs evs' : List RouterEv} {i : Nat} {fs fs' : List Frame} (h : Brings tbl evs i fs)
    (h' : Brings tbl evs' i fs') : Brings tbl (evs ++ evs') i (fs ++ fs') := by
  refine ⟨fun io hm => ?_, by rw [bytesRead_append, h.bytes, h'.bytes, List.flatMap_append], fun f hf => ?_⟩
  · rcases List.mem_append.mp hm with hm | hm
    · exact h.reads io hm
    · exact h'.reads io hm
  · rcases List.mem_append.mp hf with hf | hf
    · exact h.valid f hf
    · exact h'.valid f hf

/-- All messages arrive on configured links. -/
theorem run_range (env : Env σ) : ∀ (evs : List RouterEv) (w : World σ) {w' : World σ} {as : List Arrival},
    runRouter env w evs = some (w', as) → Steady evs → ∀ a ∈ as, a.ep < (receivers w).length
  | [], w, w', as, h, _ => by cases h; simp
  | ev :: evs, w, w', as, h, hst => by
    unfold runRouter at h
    split at h
    · cases h
    · rename_i w1 as1 hs
      split at h
      · cases h
      · rename_i w2 as2 hr2
        cases h
        have ih := run_range env evs w1 hr2 (fun e he => hst e (List.mem_cons_of_mem _ he))
        have hrec := receivers_step env hs
        have hl : (receivers w1).length = (receivers w).length := by
          rw [hrec]
          have := hst ev (by simp)
          cases ev with
          | read j io => simp only [receiversAfter]; cases (receivers w)[j]? <;> simp
          | accept => exact absurd rfl this.1
          | fd j o => exact absurd rfl (this.2 j o)
          | _ => rfl
        intro a ha
        rcases List.mem_append.mp ha with ha | ha
        · cases ev with
          | read j io =>
            cases he : w.eps[j]? with
            | none => simp only [routerStep, handleRead, he] at hs; cases hs; cases ha
            | some e =>
              simp only [routerStep, handleRead, he] at hs
              rw [(runMsgs_arrivals env j _ hs).2 a ha]
              simp only [receivers, List.length_map]
              exact (List.getElem?_eq_some_iff.mp he).1
          | accept => cases hs; cases ha
          | fd j o => exact absurd rfl ((hst _ (by simp)).2 j o)
          | _ => cases hs; cases ha
        · rw [← hl]; exact ih a ha

theorem peer_plain {eps : List Ep} (h : ∀ e ∈ eps, e.group = "") {i j : Nat} : Peer eps i j ↔ i = j := by
  constructor
  · rintro (h1 | ⟨e, _, he, _, hn, _⟩)
    · exact h1
    · exact absurd (h e (List.mem_of_getElem? he)) hn
  · exact .inl

/-- What is wanted of everything that arrives, if it is just what comes from elsewhere. -/
theorem expected_elsewhere (sniffer : Nat) (eps : List Ep) (j : Nat) : ∀ (as past : List Arrival), (∀ a ∈ as, a.passed = true) →
    (∀ a ∈ as, a.ep = j → ∀ mid, a ∈ mid → ¬ Wanted sniffer eps j mid a.msg) →
    (∀ a ∈ as, a.ep ≠ j → ∀ mid, (∀ b ∈ past, b ∈ mid) → (∀ b ∈ mid, b ∈ past ++ as) → Wanted sniffer eps j mid a.msg) →
    expected sniffer eps j past as = as.filter (fun a => a.ep != j)
  | [], _, _, _, _ => rfl
  | a :: as, past, hp, hn, hw => by
    have ih := expected_elsewhere sniffer eps j as (past ++ [a]) (fun x hx => hp x (List.mem_cons_of_mem _ hx))
      (fun x hx => hn x (List.mem_cons_of_mem _ hx))
      (fun x hx hne mid h1 h2 => hw x (List.mem_cons_of_mem _ hx) hne mid (fun b hb => h1 b (List.mem_append_left _ hb))
        (fun b hb => by simpa using h2 b hb))
    rw [expected, ih]
    by_cases hj : a.ep = j
    · rw [if_neg (fun h => hn a (by simp) hj _ (by simp) h.2)]
      simp [hj]
    · rw [if_pos ⟨hp a (by simp), hw a (by simp) hj _ (fun b hb => List.mem_append_left _ hb) (by simp +contextual [or_imp])⟩]
      simp [hj]

theorem none_in (m : Msg) : inOk {} m := by simp [inOk, passes]
theorem none_out (m : Msg) : outOk {} m := by simp [outOk, passes]

/-- **C125**: a router of any number of links with default settings.  Split any history in two, without links coming and going.  Let the
links bring any valid frames in the first part (`F1`) and in the second (`F2`), in reads cut in any way and interleaved in any way.
Then link `j` is given in the second part exactly the frames the other links brought, each once, byte for byte, those of each link
in their order - provided that the senders of these frames were not heard on link `j` itself, and the frames are for everyone or
for systems that link `j` brought frames from in the first part. -/
theorem C125_hub (env : Env σ) (eps : List Ep) (H : Hub env eps) (logs : Nat → σ) (evs1 evs2 : List RouterEv)
    (hs1 : Steady evs1) (hs2 : Steady evs2) (w1 w2 : World σ) (as1 as2 : List Arrival)
    (h1 : runRouter env (start eps logs) evs1 = some (w1, as1)) (h2 : runRouter env w1 evs2 = some (w2, as2))
    (F1 F2 : Nat → List Frame) (hF1 : ∀ i, i < eps.length → Brings env.tbl evs1 i (F1 i))
    (hF2 : ∀ i, i < eps.length → Brings env.tbl evs2 i (F2 i))
    (j : Nat) (e : Ep) (hj : eps[j]? = some e) (hk : e.kind ≠ .log)
    (hgone : ∀ gone, RouterEv.hangups gone ∈ evs1 ++ evs2 → j ∉ gone)
    (hsrc : ∀ i, i < eps.length → i ≠ j → ∀ f ∈ F2 i, ∀ g ∈ F1 j ++ F2 j, ¬ (g.sys = f.sys ∧ g.comp = f.comp))
    (hto : ∀ i, i < eps.length → i ≠ j → ∀ f ∈ F2 i, MeantFor env.tbl (F1 j) f) :
    Interleaves eps.length j F2 ((writesTo j w1 w2).map Sent.bytes) := by
  have hjl : j < eps.length := (List.getElem?_eq_some_iff.mp hj).1
  have hst : Steady (evs1 ++ evs2) := fun ev hev => (List.mem_append.mp hev).elim (hs1 ev) (hs2 ev)
  have h12 : runRouter env (start eps logs) (evs1 ++ evs2) = some (w2, as1 ++ as2) := runRouter_append evs1 h1 h2
  have hlen : (receivers (start eps logs)).length = eps.length := by simp [receivers, start, linkGroups]
  have hpeer : ∀ {a b}, Peer eps a b ↔ a = b := fun {a b} => peer_plain (fun x hx => (H.links x hx).2.1)
  -- what arrives
  have hA1 : ∀ i, i < eps.length → (as1.filter (fun a => a.ep == i)).map Arrival.msg = (F1 i).map (fun f => (f.toMsg env.tbl).1) :=
    fun i hi => brings_arrivals H logs evs1 hs1 h1 i hi _ (hF1 i hi)
  have hA2 : ∀ i, i < eps.length → (as2.filter (fun a => a.ep == i)).map Arrival.msg = (F2 i).map (fun f => (f.toMsg env.tbl).1) := by
    intro i hi
    have := brings_arrivals H logs _ hst h12 i hi _ (brings_append (hF1 i hi) (hF2 i hi))
    rw [List.filter_append, List.map_append, List.map_append, hA1 i hi] at this
    exact List.append_cancel_left this
  have hrange : ∀ a ∈ as1 ++ as2, a.ep < eps.length := fun a ha => hlen ▸ run_range env _ _ h12 hst a ha
  have hof1 : ∀ a ∈ as1, ∃ f ∈ F1 a.ep, (f.toMsg env.tbl).1 = a.msg := by
    intro a ha
    have : a.msg ∈ (as1.filter (fun b => b.ep == a.ep)).map Arrival.msg := List.mem_map.mpr ⟨a, by simp [ha], rfl⟩
    rw [hA1 _ (hrange a (List.mem_append_left _ ha))] at this
    obtain ⟨f, hf, he⟩ := List.mem_map.mp this
    exact ⟨f, hf, he⟩
  have hof2 : ∀ a ∈ as2, ∃ f ∈ F2 a.ep, (f.toMsg env.tbl).1 = a.msg := by
    intro a ha
    have : a.msg ∈ (as2.filter (fun b => b.ep == a.ep)).map Arrival.msg := List.mem_map.mpr ⟨a, by simp [ha], rfl⟩
    rw [hA2 _ (hrange a (List.mem_append_right _ ha))] at this
    obtain ⟨f, hf, he⟩ := List.mem_map.mp this
    exact ⟨f, hf, he⟩
  have hpass : ∀ a ∈ as1 ++ as2, a.passed = true := by
    intro a ha
    rw [passed_filters env H.table H.dedup eps H.conf logs _ _ _ h12 a ha]
    cases hx : eps[a.ep]? with
    | none => exact none_in _
    | some x =>
      simp only [Option.map_some, Option.getD_some]
      rw [(H.links x (List.mem_of_getElem? hx)).1]; exact none_in _
  -- who is seen on link `j`
  have hseen : ∀ a ∈ as2, a.ep ≠ j → ∀ mid, (∀ b ∈ mid, b ∈ as1 ++ as2) → ¬ SeenAt eps mid j a.msg.srcSys.toNat a.msg.srcComp.toNat := by
    rintro a ha hne mid hmid (⟨e', he', hlog, _⟩ | ⟨b, hb, _, hbs, hbc, hbp⟩)
    · rw [hj] at he'; cases he'; exact hk hlog
    · have hbj : b.ep = j := hpeer.mp hbp
      obtain ⟨f, hf, hfm⟩ := hof2 a ha
      have hgg : ∃ g ∈ F1 j ++ F2 j, (g.toMsg env.tbl).1 = b.msg := by
        rcases List.mem_append.mp (hmid b hb) with hb' | hb'
        · obtain ⟨g, hg, hgm⟩ := hof1 b hb'; exact ⟨g, List.mem_append_left _ (hbj ▸ hg), hgm⟩
        · obtain ⟨g, hg, hgm⟩ := hof2 b hb'; exact ⟨g, List.mem_append_right _ (hbj ▸ hg), hgm⟩
      obtain ⟨g, hg, hgm⟩ := hgg
      refine hsrc a.ep (hrange a (List.mem_append_right _ ha)) hne f hf g hg ⟨?_, ?_⟩
      · rw [← hfm, ← hgm] at hbs; exact UInt8.toNat_inj.mp hbs
      · rw [← hfm, ← hgm] at hbc; exact UInt8.toNat_inj.mp hbc
  have hex : expected env.sniffer.toNat eps j as1 as2 = as2.filter (fun a => a.ep != j) := by
    refine expected_elsewhere _ _ _ as2 as1 (fun a ha => hpass a (List.mem_append_right _ ha)) ?_ ?_
    · intro a ha haj mid hmid hw
      exact hw.1 (.inr ⟨a, hmid, hpass a (List.mem_append_right _ ha), rfl, rfl, hpeer.mpr haj⟩)
    · intro a ha hne mid hpast hmid
      refine ⟨hseen a ha hne mid hmid, fun x hx => ?_, ?_⟩
      · rw [(H.links x (List.mem_of_getElem? hx)).1]; exact none_out _
      · obtain ⟨f, hf, hfm⟩ := hof2 a ha
        rw [← hfm]
        rcases hto a.ep (hrange a (List.mem_append_right _ ha)) hne f hf with h | ⟨g, hg, hs, hc⟩
        · exact .inl h
        · have : (g.toMsg env.tbl).1 ∈ (as1.filter (fun b => b.ep == j)).map Arrival.msg := by
            rw [hA1 j hjl]; exact List.mem_map.mpr ⟨g, hg, rfl⟩
          obtain ⟨b, hb, hbm⟩ := List.mem_map.mp this
          obtain ⟨hb1, hb2⟩ := List.mem_filter.mp hb
          have hbp := hpass b (List.mem_append_left _ hb1)
          have hbpeer : Peer eps b.ep j := hpeer.mpr (by simpa using hb2)
          have hss : b.msg.srcSys.toNat = (f.toMsg env.tbl).1.targetSys.toNat := by rw [hbm, hs]; rfl
          by_cases h0 : (f.toMsg env.tbl).1.targetComp ≤ 0
          · exact .inr (.inl ⟨h0, g.comp.toNat, .inr ⟨b, hpast b hb1, hbp, hss, by rw [hbm]; rfl, hbpeer⟩⟩)
          · have hc' := hc.resolve_left h0
            exact .inr (.inr (.inl ⟨by omega, .inr ⟨b, hpast b hb1, hbp, hss, by rw [hbm, hc']; rfl, hbpeer⟩⟩))
  -- the account
  have hr1 : j ∈ w1.active :=
    run_active H.table eps H.conf j evs1 [] (.start H.conf) (start_after eps H.conf logs) (by simp [start, hjl])
      (fun g hg => hgone g (List.mem_append_left _ hg)) h1
  have hacc := C88_complete_partial env H.table eps H.conf logs evs1 evs2 w1 w2 as1 as2 h1 h2 j hr1
    (fun g hg => hgone g (List.mem_append_right _ hg))
  rw [hex] at hacc
  refine ⟨(as2.filter (fun a => a.ep != j)).map (fun a => (a.ep, a.msg.data)), ?_, ?_, ?_⟩
  · rw [List.map_map]
    apply List.ext_getElem?
    intro k
    simp only [List.getElem?_map]
    by_cases hkl : k < (writesTo j w1 w2).length
    · have hkl' : k < (as2.filter (fun a => a.ep != j)).length := by rw [← hacc.1]; exact hkl
      have e1 := List.getElem?_eq_getElem hkl
      have e2 := List.getElem?_eq_getElem hkl'
      rw [e1, e2]
      simp only [Option.map_some, Function.comp]
      rw [hacc.2 k _ _ e1 e2 (unedited_link (H.order j e hj hk) _)]
    · have hl := hacc.1
      rw [List.getElem?_eq_none (l := writesTo j w1 w2) (by omega), List.getElem?_eq_none (l := as2.filter _) (by omega)]
      rfl
  · intro x hx
    obtain ⟨a, ha, rfl⟩ := List.mem_map.mp hx
    obtain ⟨ha1, ha2⟩ := List.mem_filter.mp ha
    exact ⟨hrange a (List.mem_append_right _ ha1), by simpa using ha2⟩
  · intro i hi hne
    have := congrArg (List.map Msg.data) (hA2 i hi)
    rw [List.map_map, List.map_map] at this
    rw [List.filter_map, List.map_map]
    have hfe : (as2.filter (fun a => a.ep != j)).filter ((fun x : Nat × List UInt8 => x.1 == i) ∘ fun a => (a.ep, a.msg.data)) =
        as2.filter (fun a => a.ep == i) := by
      rw [List.filter_filter]
      apply List.filter_congr
      intro a _
      simp only [Function.comp]
      by_cases h : a.ep = i
      · simp [h, hne]
      · simp [h]
    rw [hfe]
    exact this

/-- **C125** for two links, in both directions: a transparent bridge. -/
theorem C125_bridge (env : Env σ) (e0 e1 : Ep) (H : Hub env [e0, e1]) (hk0 : e0.kind ≠ .log) (hk1 : e1.kind ≠ .log) (logs : Nat → σ)
    (evs1 evs2 : List RouterEv) (hs1 : Steady evs1) (hs2 : Steady evs2) (hgone : ∀ gone, RouterEv.hangups gone ∉ evs1 ++ evs2)
    (w1 w2 : World σ) (as1 as2 : List Arrival)
    (h1 : runRouter env (start [e0, e1] logs) evs1 = some (w1, as1)) (h2 : runRouter env w1 evs2 = some (w2, as2))
    (V1 G1 V2 G2 : List Frame) (hV1 : Brings env.tbl evs1 0 V1) (hG1 : Brings env.tbl evs1 1 G1)
    (hV2 : Brings env.tbl evs2 0 V2) (hG2 : Brings env.tbl evs2 1 G2)
    (hsrc : ∀ f ∈ V1 ++ V2, ∀ g ∈ G1 ++ G2, ¬ (g.sys = f.sys ∧ g.comp = f.comp))
    (hV : ∀ f ∈ V2, MeantFor env.tbl G1 f) (hG : ∀ g ∈ G2, MeantFor env.tbl V1 g) :
    (writesTo 1 w1 w2).map Sent.bytes = V2.map Frame.encode ∧ (writesTo 0 w1 w2).map Sent.bytes = G2.map Frame.encode := by
  have hF1 : ∀ i, i < [e0, e1].length → Brings env.tbl evs1 i (if i = 0 then V1 else G1) := by
    intro i hi
    match i, hi with
    | 0, _ => exact hV1
    | 1, _ => exact hG1
  have hF2 : ∀ i, i < [e0, e1].length → Brings env.tbl evs2 i (if i = 0 then V2 else G2) := by
    intro i hi
    match i, hi with
    | 0, _ => exact hV2
    | 1, _ => exact hG2
  have one : ∀ (t : List (Nat × List UInt8)) (i j : Nat), i < 2 → i ≠ j → j < 2 → (∀ x ∈ t, x.1 < 2 ∧ x.1 ≠ j) → t.filter (fun x => x.1 == i) = t := by
    intro t i j hi hne hj h
    refine List.filter_eq_self.mpr (fun x hx => ?_)
    have := h x hx
    have : x.1 = i := by omega
    simp [this]
  constructor
  · obtain ⟨t, ht1, ht2, ht3⟩ := C125_hub env [e0, e1] H logs evs1 evs2 hs1 hs2 w1 w2 as1 as2 h1 h2 _ _ hF1 hF2 1 e1 rfl hk1
      (fun g hg => absurd hg (hgone g))
      (by
        intro i hi hne f hf g hg
        have : i = 0 := by simp at hi; omega
        subst this
        simp only [if_true] at hf
        exact hsrc f (List.mem_append_right _ hf) g (by simpa using hg))
      (by
        intro i hi hne f hf
        have : i = 0 := by simp at hi; omega
        subst this
        exact hV f (by simpa using hf))
    rw [← ht1, ← one t 0 1 (by decide) (by decide) (by decide) ht2, ht3 0 (by simp) (by decide)]
    rfl
  · obtain ⟨t, ht1, ht2, ht3⟩ := C125_hub env [e0, e1] H logs evs1 evs2 hs1 hs2 w1 w2 as1 as2 h1 h2 _ _ hF1 hF2 0 e0 rfl hk0
      (fun g hg => absurd hg (hgone g))
      (by
        intro i hi hne g hg f hf h
        have : i = 1 := by simp at hi; omega
        subst this
        exact hsrc f (by simpa using hf) g (List.mem_append_right _ (by simpa using hg)) ⟨h.1.symm, h.2.symm⟩)
      (by
        intro i hi hne f hf
        have : i = 1 := by simp at hi; omega
        subst this
        exact hG f (by simpa using hf))
    rw [← ht1, ← one t 1 0 (by decide) (by decide) (by decide) ht2, ht3 1 (by simp) (by decide)]
    rfl

namespace Sample

/-- A UART and a UDP endpoint with default settings. -/
def epsBridge : List Ep := [{ kind := .uart }, { kind := .udp }]

/-- A heartbeat of the vehicle, cut in two, a read of nothing in between. -/
def bridge1 : List RouterEv := [.read 0 (.got (hb2.encode.take 5)), .read 1 (.got []), .read 0 (.got (hb2.encode.drop 5))]

/-- A command of the ground station arrives in two pieces, and in between two heartbeats of the vehicle in one read. -/
def bridge2 : List RouterEv :=
  [.read 1 (.got (cmdTo1.encode.take 20)), .read 0 (.got (hb1.encode ++ hb2.encode)), .aggregate, .read 1 (.got (cmdTo1.encode.drop 20))]

theorem bridge_hub : Hub envQuiet epsBridge := by
  refine ⟨tbl_ok, ?_, rfl, by unfold ConfigOk; decide, ?_⟩
  · intro j e he _
    refine ⟨(List.getElem?_eq_some_iff.mp he).1, fun i _ x hx => ?_⟩
    have hm := List.mem_of_getElem? hx
    simp only [epsBridge, List.mem_cons, List.not_mem_nil, or_false] at hm
    rcases hm with rfl | rfl <;> simp
  intro e he
  simp only [epsBridge, List.mem_cons, List.not_mem_nil, or_false] at he
  rcases he with rfl | rfl <;> exact ⟨rfl, rfl, rfl, rfl⟩

theorem cmdTo1_valid : cmdTo1.WF ∧ cmdTo1.CrcOk tbl := ⟨by simp [Frame.WF, cmdTo1], by
  rw [Frame.CrcOk]
  decide +kernel⟩

theorem bridge_brings : Brings tbl bridge1 0 [hb2] ∧ Brings tbl bridge1 1 [] ∧ Brings tbl bridge2 0 [hb1, hb2] ∧
    Brings tbl bridge2 1 [cmdTo1] := by
  refine ⟨⟨?_, by decide +kernel, ?_⟩, ⟨?_, by decide +kernel, by simp⟩, ⟨?_, by decide +kernel, ?_⟩, ⟨?_, by decide +kernel, ?_⟩⟩
  · intro io h; simp [bridge1] at h; rcases h with rfl | rfl <;> exact ⟨_, rfl, by decide⟩
  · intro f hf; simp at hf; subst hf; exact ⟨hb2_wf, hb2_crc⟩
  · intro io h; simp [bridge1] at h; subst h; exact ⟨_, rfl, by decide⟩
  · intro io h; simp [bridge2] at h; subst h; exact ⟨_, rfl, by decide⟩
  · intro f hf; simp at hf; rcases hf with rfl | rfl
    · exact ⟨hb1_wf, hb1_crc⟩
    · exact ⟨hb2_wf, hb2_crc⟩
  · intro io h; simp [bridge2] at h; rcases h with rfl | rfl <;> exact ⟨_, rfl, by decide⟩
  · intro f hf; simp at hf; subst hf; exact cmdTo1_valid

end Sample

/-- The hypotheses of `C125_bridge` (and so of `C125_hub`) are met, and what the two links are given is as it says. -/
example : ∃ w1 w2 as1 as2, runRouter Sample.envQuiet (start Sample.epsBridge fun _ => 0) Sample.bridge1 = some (w1, as1) ∧
    runRouter Sample.envQuiet w1 Sample.bridge2 = some (w2, as2) ∧
    (writesTo 1 w1 w2).map Sent.bytes = [Sample.hb1.encode, Sample.hb2.encode] ∧
    (writesTo 0 w1 w2).map Sent.bytes = [Sample.cmdTo1.encode] := by
  obtain ⟨w1, as1, h1, _⟩ := runRouter_spec Sample.envQuiet Sample.bridge1 (start Sample.epsBridge fun _ => 0)
    (start_inv _ Sample.bridge_hub.conf _)
  obtain ⟨w2, as2, h2, _⟩ := runRouter_spec Sample.envQuiet Sample.bridge2 w1 (reached_inv (reached_run Sample.bridge1 (.start Sample.bridge_hub.conf) h1))
  have hb := Sample.bridge_brings
  have := C125_bridge Sample.envQuiet { kind := .uart } { kind := .udp } Sample.bridge_hub (by decide) (by decide) (fun _ => 0)
    Sample.bridge1 Sample.bridge2 (by intro ev h; simp [Sample.bridge1] at h; rcases h with rfl | rfl | rfl <;> simp)
    (by intro ev h; simp [Sample.bridge2] at h; rcases h with rfl | rfl | rfl | rfl <;> simp)
    (by intro g h; simp [Sample.bridge1, Sample.bridge2] at h) w1 w2 as1 as2 h1 h2 _ _ _ _ hb.1 hb.2.1 hb.2.2.1 hb.2.2.2
    (by decide) (by intro f hf; simp at hf; rcases hf with rfl | rfl <;> exact .inl (by decide))
    (by intro f hf; simp at hf; subst hf; exact .inr ⟨Sample.hb2, by simp, by decide +kernel, .inr (by decide +kernel)⟩)
  exact ⟨w1, w2, as1, as2, h1, h2, this.1, this.2⟩

end Verif
