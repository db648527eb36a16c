import Verif.Model.Config
import Verif.Spec.Config
import Verif.Lemmas.ConfState
import Verif.Props.ConfNum

/-
Section iteration and option extraction.
-/

namespace Verif
open Spec.Conf

/-! ### Names -/

theorem same_cons {a b : UInt8} {x y : List UInt8} (ha : a ≠ 0) :
    Same (b :: x) (a :: y) ↔ lower b = lower a ∧ Same x y := by
  have hl : lower a ≠ 0 := fun h => ha ((lower_zero a).1 h)
  unfold Same
  simp only [List.length_cons, Nat.add_right_cancel_iff, fold, if_neg ha]
  by_cases hb : b = 0
  · subst hb
    have : lower 0 = 0 := (lower_zero 0).2 rfl
    simp [this, hl.symm]
  · rw [if_neg hb]
    simp only [List.cons.injEq]
    constructor
    · rintro ⟨h1, h2, h3⟩; exact ⟨h2, h1, h3⟩
    · rintro ⟨h1, h2, h3⟩; exact ⟨h2, h1, h3⟩

theorem same_nil {a : List UInt8} : Same a [] ↔ a = [] := by
  constructor
  · intro h; exact List.eq_nil_of_length_eq_zero h.1
  · rintro rfl; exact Same.rfl' _

theorem fnPrefix_iff {pre : List UInt8} (hp : 0 ∉ pre) (n : List UInt8) :
    fnPrefix pre (cstrB n) = true ↔ ∃ name, Typed pre n name := by
  induction pre generalizing n with
  | nil => simp only [fnPrefix, true_iff]; exact ⟨n, [], rfl, Same.rfl' _⟩
  | cons a as ih =>
    simp only [List.mem_cons, not_or] at hp
    have ha : a ≠ 0 := fun h => hp.1 h.symm
    cases n with
    | nil =>
      have : ¬ ∃ name, Typed (a :: as) [] name := by
        rintro ⟨name, x, h1, h2⟩
        cases x with
        | nil => cases h2.1
        | cons _ _ => cases h1
      simp [cstrB, fnPrefix, this]
    | cons b bs =>
      by_cases hb : b = 0
      · subst hb
        have : ¬ ∃ name, Typed (a :: as) (0 :: bs) name := by
          rintro ⟨name, x, h1, h2⟩
          cases x with
          | nil => cases h2.1
          | cons c x =>
            simp only [List.cons_append, List.cons.injEq] at h1
            rw [← h1.1, same_cons ha] at h2
            exact ha ((lower_zero a).1 (h2.1.symm.trans ((lower_zero 0).2 rfl)))
        simp [cstrB, fnPrefix, this]
      · have e : cstrB (b :: bs) = b :: cstrB bs := by simp [cstrB, hb]
        rw [e]
        simp only [fnPrefix, Bool.and_eq_true, beq_iff_eq, lowerB_eq, ih hp.2]
        constructor
        · rintro ⟨h1, name, x, rfl, h2⟩
          exact ⟨name, b :: x, rfl, (same_cons ha).2 ⟨h1.symm, h2⟩⟩
        · rintro ⟨name, x, h1, h2⟩
          cases x with
          | nil => cases h2.1
          | cons c x =>
            simp only [List.cons_append, List.cons.injEq] at h1
            rw [← h1.1, same_cons ha] at h2
            exact ⟨h2.1.symm, name, x, h1.2, h2.2⟩

theorem Spec.Conf.Typed.drop {type sec name : List UInt8} (h : Typed type sec name) :
    sec.drop type.length = name := by
  obtain ⟨x, rfl, hx⟩ := h
  rw [← hx.1]; simp

theorem Spec.Conf.Same.append {x y x' y' : List UInt8} (hx : 0 ∉ x) (hx' : 0 ∉ x') (h : x.length = x'.length) :
    Same (x ++ y) (x' ++ y') ↔ Same x x' ∧ Same y y' := by
  induction x generalizing x' with
  | nil =>
    cases x' with
    | nil => simp [Same.rfl']
    | cons _ _ => cases h
  | cons a x ih =>
    cases x' with
    | nil => cases h
    | cons b x' =>
      simp only [List.mem_cons, not_or] at hx hx'
      have hb : b ≠ 0 := fun h => hx'.1 h.symm
      simp only [List.length_cons, Nat.add_right_cancel_iff] at h
      rw [List.cons_append, List.cons_append, same_cons hb, same_cons hb, ih hx.2 hx'.2 h, and_assoc]

theorem Spec.Conf.Same.nul {x pre : List UInt8} (h : Same x pre) (hp : 0 ∉ pre) : 0 ∉ x := by
  induction pre generalizing x with
  | nil => rw [same_nil.1 h]; simp
  | cons a as ih =>
    simp only [List.mem_cons, not_or] at hp
    cases x with
    | nil => cases h.1
    | cons b x =>
      rw [same_cons fun h => hp.1 h.symm] at h
      simp only [List.mem_cons, not_or]
      refine ⟨fun hb => hp.1 ?_, ih h.2 hp.2⟩
      subst hb
      exact ((lower_zero a).1 (h.1.symm.trans ((lower_zero 0).2 rfl))).symm

theorem Spec.Conf.Typed.same {type sec name sec' name' : List UInt8} (hp : 0 ∉ type)
    (h : Typed type sec name) (h' : Typed type sec' name') : Same sec sec' ↔ Same name name' := by
  obtain ⟨x, rfl, hx⟩ := h
  obtain ⟨x', rfl, hx'⟩ := h'
  rw [Same.append (hx.nul hp) (hx'.nul hp) (hx.1.trans hx'.1.symm)]
  exact and_iff_right (hx.trans hx'.symm)

/-- The type of a section does not depend on how its name is written. -/
theorem Spec.Conf.Typed.congr {type sec sec' name : List UInt8} (hp : 0 ∉ type) (h : Typed type sec name)
    (hs : Same sec sec') : ∃ name', Typed type sec' name' ∧ Same name name' := by
  obtain ⟨x, rfl, hx⟩ := h
  have hlen : type.length ≤ sec'.length := by
    have := hs.1; rw [List.length_append, hx.1] at this; omega
  have e : sec' = sec'.take type.length ++ sec'.drop type.length := (List.take_append_drop _ _).symm
  have ht : (sec'.take type.length).length = x.length := by rw [hx.1]; simp; omega
  have : Same x (sec'.take type.length) ∧ Same name (sec'.drop type.length) := by
    rw [e] at hs
    have hx0 := hx.nul hp
    generalize sec'.take type.length = t at *
    generalize sec'.drop type.length = d at *
    clear e hlen hx hp
    induction x generalizing t with
    | nil =>
      have : t = [] := List.eq_nil_of_length_eq_zero ht
      subst this; exact ⟨Same.rfl' _, hs⟩
    | cons a x ih =>
      cases t with
      | nil => cases ht
      | cons b t =>
        simp only [List.mem_cons, not_or] at hx0
        have ha : a ≠ 0 := fun h => hx0.1 h.symm
        have h2 := hs.symm
        rw [List.cons_append, List.cons_append, same_cons ha] at h2
        obtain ⟨h3, h4⟩ := ih hx0.2 t (by simpa using ht) h2.2.symm
        exact ⟨((same_cons ha).2 ⟨h2.1, h3.symm⟩).symm, h4⟩
  exact ⟨_, ⟨_, e, this.1.symm.trans hx⟩, this.2⟩

/-! ### Iteration -/

/-- The sections a pattern selects. -/
def selected (pre : List UInt8) (ss : List CfgSection) : List CfgSection :=
  ss.filter fun s => fnPrefix pre (cstrB s.name)

theorem getSections_short {pre : List UInt8} {ss : List CfgSection} (h : ∀ s ∈ ss, s.name.length < 100) :
    (getSections pre ss = .done ∧ selected pre ss = []) ∨
    ∃ s rest, getSections pre ss = .found s rest ∧ selected pre ss = s :: selected pre rest ∧
      (∀ t ∈ rest, t ∈ ss) ∧ rest.length < ss.length := by
  induction ss with
  | nil => exact Or.inl ⟨rfl, rfl⟩
  | cons s ss ih =>
    have h1 : ¬ s.name.length ≥ maxSectionName := by
      have := h s (by simp); unfold maxSectionName; omega
    simp only [getSections, if_neg h1, selected, List.filter_cons]
    by_cases hf : fnPrefix pre (cstrB s.name) = true
    · simp only [hf, if_true]
      exact Or.inr ⟨s, ss, rfl, rfl, fun t ht => by simp [ht], by simp⟩
    · simp only [hf]
      rcases ih fun t ht => h t (by simp [ht]) with ⟨h2, h3⟩ | ⟨t, rest, h2, h3, h4, h5⟩
      · exact Or.inl ⟨h2, h3⟩
      · exact Or.inr ⟨t, rest, h2, h3, fun t ht => by simp [h4 t ht], by simp; omega⟩

theorem visitSections_short {pre : List UInt8} {ss : List CfgSection} {n : Nat} (hn : ss.length ≤ n)
    (h : ∀ s ∈ ss, s.name.length < 100) : visitSections pre n ss = some (selected pre ss) := by
  induction n generalizing ss with
  | zero =>
    have : ss = [] := List.eq_nil_of_length_eq_zero (by omega)
    subst this; rfl
  | succ n ih =>
    simp only [visitSections]
    rcases getSections_short (pre := pre) h with ⟨h2, h3⟩ | ⟨s, rest, h2, h3, h4, h5⟩
    · rw [h2, h3]
    · rw [h2, h3]
      simp only
      rw [ih (by omega) fun t ht => h t (h4 t ht)]
      rfl

/-- The loop as a fold over the selected sections. -/
def foldBody (body : CfgSection → Config → Option Config) : List CfgSection → Config → Option Config
  | [], c => some c
  | s :: ss, c => (body s c).bind (foldBody body ss)

theorem forSections_short {pre : List UInt8} {body : CfgSection → Config → Option Config}
    {ss : List CfgSection} {n : Nat} (c : Config) (hn : ss.length ≤ n) (h : ∀ s ∈ ss, s.name.length < 100) :
    forSections pre body n ss c =
      match foldBody body (selected pre ss) c with
      | none => .err
      | some c => .ok c := by
  induction n generalizing ss c with
  | zero =>
    have : ss = [] := List.eq_nil_of_length_eq_zero (by omega)
    subst this; rfl
  | succ n ih =>
    simp only [forSections]
    rcases getSections_short (pre := pre) h with ⟨h2, h3⟩ | ⟨s, rest, h2, h3, h4, h5⟩
    · rw [h2, h3]; rfl
    · rw [h2, h3]
      simp only [foldBody]
      cases body s c with
      | none => rfl
      | some c => exact ih c (by omega) fun t ht => h t (h4 t ht)

theorem selected_mem {pre : List UInt8} (hp : 0 ∉ pre) {ss : List CfgSection} {s : CfgSection} :
    s ∈ selected pre ss ↔ s ∈ ss ∧ ∃ name, Typed pre s.name name := by
  unfold selected
  rw [List.mem_filter, fnPrefix_iff hp]

/-- Iterating the sections of files. -/
theorem selected_oneEach {pre : List UInt8} (hp : 0 ∉ pre) {ss : List CfgSection} {ds : List Decl}
    (hok : SectionsOk ss) (hd : ∀ sec, (∃ s ∈ ss, Same s.name sec) ↔ Declared ds sec) :
    OneEach pre ds ((selected pre ss).map fun s => s.name.drop pre.length) := by
  constructor
  · intro sec name h1 h2
    obtain ⟨s, hs, hn⟩ := (hd sec).2 h1
    obtain ⟨name', h3, h4⟩ := h2.congr hp hn.symm
    refine ⟨name', ?_, h4.symm⟩
    rw [List.mem_map]
    exact ⟨s, (selected_mem hp).2 ⟨hs, _, h3⟩, h3.drop⟩
  · intro n hn
    rw [List.mem_map] at hn
    obtain ⟨s, hs, rfl⟩ := hn
    obtain ⟨h1, name, h2⟩ := (selected_mem hp).1 hs
    exact ⟨s.name, (hd _).1 ⟨s, h1, Same.rfl' _⟩, by rw [h2.drop]; exact h2⟩
  · rw [List.pairwise_map]
    have h1 : (selected pre ss).Pairwise fun a b => ¬ Same a.name b.name := hok.distinct.filter _
    refine List.Pairwise.imp_of_mem ?_ h1
    intro a b ha hb hab hs
    obtain ⟨_, na, h2⟩ := (selected_mem hp).1 ha
    obtain ⟨_, nb, h3⟩ := (selected_mem hp).1 hb
    rw [h2.drop, h3.drop] at hs
    exact hab ((h2.same hp h3).2 hs)

/-! ### Options -/

theorem extract_append {α : Type} (find : List UInt8 → Option (List UInt8)) (as bs : List (Opt α)) (a : α) :
    extract find (as ++ bs) a = (extract find as a).bind (extract find bs) := by
  induction as generalizing a with
  | nil => rfl
  | cons o as ih =>
    simp only [List.cons_append, extract]
    cases find o.key with
    | none =>
      simp only
      split
      · rfl
      · exact ih a
    | some v =>
      simp only
      cases o.parse v a with
      | none => rfl
      | some a => exact ih a

theorem extract_lift {α β : Type} (find : List UInt8 → Option (List UInt8)) (os : List (Opt α)) (get : β → α)
    (set : α → β → β) (h1 : ∀ b, set (get b) b = b) (h2 : ∀ a b, get (set a b) = a)
    (h3 : ∀ a a' b, set a (set a' b) = set a b) (b : β) :
    extract find (os.map (Opt.lift get set)) b = (extract find os (get b)).map fun a => set a b := by
  induction os generalizing b with
  | nil => simp [extract, h1]
  | cons o os ih =>
    simp only [List.map_cons, extract, Opt.lift]
    cases find o.key with
    | none =>
      simp only
      split
      · rfl
      · exact ih b
    | some v =>
      simp only
      cases o.parse v (get b) with
      | none => rfl
      | some a =>
        simp only [Option.map_some]
        rw [ih, h2]
        simp [h3]

theorem extract_u32s {α : Type} {find : List UInt8 → Option (List UInt8)} {k : String} {get : α → List Nat}
    {set : List Nat → α → α} {os : List (Opt α)} {a : α} (h : set (get a) a = a) :
    extract find (optU32s k get set :: os) a =
      extract find os (set ((find (ascii k)).elim (get a) fun v => parseU32s v (get a)) a) := by
  simp only [extract, optU32s]
  cases find (ascii k) with
  | none => simp [h]
  | some v => rfl

theorem extract_u8s {α : Type} {find : List UInt8 → Option (List UInt8)} {k : String} {get : α → List UInt8}
    {set : List UInt8 → α → α} {os : List (Opt α)} {a : α} (h : set (get a) a = a) :
    extract find (optU8s k get set :: os) a =
      extract find os (set ((find (ascii k)).elim (get a) fun v => parseU8s v (get a)) a) := by
  simp only [extract, optU8s]
  cases find (ascii k) with
  | none => simp [h]
  | some v => rfl

theorem extract_req {α : Type} {find : List UInt8 → Option (List UInt8)} {k : String}
    {set : List UInt8 → α → α} {os : List (Opt α)} {a b : α} :
    extract find (optStr k true set :: os) a = some b ↔
      ∃ v, find (ascii k) = some v ∧ extract find os (set v a) = some b := by
  simp only [extract, optStr]
  cases find (ascii k) with
  | none => simp
  | some v => simp

theorem extract_str {α : Type} {find : List UInt8 → Option (List UInt8)} {k : String}
    {set : List UInt8 → α → α} {os : List (Opt α)} {a : α} (cur : List UInt8) (h : set cur a = a) :
    extract find (optStr k false set :: os) a = extract find os (set ((find (ascii k)).getD cur) a) := by
  simp only [extract, optStr]
  cases find (ascii k) with
  | none => simp [h]
  | some v => rfl

theorem extract_val_req {α β : Type} {find : List UInt8 → Option (List UInt8)} {k : String}
    {parse : List UInt8 → Option β} {set : β → α → α} {os : List (Opt α)} {a b : α} :
    extract find (optVal k true parse set :: os) a = some b ↔
      ∃ v x, find (ascii k) = some v ∧ parse v = some x ∧ extract find os (set x a) = some b := by
  simp only [extract, optVal]
  cases find (ascii k) with
  | none => simp
  | some v =>
    simp only [Option.some.injEq]
    cases hx : parse v with
    | none =>
      simp only [Option.map_none]
      constructor
      · intro h; cases h
      · rintro ⟨v', x, rfl, h, _⟩; rw [hx] at h; cases h
    | some x =>
      simp only [Option.map_some]
      constructor
      · intro h; exact ⟨v, x, rfl, hx, h⟩
      · rintro ⟨v', x', rfl, h, h'⟩; rw [hx] at h; cases h; exact h'

/-- An option with a default: the value `x` it gets. -/
def Given {β : Type} (v : Option (List UInt8)) (parse : List UInt8 → Option β) (dflt x : β) : Prop :=
  match v with
  | none => x = dflt
  | some v => parse v = some x

theorem extract_val {α β : Type} {find : List UInt8 → Option (List UInt8)} {k : String}
    {parse : List UInt8 → Option β} {set : β → α → α} {os : List (Opt α)} {a b : α} (cur : β)
    (h : set cur a = a) :
    extract find (optVal k false parse set :: os) a = some b ↔
      ∃ x, Given (find (ascii k)) parse cur x ∧ extract find os (set x a) = some b := by
  simp only [extract, optVal]
  cases find (ascii k) with
  | none => simp [Given, h]
  | some v =>
    simp only [Given]
    cases parse v with
    | none => simp
    | some x => simp

/-- The filters extracted, starting from given ones. -/
def filtersOf (find : List UInt8 → Option (List UInt8)) (f : Filters) : Filters :=
  { allowOutMsg := (find (ascii "AllowMsgIdOut")).elim f.allowOutMsg fun v => parseU32s v f.allowOutMsg
    blockOutMsg := (find (ascii "BlockMsgIdOut")).elim f.blockOutMsg fun v => parseU32s v f.blockOutMsg
    allowOutComp := (find (ascii "AllowSrcCompOut")).elim f.allowOutComp fun v => parseU8s v f.allowOutComp
    blockOutComp := (find (ascii "BlockSrcCompOut")).elim f.blockOutComp fun v => parseU8s v f.blockOutComp
    allowOutSys := (find (ascii "AllowSrcSysOut")).elim f.allowOutSys fun v => parseU8s v f.allowOutSys
    blockOutSys := (find (ascii "BlockSrcSysOut")).elim f.blockOutSys fun v => parseU8s v f.blockOutSys
    allowInMsg := (find (ascii "AllowMsgIdIn")).elim f.allowInMsg fun v => parseU32s v f.allowInMsg
    blockInMsg := (find (ascii "BlockMsgIdIn")).elim f.blockInMsg fun v => parseU32s v f.blockInMsg
    allowInComp := (find (ascii "AllowSrcCompIn")).elim f.allowInComp fun v => parseU8s v f.allowInComp
    blockInComp := (find (ascii "BlockSrcCompIn")).elim f.blockInComp fun v => parseU8s v f.blockInComp
    allowInSys := (find (ascii "AllowSrcSysIn")).elim f.allowInSys fun v => parseU8s v f.allowInSys
    blockInSys := (find (ascii "BlockSrcSysIn")).elim f.blockInSys fun v => parseU8s v f.blockInSys }

theorem extract_filters (find : List UInt8 → Option (List UInt8)) (f : Filters) :
    extract find filterOpts f = some (filtersOf find f) := by
  unfold filterOpts
  rw [extract_u32s rfl, extract_u32s rfl, extract_u8s rfl, extract_u8s rfl, extract_u8s rfl, extract_u8s rfl,
    extract_u32s rfl, extract_u32s rfl, extract_u8s rfl, extract_u8s rfl, extract_u8s rfl, extract_u8s rfl]
  rfl

theorem idsAre {v : Option (List UInt8)} : IdsAre v (v.elim [] fun t => parseU32s t []) := by
  refine ⟨?_, ?_⟩
  · rintro rfl; rfl
  · rintro items ns rfl h hr
    have := C60_uint32_partial items ns [] h hr
    simpa using this

theorem bytesAre {v : Option (List UInt8)} : BytesAre v (v.elim [] fun t => parseU8s t []) := by
  refine ⟨?_, ?_⟩
  · rintro rfl; rfl
  · rintro items ns rfl h hr
    obtain ⟨h1, h2⟩ := C60_uint8_partial items ns [] h hr
    simp only [Option.elim_some, h1, List.nil_append, h2]

theorem filtersAre (find : List UInt8 → Option (List UInt8)) (f : Filters) (h : f = { allowOutMsg := f.allowOutMsg }) :
    FiltersAre (fun k => find (ascii k)) (filtersOf find f) := by
  rw [h]
  exact ⟨idsAre, bytesAre, bytesAre, bytesAre, bytesAre, idsAre, idsAre, bytesAre, bytesAre, bytesAre, bytesAre⟩

theorem extract_mid {α : Type} {find : List UInt8 → Option (List UInt8)} {as bs : List (Opt α)}
    {get : α → Filters} {set : Filters → α → α} {a o : α} (h1 : ∀ b, set (get b) b = b)
    (h2 : ∀ a b, get (set a b) = a) (h3 : ∀ a a' b, set a (set a' b) = set a b) :
    extract find (as ++ filterOpts.map (Opt.lift get set) ++ bs) a = some o ↔
      ∃ b, extract find as a = some b ∧ extract find bs (set (filtersOf find (get b)) b) = some o := by
  rw [extract_append, extract_append, Option.bind_assoc, Option.bind_eq_some_iff]
  constructor
  · rintro ⟨b, hb, h⟩
    refine ⟨b, hb, ?_⟩
    rwa [extract_lift _ _ _ _ h1 h2 h3, extract_filters] at h
  · rintro ⟨b, hb, h⟩
    refine ⟨b, hb, ?_⟩
    rwa [extract_lift _ _ _ _ h1 h2 h3, extract_filters]

theorem extract_uart {find : List UInt8 → Option (List UInt8)} {name : List UInt8} {o : UartConf}
    (h : extract find uartOpts { name } = some o) :
    o.name = name ∧ find (ascii "device") = some o.device ∧
    o.baud = ((find (ascii "baud")).elim [] fun v => parseU32s v []) ∧
    Given (find (ascii "FlowControl")) parseBool false o.flow ∧
    o.filters = filtersOf find {} ∧ o.group = (find (ascii "group")).getD [] := by
  unfold uartOpts at h
  rw [extract_mid (by intros; rfl) (by intros; rfl) (by intros; rfl)] at h
  obtain ⟨b, hb, ho⟩ := h
  rw [extract_u32s rfl, extract_req] at hb
  obtain ⟨v, hv, hb⟩ := hb
  rw [extract_val false rfl] at hb
  obtain ⟨x, hx, hb⟩ := hb
  simp only [extract, Option.some.injEq] at hb
  subst hb
  rw [extract_str [] rfl] at ho
  simp only [extract, Option.some.injEq] at ho
  subst ho
  exact ⟨rfl, hv, rfl, hx, rfl, rfl⟩

theorem extract_udp {find : List UInt8 → Option (List UInt8)} {name : List UInt8} {port : Nat} {o : UdpConf}
    (h : extract find udpOpts { name, port } = some o) :
    o.name = name ∧ find (ascii "address") = some o.address ∧
    (∃ t, find (ascii "mode") = some t ∧ parseUdpMode t = some o.mode) ∧
    Given (find (ascii "port")) parseUl port o.port ∧
    o.filters = filtersOf find { allowOutMsg := (find (ascii "filter")).elim [] fun v => parseU32s v [] } ∧
    o.group = (find (ascii "group")).getD [] := by
  unfold udpOpts at h
  rw [extract_mid (by intros; rfl) (by intros; rfl) (by intros; rfl)] at h
  obtain ⟨b, hb, ho⟩ := h
  rw [extract_req] at hb
  obtain ⟨v, hv, hb⟩ := hb
  rw [extract_val_req] at hb
  obtain ⟨t, m, ht, hm, hb⟩ := hb
  rw [extract_val port rfl] at hb
  obtain ⟨x, hx, hb⟩ := hb
  rw [extract_u32s rfl] at hb
  simp only [extract, Option.some.injEq] at hb
  subst hb
  rw [extract_str [] rfl] at ho
  simp only [extract, Option.some.injEq] at ho
  subst ho
  exact ⟨rfl, hv, ⟨t, ht, hm⟩, hx, rfl, rfl⟩

theorem extract_tcp {find : List UInt8 → Option (List UInt8)} {name : List UInt8} {port : Nat} {o : TcpConf}
    (h : extract find tcpOpts { name, port } = some o) :
    o.name = name ∧ find (ascii "address") = some o.address ∧
    (∃ t, find (ascii "port") = some t ∧ parseUl t = some o.port) ∧
    Given (find (ascii "RetryTimeout")) parseI 5 o.retry ∧
    o.filters = filtersOf find {} ∧ o.group = (find (ascii "group")).getD [] := by
  unfold tcpOpts at h
  rw [extract_mid (by intros; rfl) (by intros; rfl) (by intros; rfl)] at h
  obtain ⟨b, hb, ho⟩ := h
  rw [extract_req] at hb
  obtain ⟨v, hv, hb⟩ := hb
  rw [extract_val_req] at hb
  obtain ⟨t, p, ht, hp, hb⟩ := hb
  rw [extract_val 5 rfl] at hb
  obtain ⟨x, hx, hb⟩ := hb
  simp only [extract, Option.some.injEq] at hb
  subst hb
  rw [extract_str [] rfl] at ho
  simp only [extract, Option.some.injEq] at ho
  subst ho
  exact ⟨rfl, hv, ⟨t, ht, hp⟩, hx, rfl, rfl⟩

/-! ### Endpoints of the sections -/

theorem optValue_key {cs : List CfgOpt} {key key' : List UInt8} (h : Same key key') :
    optValue cs key = optValue cs key' := by
  unfold optValue
  induction cs with
  | nil => rfl
  | cons c cs ih =>
    rw [findConfig_cons, findConfig_cons]
    by_cases hc : Same key c.key
    · rw [if_pos hc, if_pos (h.symm.trans hc)]
    · rw [if_neg hc, if_neg fun h' => hc (h.trans h')]; exact ih

/-- The value of a key in a section of the list is the one set last. -/
theorem find_lastSet {ss : List CfgSection} {ds : List Decl} (hok : SectionsOk ss)
    (hv : ∀ sec key, confValue ss sec key = lastSet ds sec key) {s : CfgSection} (hs : s ∈ ss)
    (key : List UInt8) : (findConfig key s.configs).map (·.value) = lastSet ds s.name key := by
  obtain ⟨pre, post, rfl⟩ := List.append_of_mem hs
  have := confValue_mid hok.distinct s.name key
  rw [if_pos (Same.rfl' _)] at this
  rw [← hv, this]; rfl

/-- What a section says, for keys as the specification spells them. -/
def valOf (ds : List Decl) (sec : List UInt8) : String → Option (List UInt8) := fun k => lastSet ds sec (ascii k)

theorem uartAsked {find : List UInt8 → Option (List UInt8)} {name : List UInt8} {o o' : UartConf}
    {val : String → Option (List UInt8)} (hval : ∀ k, val k = find (ascii k))
    (hk : ∀ k k', Same k k' → find k = find k') (h : extract find uartOpts { name } = some o)
    (ho : o' = if o.baud = [] then { o with baud := [115200] } else o) :
    UartAsked val o' ∧ o'.name = name := by
  obtain ⟨h1, h2, h3, h4, h5, h6⟩ := extract_uart h
  have hval' : val = fun k => find (ascii k) := funext hval
  subst hval'
  rw [hk _ _ (show Same (ascii "device") (ascii "Device") by decide)] at h2
  rw [hk _ _ (show Same (ascii "baud") (ascii "Baud") by decide)] at h3
  rw [hk _ _ (show Same (ascii "group") (ascii "Group") by decide)] at h6
  have e : o' = { o with baud := o'.baud } := by rw [ho]; split <;> rfl
  have hf : o'.filters = filtersOf find {} := by rw [e]; exact h5
  refine ⟨⟨?_, ⟨?_, ?_⟩, ?_, ?_, ?_, ?_⟩, ?_⟩
  · rw [e]; exact h2
  · intro hn; rw [hn] at h3; rw [ho, h3]; rfl
  · intro items ns hn hi hne hr
    have h7 := C60_uint32_partial items ns [] hi hr
    rw [hn, Option.elim_some, h7, List.nil_append] at h3
    rw [ho, h3, if_neg hne]; exact h3
  · rw [e]
    refine ⟨?_, ?_, ?_⟩
    · intro hn; rw [hn] at h4; exact h4
    · intro t hn hs
      rw [hn] at h4
      rcases (C59_bool _ _).1 h4 with ⟨_, h⟩ | ⟨h, _⟩ | ⟨h, _⟩
      · exact h
      · exact absurd hs h
      · exact absurd hs h
    · intro t hn hs
      rw [hn] at h4
      rcases (C59_bool _ _).1 h4 with ⟨h, _⟩ | ⟨_, _, h⟩ | ⟨_, h, _⟩
      · exact absurd (h.trans hs.symm) (by decide)
      · exact h
      · exact absurd hs h
  · rw [hf]; exact idsAre
  · rw [hf]; exact filtersAre find {} rfl
  · rw [e]; exact h6
  · rw [e]; exact h1

theorem parseUl_decimal {t : List UInt8} {n : Nat} (h : Decimal t n) (hn : n < 2 ^ 64) : parseUl t = some n := by
  rw [C59_decimal_partial t n h.1 h.2, if_pos hn]

theorem parseI_decimal {t : List UInt8} {n : Nat} (h : Decimal t n) (hn : n < 2 ^ 31) : parseI t = some (n : Int) := by
  rw [C59_int]
  refine ⟨false, n, ?_, by simp, by omega, by omega⟩
  have hs : t.takeWhile (· != 0) = t := cstrB_id (numeral_nul h.1)
  rw [hs]; exact numeral10_cnumber h.1 h.2

theorem udpAsked {find : List UInt8 → Option (List UInt8)} {name : List UInt8} {o o' : UdpConf}
    {val : String → Option (List UInt8)} (hval : ∀ k, val k = find (ascii k))
    (hk : ∀ k k', Same k k' → find k = find k') {port : Nat}
    (h : extract find udpOpts { name, port := ulongMax } = some o)
    (ho : o' = if o.mode = .client ∧ o.port = ulongMax then { o with port := port } else o) :
    UdpAsked val o' ∧ o'.name = name := by
  obtain ⟨h1, h2, ⟨t, h3, h3'⟩, h4, h5, h6⟩ := extract_udp h
  have hval' : val = fun k => find (ascii k) := funext hval
  subst hval'
  rw [hk _ _ (show Same (ascii "address") (ascii "Address") by decide)] at h2
  rw [hk _ _ (show Same (ascii "mode") (ascii "Mode") by decide)] at h3
  rw [hk _ _ (show Same (ascii "port") (ascii "Port") by decide)] at h4
  rw [hk _ _ (show Same (ascii "filter") (ascii "Filter") by decide)] at h5
  rw [hk _ _ (show Same (ascii "group") (ascii "Group") by decide)] at h6
  have e : o' = { o with port := o'.port } := by rw [ho]; split <;> rfl
  have hf := h5
  have hf' : o'.filters = o.filters := by rw [e]
  refine ⟨⟨?_, ⟨t, h3, ?_⟩, ?_, ?_, ?_, ?_⟩, ?_⟩
  · rw [e]; exact h2
  · rw [e]
    unfold parseUdpMode at h3'
    by_cases c1 : Same t (ascii "normal")
    · rw [if_pos ((memCaseEq_iff _ _).2 c1)] at h3'
      exact Or.inl ⟨c1, (Option.some.inj h3').symm⟩
    · rw [if_neg (by simpa using memCaseEq_false.2 c1)] at h3'
      by_cases c2 : Same t (ascii "eavesdropping")
      · rw [if_pos ((memCaseEq_iff _ _).2 c2)] at h3'
        exact Or.inr ⟨Or.inr c2, (Option.some.inj h3').symm⟩
      · rw [if_neg (by simpa using memCaseEq_false.2 c2)] at h3'
        by_cases c3 : Same t (ascii "server")
        · rw [if_pos ((memCaseEq_iff _ _).2 c3)] at h3'
          exact Or.inr ⟨Or.inl c3, (Option.some.inj h3').symm⟩
        · rw [if_neg (by simpa using memCaseEq_false.2 c3)] at h3'
          cases h3'
  · intro t n hn hd hlt
    rw [hn] at h4
    have h7 : parseUl t = some o.port := h4
    rw [parseUl_decimal hd (by omega)] at h7
    have h8 := Option.some.inj h7
    rw [ho, if_neg]
    · exact h8.symm
    · rintro ⟨_, h9⟩; unfold ulongMax at h9; omega
  · rw [hf', hf]
    refine ⟨_, (find (ascii "AllowMsgIdOut")).elim [] fun v => parseU32s v [], idsAre, idsAre, ?_⟩
    simp only [filtersOf]
    cases find (ascii "AllowMsgIdOut") with
    | none => simp
    | some v => simp [parseU32s]
  · rw [hf', hf]; exact filtersAre find _ rfl
  · rw [e]; exact h6
  · rw [e]; exact h1

theorem tcpAsked {find : List UInt8 → Option (List UInt8)} {name : List UInt8} {o : TcpConf} {port : Nat}
    {val : String → Option (List UInt8)} (hval : ∀ k, val k = find (ascii k))
    (hk : ∀ k k', Same k k' → find k = find k') (h : extract find tcpOpts { name, port } = some o) :
    TcpAsked val o ∧ o.name = name := by
  obtain ⟨h1, h2, ⟨t, h3, h3'⟩, h4, h5, h6⟩ := extract_tcp h
  have hval' : val = fun k => find (ascii k) := funext hval
  subst hval'
  rw [hk _ _ (show Same (ascii "address") (ascii "Address") by decide)] at h2
  rw [hk _ _ (show Same (ascii "port") (ascii "Port") by decide)] at h3
  rw [hk _ _ (show Same (ascii "group") (ascii "Group") by decide)] at h6
  refine ⟨⟨h2, ⟨⟨t, h3⟩, ?_, ?_⟩, ⟨?_, ?_⟩, ?_, ?_, h6⟩, h1⟩
  · intro hn; rw [h3] at hn; cases hn
  · intro t' n hn hd hlt
    rw [h3] at hn; cases hn
    rw [parseUl_decimal hd hlt] at h3'
    exact (Option.some.inj h3').symm
  · intro hn; rw [hn] at h4; exact h4
  · intro t' n hn hd hlt
    rw [hn] at h4
    have h7 : parseI t' = some o.retry := h4
    rw [parseI_decimal hd hlt] at h7
    exact (Option.some.inj h7).symm
  · rw [h5]; exact idsAre
  · rw [h5]; exact filtersAre find {} rfl

/-! ### The loops of `parse_confs` -/

theorem getSections_cases (pre : List UInt8) (ss : List CfgSection) :
    getSections pre ss = .ub ∨ (getSections pre ss = .done ∧ ∀ s ∈ ss, s.name.length < 100) ∨
    ∃ skip s rest, getSections pre ss = .found s rest ∧ ss = skip ++ s :: rest ∧
      ∀ t ∈ skip ++ [s], t.name.length < 100 := by
  induction ss with
  | nil => exact Or.inr (Or.inl ⟨rfl, by simp⟩)
  | cons s ss ih =>
    by_cases h1 : s.name.length ≥ maxSectionName
    · left; simp [getSections, h1]
    · have hs : s.name.length < 100 := by unfold maxSectionName at h1; omega
      have e : getSections pre (s :: ss) =
          if fnPrefix pre (cstrB s.name) = true then .found s ss else getSections pre ss := by
        simp only [getSections, if_neg h1]
      rw [e]
      by_cases hf : fnPrefix pre (cstrB s.name) = true
      · rw [if_pos hf]
        exact Or.inr (Or.inr ⟨[], s, ss, rfl, rfl, by simpa using hs⟩)
      · rw [if_neg hf]
        rcases ih with h | ⟨h, h'⟩ | ⟨skip, t, rest, h, h', h''⟩
        · exact Or.inl h
        · exact Or.inr (Or.inl ⟨h, by intro t ht; rcases List.mem_cons.1 ht with rfl | ht; exact hs; exact h' t ht⟩)
        · refine Or.inr (Or.inr ⟨s :: skip, t, rest, h, by rw [h']; rfl, ?_⟩)
          intro u hu
          rcases List.mem_cons.1 hu with rfl | hu
          · exact hs
          · exact h'' u hu

theorem forSections_ok_short {pre : List UInt8} {body : CfgSection → Config → Option Config}
    {ss : List CfgSection} {n : Nat} {c c' : Config} (hn : ss.length ≤ n)
    (h : forSections pre body n ss c = .ok c') : ∀ s ∈ ss, s.name.length < 100 := by
  induction n generalizing ss c with
  | zero =>
    have : ss = [] := List.eq_nil_of_length_eq_zero (by omega)
    subst this; simp
  | succ n ih =>
    simp only [forSections] at h
    rcases getSections_cases pre ss with h1 | ⟨_, h1⟩ | ⟨skip, s, rest, h1, h2, h3⟩
    · rw [h1] at h; cases h
    · exact h1
    · rw [h1] at h
      simp only at h
      cases hb : body s c with
      | none => rw [hb] at h; cases h
      | some c2 =>
        rw [hb] at h
        have := ih (by rw [h2] at hn; simp at hn; omega) h
        intro t ht
        rw [h2, List.append_cons] at ht
        rcases List.mem_append.1 ht with ht | ht
        · exact h3 t ht
        · exact this t ht

theorem forSections_ok {pre : List UInt8} {body : CfgSection → Config → Option Config}
    {ss : List CfgSection} {c c' : Config} (h : forSections pre body ss.length ss c = .ok c') :
    foldBody body (selected pre ss) c = some c' := by
  rw [forSections_short c (Nat.le_refl _) (forSections_ok_short (Nat.le_refl _) h)] at h
  cases hf : foldBody body (selected pre ss) c with
  | none => rw [hf] at h; cases h
  | some c2 => rw [hf] at h; cases h; rfl

/-- `find` of a section. -/
def findIn (s : CfgSection) (k : List UInt8) : Option (List UInt8) := (findConfig k s.configs).map (·.value)

/-- A UART endpoint made from a section. -/
def UartFrom (s : CfgSection) (o : UartConf) : Prop :=
  o.valid = true ∧ ∃ o', extract (findIn s) uartOpts { name := s.name.drop uartPrefix.length } = some o' ∧
    o = if o'.baud = [] then { o' with baud := [115200] } else o'

/-- A UDP endpoint made from a section, with the port to use if there is none. -/
def UdpFrom (port : List UInt8 → Nat) (s : CfgSection) (o : UdpConf) : Prop :=
  o.valid = true ∧ ∃ o', extract (findIn s) udpOpts { name := s.name.drop udpPrefix.length, port := ulongMax } = some o' ∧
    o = if o'.mode = .client ∧ o'.port = ulongMax then { o' with port := port o'.address } else o'

/-- A TCP endpoint made from a section. -/
def TcpFrom (s : CfgSection) (o : TcpConf) : Prop :=
  o.valid = true ∧ extract (findIn s) tcpOpts { name := s.name.drop tcpPrefix.length, port := ulongMax } = some o

theorem foldBody_uart {L : List CfgSection} {c c' : Config} (h : foldBody uartSection L c = some c') :
    ∃ us, c' = { c with uart := c.uart ++ us } ∧ EachTo UartFrom L us := by
  induction L generalizing c with
  | nil => simp only [foldBody, Option.some.injEq] at h; subst h; exact ⟨[], by simp, .nil⟩
  | cons s L ih =>
    simp only [foldBody, Option.bind_eq_some_iff] at h
    obtain ⟨c1, h1, h2⟩ := h
    unfold uartSection at h1
    cases ho : extractIter s uartOpts { name := s.name.drop uartPrefix.length } with
    | none => rw [ho] at h1; cases h1
    | some o =>
      rw [ho] at h1
      simp only at h1
      generalize hg : (if o.baud = [] then { o with baud := [115200] } else o) = o2 at h1
      split at h1
      · cases h1
      · next hv =>
        cases h1
        obtain ⟨us, rfl, h3⟩ := ih h2
        exact ⟨_ :: us, by simp, .cons ⟨by simpa using hv, o, ho, hg.symm⟩ h3⟩

theorem foldBody_tcp {L : List CfgSection} {c c' : Config} (h : foldBody tcpSection L c = some c') :
    ∃ us, c' = { c with tcp := c.tcp ++ us } ∧ EachTo TcpFrom L us := by
  induction L generalizing c with
  | nil => simp only [foldBody, Option.some.injEq] at h; subst h; exact ⟨[], by simp, .nil⟩
  | cons s L ih =>
    simp only [foldBody, Option.bind_eq_some_iff] at h
    obtain ⟨c1, h1, h2⟩ := h
    unfold tcpSection at h1
    cases ho : extractIter s tcpOpts { name := s.name.drop tcpPrefix.length, port := ulongMax } with
    | none => rw [ho] at h1; cases h1
    | some o =>
      rw [ho] at h1
      simp only at h1
      split at h1
      · cases h1
      · next hv =>
        cases h1
        obtain ⟨us, rfl, h3⟩ := ih h2
        exact ⟨_ :: us, by simp, .cons ⟨by simpa using hv, ho⟩ h3⟩

/-- UDP endpoints one after the other; the automatic port depends on the earlier ones. -/
inductive UdpsFrom : List UdpConf → List CfgSection → List UdpConf → Prop
  | nil {prev} : UdpsFrom prev [] []
  | cons {prev s o L us} : UdpFrom (fun a => findNextUdpPort a prev) s o → UdpsFrom (prev ++ [o]) L us →
      UdpsFrom prev (s :: L) (o :: us)

theorem foldBody_udp {L : List CfgSection} {c c' : Config} (h : foldBody udpSection L c = some c') :
    ∃ us, c' = { c with udp := c.udp ++ us } ∧ UdpsFrom c.udp L us := by
  induction L generalizing c with
  | nil => simp only [foldBody, Option.some.injEq] at h; subst h; exact ⟨[], by simp, .nil⟩
  | cons s L ih =>
    simp only [foldBody, Option.bind_eq_some_iff] at h
    obtain ⟨c1, h1, h2⟩ := h
    unfold udpSection at h1
    cases ho : extractIter s udpOpts { name := s.name.drop udpPrefix.length, port := ulongMax } with
    | none => rw [ho] at h1; cases h1
    | some o =>
      rw [ho] at h1
      simp only at h1
      generalize hg : (if o.mode = .client ∧ o.port = ulongMax then
        { o with port := findNextUdpPort o.address c.udp } else o) = o2 at h1
      split at h1
      · cases h1
      · next hv =>
        cases h1
        obtain ⟨us, rfl, h3⟩ := ih h2
        exact ⟨_ :: us, by simp, .cons ⟨by simpa using hv, o, ho, hg.symm⟩ h3⟩

theorem UdpsFrom.each {prev : List UdpConf} {L : List CfgSection} {us : List UdpConf} (h : UdpsFrom prev L us) :
    EachTo (fun s o => ∃ port, UdpFrom port s o) L us := by
  induction h with
  | nil => exact .nil
  | cons h _ ih => exact .cons ⟨_, h⟩ ih

theorem extract_same_fields {c c' : Config} {ss : List CfgSection}
    (h : extractNamed ss (ascii "General") globalOpts c = some c') :
    c'.uart = c.uart ∧ c'.udp = c.udp ∧ c'.tcp = c.tcp ∧ c'.log = c.log := by
  have hex : ∀ find : List UInt8 → Option (List UInt8), ∀ c c' : Config, extract find globalOpts c = some c' →
      c'.uart = c.uart ∧ c'.udp = c.udp ∧ c'.tcp = c.tcp ∧ c'.log = c.log := by
    intro find c c' h
    unfold globalOpts at h
    rw [extract_val c.tcpPort rfl] at h
    obtain ⟨x1, _, h⟩ := h
    rw [extract_val c.stats rfl] at h
    obtain ⟨x2, _, h⟩ := h
    rw [extract_val c.level rfl] at h
    obtain ⟨x3, _, h⟩ := h
    rw [extract_val c.dedupMs rfl] at h
    obtain ⟨x4, _, h⟩ := h
    rw [extract_val c.sniffer rfl] at h
    obtain ⟨x5, _, h⟩ := h
    simp only [extract, Option.some.injEq] at h
    subst h
    exact ⟨rfl, rfl, rfl, rfl⟩
  unfold extractNamed at h
  split at h
  · split at h
    · cases h
    · cases h; exact ⟨rfl, rfl, rfl, rfl⟩
  · exact hex _ _ _ h

theorem readConfig_ok {ss : List CfgSection} {c c' : Config} (h : readConfig ss c = .ok c') :
    (∀ s ∈ ss, s.name.length < 100) ∧
    (∃ us, c'.uart = c.uart ++ us ∧ EachTo UartFrom (selected uartPrefix ss) us) ∧
    (∃ us, c'.udp = c.udp ++ us ∧ UdpsFrom c.udp (selected udpPrefix ss) us) ∧
    (∃ us, c'.tcp = c.tcp ++ us ∧ EachTo TcpFrom (selected tcpPrefix ss) us) := by
  unfold readConfig at h
  cases h1 : extractNamed ss (ascii "General") globalOpts c with
  | none => rw [h1] at h; cases h
  | some c1 =>
    rw [h1] at h
    simp only at h
    obtain ⟨e1, e2, e3, _⟩ := extract_same_fields h1
    cases h2 : extractNamed ss (ascii "General") logOpts c1.log with
    | none => rw [h2] at h; cases h
    | some l =>
      rw [h2] at h
      simp only at h
      cases h3 : forSections uartPrefix uartSection ss.length ss { c1 with log := l } with
      | ub => rw [h3] at h; cases h
      | err => rw [h3] at h; cases h
      | ok c3 =>
        rw [h3] at h
        simp only [ConfRes.bind] at h
        cases h4 : forSections udpPrefix udpSection ss.length ss c3 with
        | ub => rw [h4] at h; cases h
        | err => rw [h4] at h; cases h
        | ok c4 =>
          rw [h4] at h
          simp only at h
          obtain ⟨us, rfl, hu⟩ := foldBody_uart (forSections_ok h3)
          obtain ⟨vs, rfl, hv⟩ := foldBody_udp (forSections_ok h4)
          obtain ⟨ws, rfl, hw⟩ := foldBody_tcp (forSections_ok h)
          refine ⟨forSections_ok_short (Nat.le_refl _) h3, ⟨us, by simp [e1], hu⟩, ⟨vs, by simp [e2], ?_⟩,
            ⟨ws, by simp [e3], hw⟩⟩
          rw [← e2]; exact hv

end Verif
