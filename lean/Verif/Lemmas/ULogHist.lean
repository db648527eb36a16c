/- Whole histories of a ULog endpoint: what every step preserves, the format of the file. -/
import Verif.Lemmas.ULogProc

namespace Verif

open Spec (WholeMsg ULogFile dist Polite PoliteHeader Carries Arrivals)

theorem pkt_mem_length (env : LogEnv) (m : Msg) : (m.pkt env).mem.length = 520 := by
  simp [Msg.pkt]

theorem commandAck_cases (env : LogEnv) (u : ULog) (m : Msg) :
    u.commandAck env m = u ∨ ∃ b : LogBase, u.commandAck env m = { u with base := b } ∧
      b.file = u.base.file ∧ b.done = u.base.done := by
  unfold ULog.commandAck
  split
  · exact .inl rfl
  · split
    · exact .inr ⟨_, rfl, rfl, rfl⟩
    · exact .inr ⟨_, rfl, rfl, rfl⟩

/-- A property kept by start, stop and the processing of packets, and independent of the
bookkeeping of the endpoint, holds after every history. -/
theorem run_preserves (env : LogEnv) (P : ULog → Prop) (Q : Pkt → Prop)
    (hbase : ∀ (u : ULog) (b : LogBase), b.file = u.base.file → b.done = u.base.done → P u →
      P { u with base := b })
    (hstart : ∀ u : ULog, P u → P (u.start env).1)
    (hstop : ∀ u v : ULog, u.stop env = some v → P u → P v)
    (hproc : ∀ (u v : ULog) (p q : Pkt), p.mem.length = 520 → Q p →
      u.process env p = some (v, q) → P u → P v)
    (evs : List ULogEv) (hq : ∀ m, ULogEv.msg m ∈ evs → m.msgId = 266 ∨ m.msgId = 267 → Q (m.pkt env))
    (u v : ULog) (h : u.run env evs = some v) (hP : P u) : P v := by
  induction evs generalizing u with
  | nil =>
    simp only [ULog.run, Option.some.injEq] at h
    rw [← h]
    exact hP
  | cons ev evs ih =>
    simp only [ULog.run] at h
    cases hs : u.step env ev with
    | none => rw [hs] at h; cases h
    | some w =>
      rw [hs] at h
      refine ih (fun m hm => hq m (List.mem_cons_of_mem _ hm)) w h ?_
      have hrestart : ∀ a b : ULog, a.restart env = some b → P a → P b := by
        intro a b hab ha
        unfold ULog.restart at hab
        cases hst : a.stop env with
        | none => rw [hst] at hab; cases hab
        | some c =>
          rw [hst] at hab
          simp only [Option.some.injEq] at hab
          rw [← hab]
          exact hstart c (hstop a c hst ha)
      cases ev with
      | startTimeout =>
        simp only [ULog.step, Option.some.injEq] at hs
        rw [← hs]
        unfold ULog.startTimeout
        split
        · exact hbase u _ rfl rfl hP
        · exact hP
      | stop => exact hstop u w hs hP
      | aliveTimeout =>
        simp only [ULog.step] at hs
        unfold ULog.aliveTimeout at hs
        split at hs
        · cases hr : (if u.base.toTotal = u.base.wrTotal then u.restart env else some u) with
          | none => rw [hr] at hs; cases hs
          | some x =>
            rw [hr] at hs
            simp only [Option.map_some, Option.some.injEq] at hs
            rw [← hs]
            refine hbase x _ rfl rfl ?_
            split at hr
            · exact hrestart u x hr hP
            · simp only [Option.some.injEq] at hr
              rw [← hr]
              exact hP
        · simp only [Option.some.injEq] at hs
          rw [← hs]
          exact hP
      | msg m =>
        simp only [ULog.step] at hs
        unfold ULog.writeMsg at hs
        have hl : P { u with base := u.base.learnTarget m } := by
          refine hbase u _ ?_ ?_ hP
          · unfold LogBase.learnTarget
            split <;> rfl
          · unfold LogBase.learnTarget
            split <;> rfl
        cases hau : ULog.auto env { u with base := u.base.learnTarget m } m with
        | none => rw [hau] at hs; cases hs
        | some a =>
          rw [hau] at hs
          have ha : P a := by
            unfold ULog.auto at hau
            split at hau
            · simp only [Option.some.injEq] at hau
              rw [← hau]
              exact hl
            · have hst := hstart _ hl
              cases hsa : ULog.start env { u with base := u.base.learnTarget m } with
              | mk c ok =>
                rw [hsa] at hau hst
                cases ok with
                | true =>
                  simp only [Option.some.injEq] at hau
                  rw [← hau]
                  exact hst
                | false =>
                  simp only [Option.some.injEq] at hau
                  rw [← hau]
                  exact hbase c _ rfl rfl hst
            · exact hstop _ _ hau hl
          simp only at hs
          split at hs
          · simp only [Option.map_some, Option.some.injEq] at hs
            rw [← hs]
            exact ha
          · rename_i hid
            split at hs
            · simp only [Option.map_some, Option.some.injEq] at hs
              rw [← hs]
              exact ha
            · split at hs
              · simp only [Option.map_some, Option.some.injEq] at hs
                rw [← hs]
                rcases commandAck_cases env a m with e | ⟨b, e, e1, e2⟩
                · rw [e]
                  exact ha
                · rw [e]
                  exact hbase a b e1 e2 ha
              · rename_i h77
                have hQ : Q (m.pkt env) := by
                  refine hq m (List.mem_cons_self) ?_
                  by_cases h1 : m.msgId = 266
                  · exact .inl h1
                  · by_cases h2 : m.msgId = 267
                    · exact .inr h2
                    · exact absurd ⟨h77, h2, h1⟩ hid
                have hPb : P (a.acknowledge env m) := by
                  unfold ULog.acknowledge
                  split
                  · exact hbase a _ rfl rfl ha
                  · exact ha
                generalize a.acknowledge env m = b at hs hPb
                cases hp : b.process env (m.pkt env) with
                | none => rw [hp] at hs; cases hs
                | some r =>
                  obtain ⟨c, q⟩ := r
                  rw [hp] at hs
                  simp only [Option.map_some, Option.some.injEq] at hs
                  rw [← hs]
                  exact hbase c _ rfl rfl
                    (hproc b c _ q (pkt_mem_length env m) hQ hp hPb)

/-! ## File content -/

/-- Nothing went wrong that the program logs or cannot represent. -/
def ULogClean (u : ULog) : Prop := u.wrapped = false ∧ u.lost = false

/-- The open file is empty (header awaited) or, together with the remainder still to be written,
a ULog file; so are the closed files unless one was closed after a write error. -/
def FileOk (u : ULog) : Prop :=
  ULogClean u →
    (∀ c, u.base.file = some c → (u.waitHdr = true → c = [] ∧ u.part = []) ∧
      (u.waitHdr = false → ULogFile (c ++ u.part))) ∧
    (u.cut = false → ∀ c ∈ u.base.done, c = [] ∨ ULogFile c)

theorem FlushRel.clean {u v : ULog} (r : FlushRel u v) (h : ULogClean v) : ULogClean u :=
  ⟨false_of_mono r.wrapped h.1, false_of_mono r.lost h.2⟩

theorem ULogFile.append {c : List UInt8} {msgs : List (List UInt8)} (h : ULogFile c)
    (hm : ∀ m ∈ msgs, WholeMsg m) : ULogFile (c ++ msgs.flatten) := by
  obtain ⟨hdr, ms, h1, h2, h3, h4⟩ := h
  refine ⟨hdr, ms ++ msgs, by rw [h1, List.flatten_append, List.append_assoc], h2, h3, ?_⟩
  intro m hmem
  rcases List.mem_append.1 hmem with hmem | hmem
  · exact h4 m hmem
  · exact hm m hmem

theorem FileOk.flush {u v : ULog} (h : FileOk u) (r : FlushRel u v)
    (hw : u.waitHdr = true → u.pend = []) : FileOk v := by
  intro hc
  obtain ⟨h1, h2⟩ := h (r.clean hc)
  obtain ⟨msgs, hm, hp, hd⟩ := r.data hc.1 hc.2
  refine ⟨?_, ?_⟩
  · intro c' hc'
    cases hf : u.base.file with
    | none => rw [r.none hf] at hc'; cases hc'
    | some c =>
      obtain ⟨c2, e1, e2⟩ := hd c hf
      rw [hc'] at e1
      cases e1
      obtain ⟨h3, h4⟩ := h1 c hf
      rw [r.waitHdr]
      refine ⟨?_, ?_⟩
      · intro hwh
        obtain ⟨h5, h6⟩ := h3 hwh
        have hfl : msgs.flatten = [] := by
          have := hw hwh
          rw [this] at hp
          exact (List.append_eq_nil_iff.1 hp.symm).1
        rw [h5, h6, hfl] at e2
        simpa using e2
      · intro hwh
        rw [e2]
        exact ULogFile.append (h4 hwh) hm
  · intro hcut c hcd
    obtain ⟨f, n, hb⟩ := r.base
    rw [hb] at hcd
    rw [r.cut] at hcut
    exact h2 hcut c hcd

theorem FileOk.of_same {u v : ULog} (h : FileOk u) (h1 : v.base.file = u.base.file)
    (h2 : v.base.done = u.base.done) (h3 : v.part = u.part) (h4 : v.waitHdr = u.waitHdr)
    (h5 : v.wrapped = u.wrapped) (h6 : v.lost = u.lost) (h7 : v.cut = u.cut) : FileOk v := by
  intro hc
  rw [h1, h2, h3, h4, h7]
  exact h ⟨by rw [← h5]; exact hc.1, by rw [← h6]; exact hc.2⟩

theorem FileOk.afterLoss {env : LogEnv} {u v : ULog} {drops : Bool} (h : FileOk u)
    (hw : u.waitHdr = false) (r : u.afterLoss env drops = some v) :
    FileOk v ∧ v.waitHdr = false := by
  rcases afterLoss_spec env u v drops r with ⟨_, rfl⟩ | ⟨_, w, hr, rfl⟩
  · exact ⟨h, hw⟩
  · refine ⟨(h.flush hr (by simp [hw])).of_same rfl rfl rfl rfl rfl rfl rfl, ?_⟩
    show w.waitHdr = false
    rw [hr.waitHdr, hw]

theorem FileOk.makeRoom {u : ULog} {n : Nat} (h : FileOk u) (hw : u.waitHdr = false) :
    FileOk (u.makeRoom n) ∧ (u.makeRoom n).waitHdr = false := by
  rcases (makeRoom_spec u n).1 with ⟨e, _⟩ | ⟨e, _⟩ <;> rw [e] <;>
    exact ⟨h.of_same rfl rfl rfl rfl rfl rfl rfl, hw⟩

theorem FileOk.store {env : LogEnv} {u u' : ULog} {p q : Pkt} (h : FileOk u)
    (hw : u.waitHdr = false) (r : u.store env p = some (u', q)) :
    FileOk u' ∧ u'.waitHdr = false := by
  rcases store_spec env u u' p q r with ⟨_, _, rfl⟩ | ⟨_, rfl⟩ | ⟨hn, hl, hr⟩
  · exact ⟨h, hw⟩
  · exact ⟨h.of_same rfl rfl rfl rfl rfl rfl rfl, hw⟩
  · have h' : FileOk (stored u p) := h.of_same rfl rfl rfl rfl rfl rfl rfl
    have hw' : (stored u p).waitHdr = false := hw
    exact ⟨h'.flush hr (by rw [hw']; simp), by rw [hr.waitHdr, hw']⟩

theorem FileOk.append {env : LogEnv} {u u' : ULog} {p q : Pkt} {drops : Bool} (h : FileOk u)
    (hw : u.waitHdr = false) (r : u.append env p drops = some (u', q)) :
    FileOk u' ∧ u'.waitHdr = false := by
  unfold ULog.append at r
  cases ha : u.afterLoss env drops with
  | none => rw [ha] at r; cases r
  | some v =>
    rw [ha] at r
    obtain ⟨h1, h2⟩ := h.afterLoss hw ha
    obtain ⟨h3, h4⟩ := h1.makeRoom (n := p.length.toNat) h2
    exact h3.store h4 r

theorem FileOk.start {env : LogEnv} {u : ULog} (h : FileOk u) : FileOk (u.start env).1 := by
  unfold ULog.start LogBase.start
  cases hf : u.base.file with
  | some c =>
    simp only [Option.isSome_some, if_true]
    exact h
  | none =>
    simp only [Option.isSome_none, Bool.false_eq_true, if_false]
    split
    · rename_i b hb
      split at hb
      · simp only [Prod.mk.injEq, and_true] at hb
        intro hc
        obtain ⟨_, h2⟩ := h hc
        rw [← hb]
        refine ⟨?_, h2⟩
        intro c hc'
        simp only [Option.some.injEq] at hc'
        exact ⟨fun _ => ⟨hc'.symm, rfl⟩, fun hx => by simp at hx⟩
      · simp at hb
    · rename_i b hb
      split at hb
      · simp at hb
      · simp only [Prod.mk.injEq, and_true] at hb
        rw [← hb]
        exact h.of_same (hf ▸ rfl) rfl rfl rfl rfl rfl rfl

theorem FileOk.stop {env : LogEnv} {u v : ULog} (h : FileOk u) (r : u.stop env = some v) :
    FileOk v := by
  rcases stop_spec env u v r with ⟨_, rfl⟩ | ⟨w, c, hc, hr, rfl⟩
  · exact h
  · have h0 : FileOk (stopping u) := h.of_same rfl rfl rfl rfl rfl rfl rfl
    have h1 := h0.flush hr (fun _ => rfl)
    intro hcl
    obtain ⟨h2, h3⟩ := h1 hcl
    refine ⟨?_, ?_⟩
    · intro c' hc'
      simp [LogBase.stop] at hc'
    · intro hcut c' hc'
      simp only [Bool.or_eq_false_iff, Bool.not_eq_false', List.isEmpty_iff] at hcut
      simp only [LogBase.stop] at hc'
      cases hf : w.base.file with
      | none =>
        rw [hf] at hc'
        exact h3 hcut.1 c' hc'
      | some x =>
        rw [hf] at hc'
        rcases List.mem_append.1 hc' with hm | hm
        · exact h3 hcut.1 c' hm
        · simp only [List.mem_singleton] at hm
          subst hm
          obtain ⟨h4, h5⟩ := h2 c' hf
          cases hw : w.waitHdr with
          | true => exact .inl (h4 hw).1
          | false =>
            right
            have := h5 hw
            rwa [hcut.2, List.append_nil] at this

theorem FileOk.process {env : LogEnv} {u v : ULog} {p q : Pkt} (hmem : p.mem.length = 520)
    (h : FileOk u) (r : u.process env p = some (v, q)) : FileOk v := by
  unfold ULog.process at r
  cases hq : logSeq u.expSeq p.seq with
  | none =>
    rw [hq] at r
    simp only [Option.some.injEq, Prod.mk.injEq] at r
    rw [← r.1]
    exact h
  | some de =>
    obtain ⟨drops, exp⟩ := de
    rw [hq] at r
    simp only at r
    have h0 : FileOk { u with expSeq := exp } := h.of_same rfl rfl rfl rfl rfl rfl rfl
    split at r
    · rename_i hwh
      split at r
      · rename_i hbad
        unfold ULog.restart at r
        cases hst : ULog.stop env { u with expSeq := exp } with
        | none => rw [hst] at r; cases r
        | some w =>
          rw [hst] at r
          simp only [Option.map_some, Option.some.injEq, Prod.mk.injEq] at r
          rw [← r.1]
          exact (h0.stop hst).start
      · rename_i hgood
        have hmag : p.mem.take 7 = ulogMagic := by
          by_cases hc : p.mem.take 7 = ulogMagic
          · exact hc
          · exact absurd (.inr hc) hgood
        have h1 : FileOk (takeHeader { u with expSeq := exp } p).1 := by
          intro hc
          obtain ⟨h2, h3⟩ := h hc
          refine ⟨?_, h3⟩
          intro c hcf
          refine ⟨fun hx => by simp [takeHeader] at hx, fun _ => ?_⟩
          obtain ⟨h4, _⟩ := h2 c hcf
          obtain ⟨h5, _⟩ := h4 hwh
          refine ⟨p.mem.take 16, [], ?_, ?_, ?_, by simp⟩
          · rw [h5]
            simp [takeHeader, ulogHdr]
          · rw [List.length_take, hmem]
            rfl
          · rw [List.take_take]
            exact hmag
        exact (h1.append rfl r).1
    · rename_i hwh
      exact (h0.append (by simpa using hwh) r).1

theorem run_fileOk (env : LogEnv) (evs : List ULogEv) (u v : ULog) (h : u.run env evs = some v)
    (hu : FileOk u) : FileOk v :=
  run_preserves env FileOk (fun _ => True)
    (fun _ _ h1 h2 hP => hP.of_same h1 h2 rfl rfl rfl rfl rfl)
    (fun _ hP => hP.start) (fun _ _ hr hP => hP.stop hr)
    (fun _ _ _ _ hm _ hr hP => hP.process hm hr) evs (fun _ _ _ => trivial) u v h hu

theorem run_memOk (env : LogEnv) (evs : List ULogEv) (u v : ULog) (h : u.run env evs = some v)
    (hu : MemOk u) : MemOk v :=
  run_preserves env MemOk (fun _ => True)
    (fun _ _ _ _ hP => ⟨hP.buf, hP.part, hP.first⟩)
    (fun _ hP => hP.start) (fun _ _ hr hP => (hP.stop hr).1)
    (fun _ _ _ _ _ _ hr hP => (hP.process hr).1) evs (fun _ _ _ => trivial) u v h hu

end Verif
