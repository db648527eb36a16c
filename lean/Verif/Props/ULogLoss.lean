/- C115: what a PX4 log contains when packets get lost. -/
import Verif.Lemmas.ULogLoss
import Verif.Spec.ULogSamples

namespace Verif

open Spec

section
variable {hdr : List UInt8} {msgs chunks : List (List UInt8)} {got : List Nat}

/-- After the packet with the header. -/
theorem LossInv.first (hcut : Cut hdr msgs chunks) {u : ULog} (h : ULogTaken hdr msgs chunks 1 u) (hg : 0 ∈ got) :
    LossInv hdr msgs chunks got 1 u := by
  obtain ⟨hh, c, j0, hf, hc, hall, hinc, _⟩ := h.data (by omega)
  obtain ⟨j, hj, hje, hinc⟩ : ∃ j, j ≤ msgs.length ∧ msgs.take j0 = msgs.take j ∧
      (u.pend = [] ∨ ∃ m, msgs[j]? = some m ∧ u.pend.length < m.length) := by
    by_cases hle : j0 ≤ msgs.length
    · exact ⟨j0, hle, rfl, hinc⟩
    · refine ⟨msgs.length, Nat.le_refl _, ?_, ?_⟩
      · rw [List.take_of_length_le (by omega), List.take_of_length_le (by omega)]
      · rcases hinc with h | ⟨m, h, _⟩
        · exact .inl h
        · have := (List.getElem?_eq_some_iff.mp h).1; omega
  rw [hje] at hc hall
  have hl : msgAt hdr msgs j = (hdr ++ (msgs.take j).flatten).length := by rw [List.length_append]; rfl
  have hlen : chunkAt chunks 1 = msgAt hdr msgs j + u.pend.length := by
    have := congrArg List.length hall
    rw [List.length_append, ← hl] at this
    exact this.symm
  have hcov : ∀ x, x < chunkAt chunks 1 → ∃ n ∈ got, chunkAt chunks n ≤ x ∧ x < chunkAt chunks (n + 1) :=
    fun x hx => ⟨0, hg, by simp [chunkAt], hx⟩
  have hpe : u.pend = piece hdr msgs chunks j 1 := by
    unfold piece
    rw [stream_take hcut, ← hall, hl, List.drop_append_of_le_length (Nat.le_refl _), List.drop_length, List.nil_append]
  refine ⟨h.exp, hh, h.part, c, j, hf, ?_, hj, .inl ⟨h.first, ⟨by omega, hpe, fun x _ hx => hcov x hx⟩, ?_⟩⟩
  · rw [hc]
    have := arrivedMsgs_run (hdr := hdr) (msgs := msgs) (chunks := chunks) (got := got) (j := 0) j (fun l _ hl2 => ⟨by omega, fun x _ hx2 => hcov x (by
      have := msgAt_mono hdr msgs (show l + 1 ≤ j by omega); omega)⟩)
    rw [Nat.zero_add] at this
    rw [this]
    simp [arrivedMsgs]
  · intro i hi hil
    have hjl : j < msgs.length := by omega
    have hs := msgAt_succ (hdr := hdr) (List.getElem?_eq_getElem hjl)
    have hm : 0 < msgs[j].length := List.length_pos_iff.mpr (whole_ne hcut _ (List.getElem_mem hjl))
    have hmono := msgAt_mono hdr msgs (show j + 1 ≤ i + 1 by omega)
    rcases hinc with h | ⟨m, h, h'⟩
    · rw [h] at hlen; simp only [List.length_nil] at hlen; omega
    · rw [List.getElem?_eq_getElem hjl] at h; cases h; omega

/-- In the end nothing more has arrived. -/
theorem LossInv.last (hcut : Cut hdr msgs chunks) {k : Nat} {u : ULog} (h : LossInv hdr msgs chunks got k u) (hg : ∀ n ∈ got, n < k) :
    ∃ c, u.base.file = some c ∧ c ++ u.part = hdr ++ (arrivedMsgs hdr msgs chunks got msgs.length).flatten := by
  obtain ⟨c, j, hf, hc, hj, hmode⟩ := h.data
  refine ⟨c, hf, ?_⟩
  obtain ⟨d, hd⟩ := Nat.exists_eq_add_of_le hj
  rw [hc, hd, arrivedMsgs_skip d]
  intro i hi1 hi2 hA
  have hil : i < msgs.length := by omega
  have hs := msgAt_succ (hdr := hdr) (List.getElem?_eq_getElem hil)
  have hm : 0 < msgs[i].length := List.length_pos_iff.mpr (whole_ne hcut _ (List.getElem_mem hil))
  have late : ∀ x, msgAt hdr msgs i ≤ x → x < msgAt hdr msgs (i + 1) → chunkAt chunks k ≤ x → False := by
    intro x h1 h2 h3
    obtain ⟨n, hn, h4, h5⟩ := hA x h1 h2
    have := chunkAt_mono chunks (show n + 1 ≤ k from hg n hn)
    omega
  by_cases hlt : msgAt hdr msgs i < chunkAt chunks k
  · rcases hmode with ⟨_, _, hu⟩ | ⟨_, W⟩
    · exact late (chunkAt chunks k) (by omega) (hu i hi1 hil) (Nat.le_refl _)
    · exact W.gone i hi1 hil hlt hA
  · exact late (msgAt hdr msgs i) (Nat.le_refl _) (by omega) (by omega)

theorem LossInv.arrivals {env : LogEnv} (hw : WritesAll env) (hcut : Cut hdr msgs chunks) (hne : ∀ c ∈ chunks, c ≠ []) :
    ∀ (ps : List (Nat × Pkt)) (k : Nat) (u : ULog), LossInv hdr msgs chunks got k u → InWindow k ps →
      (∀ x ∈ ps, ∃ chunk, chunks[x.1]? = some chunk ∧ Carries x.1 chunk x.2 ∧ FirstMsg hdr msgs chunks x.1 x.2.first) →
      (∀ n, n ∈ got ↔ n < k ∧ n ∈ got ∨ n ∈ (fresh k ps).map Prod.fst) →
      ∃ v k', u.processAll env (ps.map Prod.snd) = some v ∧ LossInv hdr msgs chunks got k' v ∧ ∀ n ∈ got, n < k'
  | [], k, u, h, _, _, hg => ⟨u, k, rfl, h, fun n hn => by
      rcases (hg n).mp hn with h | h
      · exact h.1
      · cases h⟩
  | (n, p) :: ps, k, u, h, hwin, hpk, hg => by
    obtain ⟨hw1, hw2, hw3⟩ := hwin
    obtain ⟨chunk, hk, hp, hfm⟩ := hpk _ List.mem_cons_self
    by_cases hkn : k ≤ n
    · rw [if_pos hkn] at hw3
      simp only [fresh, if_pos hkn, List.map_cons] at hg
      obtain ⟨v, q, h1, h2⟩ := h.next hw hcut hne hk hp hfm ((hg n).mpr (.inr List.mem_cons_self)) hkn hw1 (by
        intro i hi1 hi2 hi
        rcases (hg i).mp hi with h | h
        · omega
        · rcases List.mem_cons.mp h with h | h
          · omega
          · obtain ⟨x, hx, rfl⟩ := List.mem_map.mp h
            have := fresh_ge _ _ x hx; omega)
      obtain ⟨w, k', h3, h4⟩ := LossInv.arrivals hw hcut hne ps (n + 1) v h2 hw3 (fun x hx => hpk x (List.mem_cons_of_mem _ hx)) (by
        intro i
        constructor
        · intro hi
          rcases (hg i).mp hi with h | h
          · exact .inl ⟨by omega, hi⟩
          · rcases List.mem_cons.mp h with h | h
            · exact .inl ⟨by omega, hi⟩
            · exact .inr h
        · rintro (h | h)
          · exact h.2
          · exact (hg i).mpr (.inr (List.mem_cons_of_mem _ h)))
      exact ⟨w, k', by simp only [List.map_cons, ULog.processAll, h1, h3], h4⟩
    · rw [if_neg hkn] at hw3
      simp only [fresh, if_neg hkn] at hg
      have h1 : u.process env p = some (u, p) := by
        unfold ULog.process
        rw [h.exp, hp.1, logSeq_behind (by omega) hw2]
      obtain ⟨w, k', h3, h4⟩ := LossInv.arrivals hw hcut hne ps k u h hw3 (fun x hx => hpk x (List.mem_cons_of_mem _ hx)) hg
      exact ⟨w, k', by simp only [List.map_cons, ULog.processAll, h1, h3], h4⟩

end

theorem loss_exact (env : LogEnv) (hw : WritesAll env) (hdr : List UInt8) (msgs chunks : List (List UInt8))
    (hcut : Cut hdr msgs chunks) (hne : ∀ c ∈ chunks, c ≠ []) (p : Pkt) (ps : List (Nat × Pkt)) (hwin : InWindow 0 ((0, p) :: ps))
    (hpk : ∀ x ∈ (0, p) :: ps, ∃ chunk, chunks[x.1]? = some chunk ∧ Carries x.1 chunk x.2 ∧ FirstMsg hdr msgs chunks x.1 x.2.first)
    (u : ULog) (hu : Started u) (hc : u.wrapped = false) (hl : u.lost = false) (hd : u.dropped = false) :
    ∃ v c, u.processAll env (((0, p) :: ps).map Prod.snd) = some v ∧ v.base.file = some c ∧ v.part.length ≤ 16 ∧
      c ++ v.part = hdr ++ (arrivedMsgs hdr msgs chunks ((fresh 0 ((0, p) :: ps)).map Prod.fst) msgs.length).flatten := by
  have h0 : ULogTaken hdr msgs chunks 0 u := {
    exp := hu.2.2.2.1
    first := hu.2.2.1
    part := by rw [hu.2.2.2.2.2.2]; simp
    clean := ⟨hc, hl⟩
    dropped := hd
    start := fun _ => hu
    data := fun h => absurd h (Nat.lt_irrefl 0) }
  obtain ⟨chunk, hk, hp, _⟩ := hpk _ List.mem_cons_self
  obtain ⟨u1, q, h1, h2⟩ := h0.next hw hcut hk hp
  have hfr : (fresh 0 ((0, p) :: ps)).map Prod.fst = 0 :: (fresh 1 ps).map Prod.fst := rfl
  have h3 := LossInv.first (got := (fresh 0 ((0, p) :: ps)).map Prod.fst) hcut h2 (by rw [hfr]; exact List.mem_cons_self)
  obtain ⟨v, k', h4, h5, h6⟩ := h3.arrivals hw hcut hne ps 1 u1 hwin.2.2 (fun x hx => hpk x (List.mem_cons_of_mem _ hx)) (by
    intro n
    rw [hfr]
    constructor
    · intro h
      rcases List.mem_cons.mp h with h' | h'
      · exact .inl ⟨by omega, h⟩
      · exact .inr h'
    · rintro (h | h)
      · exact h.2
      · exact List.mem_cons_of_mem _ h)
  obtain ⟨c, h7, h8⟩ := h5.last hcut h6
  exact ⟨v, c, by simp only [List.map_cons, ULog.processAll, h1, h4], h7, h5.part, h8⟩

/-- **C115** (partial, complete writes): a stream of a header and messages of at most 1800 bytes is cut into packets in any way (none
empty, the first with the header and at most 233 bytes). The packet with the header arrives first; of the others any get lost, and
any are repeated. Then the file (with the header if it is all there is) consists of the header and exactly those messages all bytes of
which arrived, in order; packets overtaken by later ones count as lost. Missing: short and blocked writes; see
`C115_only_sent_partial`. -/
theorem C115_exact_partial (env : LogEnv) (hw : WritesAll env) (hdr : List UInt8) (msgs chunks : List (List UInt8))
    (hcut : Cut hdr msgs chunks) (hne : ∀ c ∈ chunks, c ≠ []) (p : Pkt) (ps : List (Nat × Pkt)) (hwin : InWindow 0 ((0, p) :: ps))
    (hpk : ∀ x ∈ (0, p) :: ps, ∃ chunk, chunks[x.1]? = some chunk ∧ Carries x.1 chunk x.2 ∧ FirstMsg hdr msgs chunks x.1 x.2.first)
    (u : ULog) (hu : Started u) (hc : u.wrapped = false) (hl : u.lost = false) (hd : u.dropped = false) :
    ∃ v c, u.processAll env (((0, p) :: ps).map Prod.snd) = some v ∧ v.base.file = some c ∧
      c ++ v.part = hdr ++ (arrivedMsgs hdr msgs chunks ((fresh 0 ((0, p) :: ps)).map Prod.fst) msgs.length).flatten := by
  obtain ⟨v, c, h1, h2, _, h3⟩ := loss_exact env hw hdr msgs chunks hcut hne p ps hwin hpk u hu hc hl hd
  exact ⟨v, c, h1, h2, h3⟩

theorem processAll_clean {env : LogEnv} : ∀ {ps : List Pkt} {u v : ULog}, u.processAll env ps = some v → ULogClean v → ULogClean u
  | [], u, v, r, h => by cases r; exact h
  | p :: ps, u, v, r, h => by
    simp only [ULog.processAll] at r
    cases hp : u.process env p with
    | none => rw [hp] at r; cases r
    | some x =>
      obtain ⟨w, q⟩ := x
      rw [hp] at r
      exact (process_mono hp).2 (processAll_clean r h)

theorem safe_arrivals {env : LogEnv} {hdr : List UInt8} {msgs chunks : List (List UInt8)} (hcut : Cut hdr msgs chunks) :
    ∀ (ps : List (Nat × Pkt)) (k : Nat) (u v : ULog), SafeData hdr msgs chunks k u → u.expSeq = UInt16.ofNat k → u.waitHdr = false →
      InWindow k ps → (∀ x ∈ ps, ∃ chunk, chunks[x.1]? = some chunk ∧ Carries x.1 chunk x.2 ∧ FirstMsg hdr msgs chunks x.1 x.2.first) →
      u.processAll env (ps.map Prod.snd) = some v → ULogClean v → ∃ k', SafeData hdr msgs chunks k' v
  | [], k, u, v, h, _, _, _, _, r, _ => by cases r; exact ⟨k, h⟩
  | (n, p) :: ps, k, u, v, h, hexp, hh, hwin, hpk, r, hcl => by
    obtain ⟨hw1, hw2, hw3⟩ := hwin
    obtain ⟨chunk, hk, hp, hfm⟩ := hpk _ List.mem_cons_self
    simp only [List.map_cons, ULog.processAll] at r
    cases hpr : u.process env p with
    | none => rw [hpr] at r; cases r
    | some x =>
      obtain ⟨w, q⟩ := x
      rw [hpr] at r
      simp only [] at r
      have hwcl := processAll_clean r hcl
      by_cases hkn : k ≤ n
      · rw [if_pos hkn] at hw3
        obtain ⟨h1, h2, h3⟩ := safe_next hcut h hexp hh hk hp hfm hkn hw1 hpr hwcl
        exact safe_arrivals hcut ps (n + 1) w v h1 h2 h3 hw3 (fun x hx => hpk x (List.mem_cons_of_mem _ hx)) r hcl
      · rw [if_neg hkn] at hw3
        have h1 : u.process env p = some (u, p) := by
          unfold ULog.process
          rw [hexp, hp.1, logSeq_behind (by omega) hw2]
        rw [h1] at hpr
        cases hpr
        exact safe_arrivals hcut ps k u v h hexp hh hw3 (fun x hx => hpk x (List.mem_cons_of_mem _ hx)) r hcl

/-- **C115** (partial, any results of the writes): of such a stream, whatever packets get lost or are repeated and whatever the writes
return, the bytes in the file followed by the pending remainder are the header and some of the messages sent, in the order in which
they were sent: no message is put together from pieces of several, none is written twice. This holds unless the "partial buffer is not
big enough" error occurred (`lost`), or a size of 65533 or more came up (`wrapped`). -/
theorem C115_only_sent_partial (env : LogEnv) (hdr : List UInt8) (msgs chunks : List (List UInt8))
    (hcut : Cut hdr msgs chunks) (p : Pkt) (ps : List (Nat × Pkt)) (hwin : InWindow 0 ((0, p) :: ps))
    (hpk : ∀ x ∈ (0, p) :: ps, ∃ chunk, chunks[x.1]? = some chunk ∧ Carries x.1 chunk x.2 ∧ FirstMsg hdr msgs chunks x.1 x.2.first)
    (u v : ULog) (hu : Started u) (hv : u.processAll env (((0, p) :: ps).map Prod.snd) = some v)
    (hc : v.wrapped = false) (hl : v.lost = false) :
    ∃ c sub, v.base.file = some c ∧ c ++ v.part = hdr ++ List.flatten sub ∧ sub.Sublist msgs := by
  obtain ⟨chunk, hk, hp, _⟩ := hpk _ List.mem_cons_self
  simp only [List.map_cons, ULog.processAll] at hv
  cases hpr : u.process env p with
  | none => rw [hpr] at hv; cases hv
  | some x =>
    obtain ⟨w, q⟩ := x
    rw [hpr] at hv
    simp only [] at hv
    obtain ⟨h1, h2, h3⟩ := safe_first hcut hu hk hp hpr (processAll_clean hv ⟨hc, hl⟩)
    obtain ⟨k', c, j, sub, hf, hcc, hsub, _⟩ := safe_arrivals hcut ps 1 w v h1 h2 h3 hwin.2.2
      (fun x hx => hpk x (List.mem_cons_of_mem _ hx)) hv ⟨hc, hl⟩
    exact ⟨c, sub, hf, hcc, hsub.trans (List.take_sublist _ _)⟩

namespace Sample

/-- Messages A, A, B, A cut into four packets; the second A is in packets 0 and 1. -/
def lossChunks : List (List UInt8) := [ulogHdrBytes ++ ulogMsgA ++ [2, 0], [0x41, 7, 8], [0, 0, 0x42, 2, 0], [0x41, 7, 8]]

def lossMsgs : List (List UInt8) := [ulogMsgA, ulogMsgA, ulogMsgB, ulogMsgA]

theorem lossCut : Cut ulogHdrBytes lossMsgs lossChunks where
  hdrLen := rfl
  magic := rfl
  whole := by
    intro m hm
    simp only [lossMsgs, List.mem_cons, List.not_mem_nil, or_false] at hm
    rcases hm with rfl | rfl | rfl | rfl
    · exact ⟨⟨2, 0, 0x41, [7, 8], rfl, rfl⟩, by decide⟩
    · exact ⟨⟨2, 0, 0x41, [7, 8], rfl, rfl⟩, by decide⟩
    · exact ⟨⟨0, 0, 0x42, [], rfl, rfl⟩, by decide⟩
    · exact ⟨⟨2, 0, 0x41, [7, 8], rfl, rfl⟩, by decide⟩
  stream := ⟨[], rfl⟩
  short := by decide
  head := by
    intro c hc
    simp [lossChunks] at hc
    subst hc
    decide

/-- Packet 1 gets lost, packet 2 is repeated. -/
def lossArrivals : List (Nat × Pkt) :=
  [(0, pkt 0 16 (ulogHdrBytes ++ ulogMsgA ++ [2, 0])), (2, pkt 2 0 [0, 0, 0x42, 2, 0]), (2, pkt 2 0 [0, 0, 0x42, 2, 0]),
    (3, pkt 3 255 [0x41, 7, 8])]

theorem lossArrivals_ok : ∀ x ∈ lossArrivals, ∃ chunk, lossChunks[x.1]? = some chunk ∧ Carries x.1 chunk x.2 ∧
    FirstMsg ulogHdrBytes lossMsgs lossChunks x.1 x.2.first := by
  intro x hx
  simp only [lossArrivals, List.mem_cons, List.not_mem_nil, or_false] at hx
  have c2 : ∃ chunk, lossChunks[2]? = some chunk ∧ Carries 2 chunk (pkt 2 0 [0, 0, 0x42, 2, 0]) ∧
      FirstMsg ulogHdrBytes lossMsgs lossChunks 2 0 :=
    ⟨_, rfl, ⟨rfl, rfl, by decide +kernel, pkt_mem _ _ _⟩, .inr ⟨2, by decide, by decide, by decide, by decide +kernel⟩⟩
  rcases hx with rfl | rfl | rfl | rfl
  · exact ⟨_, rfl, ⟨rfl, rfl, by decide +kernel, pkt_mem _ _ _⟩, .inr ⟨0, by decide, by decide, by decide, by decide +kernel⟩⟩
  · exact c2
  · exact c2
  · exact ⟨_, rfl, ⟨rfl, rfl, by decide +kernel, pkt_mem _ _ _⟩, .inl ⟨rfl, by decide +kernel⟩⟩

end Sample

open Sample in
/-- The hypotheses of `C115_exact_partial` and `C115_only_sent_partial` hold of these arrivals; the second A is missing. -/
example : (ulogStarted.processAll logEnv (lossArrivals.map Prod.snd)).map (fun u => (u.base.file, u.part, u.wrapped, u.lost)) =
      some (some (ulogHdrBytes ++ ulogMsgA ++ ulogMsgB ++ ulogMsgA), [], false, false) ∧
    WritesAll logEnv ∧ Cut ulogHdrBytes lossMsgs lossChunks ∧ (∀ c ∈ lossChunks, c ≠ []) ∧ InWindow 0 lossArrivals ∧
    (∀ x ∈ lossArrivals, ∃ chunk, lossChunks[x.1]? = some chunk ∧ Carries x.1 chunk x.2 ∧
      FirstMsg ulogHdrBytes lossMsgs lossChunks x.1 x.2.first) ∧
    Started ulogStarted ∧ (fresh 0 lossArrivals).map Prod.fst = [0, 2, 3] :=
  ⟨by decide +kernel, logEnv_writesAll, lossCut, by decide, by simp [InWindow, lossArrivals], lossArrivals_ok, ulogStarted_started, rfl⟩

end Verif
