/-
C85: printed percentages. C86: UDP datagrams. C87: TCP connections one after the other.
-/
import Verif.Model.Stat
import Verif.Props.RxStat
import Verif.Props.Routing

namespace Verif

open Verif.Spec

variable {σ : Type}

/-! ### C85 -/

/-- **C85** (partial): after any history, the two percentages are the integer parts of the true ones, and at most 100,
as long as 100 times the sum of the counters is below 2^32. Missing: larger counters (`C85_violated`). -/
theorem C85_percent_partial (tbl : MsgTable) (ios : List SysRead)
    (hs : 100 * ((runRx tbl {} ios).1.stat.handled.toNat + (runRx tbl {} ios).1.stat.crcError.toNat +
      (runRx tbl {} ios).1.stat.dropSeq.toNat) < 4294967296) :
    let st := (runRx tbl {} ios).1.stat
    (printedPercent st.crcError st.total).toNat =
      100 * st.crcError.toNat / max 1 (st.handled.toNat + st.crcError.toNat + st.dropSeq.toNat) ∧
    (printedPercent st.dropSeq st.total).toNat =
      100 * st.dropSeq.toNat / max 1 (st.handled.toNat + st.crcError.toNat + st.dropSeq.toNat) ∧
    (printedPercent st.crcError st.total).toNat + (printedPercent st.dropSeq st.total).toNat ≤ 100 := by
  intro st
  obtain ⟨ht, _⟩ := C08_statistics tbl ios
  have ht : st.total = st.handled + st.crcError + st.dropSeq := ht
  have hs : 100 * (st.handled.toNat + st.crcError.toNat + st.dropSeq.toNat) < 4294967296 := hs
  have htn : st.total.toNat = st.handled.toNat + st.crcError.toNat + st.dropSeq.toNat := by
    rw [ht]
    simp only [UInt32.toNat_add]
    omega
  have hden : ∀ x : UInt32, x.toNat ≤ st.total.toNat →
      (printedPercent x st.total).toNat = 100 * x.toNat / max 1 st.total.toNat := by
    intro x hx
    unfold printedPercent
    rw [UInt32.toNat_div, UInt32.toNat_mul]
    have hm : x.toNat * (100 : UInt32).toNat % 2 ^ 32 = 100 * x.toNat := by
      have : (100 : UInt32).toNat = 100 := rfl
      rw [this]
      omega
    rw [hm]
    congr 1
    split
    · rename_i h; rw [h]; rfl
    · rename_i h
      have : st.total.toNat ≠ 0 := fun h' => h (UInt32.toNat_inj.mp h')
      omega
  rw [← htn]
  have h1 := hden st.crcError (by omega)
  have h2 := hden st.dropSeq (by omega)
  refine ⟨h1, h2, ?_⟩
  rw [h1, h2]
  have hpos : 0 < max 1 st.total.toNat := by omega
  have : 100 * st.crcError.toNat / max 1 st.total.toNat + 100 * st.dropSeq.toNat / max 1 st.total.toNat ≤
      (100 * st.crcError.toNat + 100 * st.dropSeq.toNat) / max 1 st.total.toNat := by
    rw [Nat.le_div_iff_mul_le hpos, Nat.add_mul]
    exact Nat.add_le_add (Nat.div_mul_le_self _ _) (Nat.div_mul_le_self _ _)
  refine Nat.le_trans this ?_
  rw [Nat.div_le_iff_le_mul_add_pred hpos]
  have hmax : max 1 st.total.toNat ≥ st.total.toNat := by omega
  generalize max 1 st.total.toNat = M at *
  omega

/-- Two of the four messages counted: 25 % checksum errors, 25 % lost. -/
example : let st := (runRx Sample.tbl {} [.got (Sample.hb2.encode ++ Sample.unk.encode ++ Sample.hbBad.encode)]).1.stat
    st.total = 4 ∧ printedPercent st.crcError st.total = 25 ∧ printedPercent st.dropSeq st.total = 25 := by
  decide +kernel

/-- A corrupt frame and the event in which its bytes are discarded. -/
theorem bad_twice (rx : Rx) (hidle : rx.lastLen = 0) (hempty : rx.buf = []) :
    (runRx Sample.tbl rx [.got Sample.hbBad.encode, .fail (-11)]).1 =
      { buf := [], lastLen := 0, stat := statBad rx.stat 21 } := by
  have hcomplete : firstFrame Sample.hbBad.encode = some (Sample.hbBad.encode, []) := by decide
  have hb : (handleReadRx Sample.tbl rx (.got Sample.hbBad.encode)).1 =
      { buf := Sample.hbBad.encode, lastLen := 21, stat := statBad rx.stat 21 } := by
    obtain ⟨b, l, st⟩ := rx
    simp only at hidle hempty
    subst hidle hempty
    have hread : readMsg Sample.tbl true { buf := [], lastLen := 0, stat := st } (.got Sample.hbBad.encode) =
        parseBuf Sample.tbl Sample.hbBad.encode st := by
      simp only [readMsg, List.length_nil, Nat.sub_zero]
      rw [List.take_of_length_le (by decide)]
      cases h : Sample.hbBad.encode with
      | nil => exact absurd h (by decide)
      | cons c cs => simp
    rcases parseBuf_some Sample.tbl hcomplete st with ⟨m, k, seq, hdel, _⟩ | ⟨_, h⟩
    · exact absurd hbBad_corrupt (delivers_not_corrupt hdel)
    · simp only [handleReadRx, drain, hread, h]
      rfl
  simp only [runRx, hb]
  rfl

theorem bad_many (n : Nat) : ∀ rx : Rx, rx.lastLen = 0 → rx.buf = [] →
    let ios := (List.replicate n [SysRead.got Sample.hbBad.encode, .fail (-11)]).flatten
    (runRx Sample.tbl rx ios).1.stat.crcError = rx.stat.crcError + UInt32.ofNat n ∧
    (runRx Sample.tbl rx ios).1.stat.total = rx.stat.total + UInt32.ofNat n := by
  induction n with
  | zero => intro rx _ _; simp [runRx]
  | succ n ih =>
    intro rx h1 h2
    have hb := bad_twice rx h1 h2
    have hr : ∀ (a b : List SysRead) (rx : Rx), (runRx Sample.tbl rx (a ++ b)).1 =
        (runRx Sample.tbl (runRx Sample.tbl rx a).1 b).1 := by
      intro a
      induction a with
      | nil => intro b rx; rfl
      | cons x a iha => intro b rx; simp only [List.cons_append, runRx, iha]
    obtain ⟨g1, g2⟩ := ih { buf := [], lastLen := 0, stat := statBad rx.stat 21 } rfl rfl
    simp only [List.replicate_succ, List.flatten_cons]
    rw [hr, hb, g1, g2]
    simp only [statBad]
    have he : UInt32.ofNat (n + 1) = 1 + UInt32.ofNat n := by
      rw [Nat.add_comm, UInt32.ofNat_add]; rfl
    rw [he]
    exact ⟨UInt32.add_assoc .., UInt32.add_assoc ..⟩

/-- **C85** is false of the code: after 42949673 messages, all of them with a wrong checksum, the share of checksum
errors printed is 0 %: the multiplication by 100 wraps. -/
theorem C85_violated : ∃ ios : List SysRead, let st := (runRx Sample.tbl {} ios).1.stat
    st.crcError = 42949673 ∧ st.total = 42949673 ∧ printedPercent st.crcError st.total = 0 := by
  have key : ∀ (n : Nat), UInt32.ofNat n = 42949673 → ∃ ios : List SysRead,
      (runRx Sample.tbl {} ios).1.stat.crcError = 42949673 ∧ (runRx Sample.tbl {} ios).1.stat.total = 42949673 := by
    intro n hn
    obtain ⟨h1, h2⟩ := bad_many n {} rfl rfl
    rw [hn] at h1 h2
    exact ⟨_, h1, h2⟩
  obtain ⟨ios, h1, h2⟩ := key (42949673 : UInt32).toNat (UInt32.ofNat_toNat ..)
  refine ⟨ios, h1, h2, ?_⟩
  rw [h1, h2]
  decide

/-! ### C86 -/

theorem encode_fits {fs : List Frame} (hw : ∀ f ∈ fs, f.WF) (tbl : MsgTable) (hc : ∀ f ∈ fs, f.CrcOk tbl) :
    Means tbl (fs.flatMap Frame.encode) (fs.map (Frame.toMsg tbl)) [] ∧ Clean tbl (fs.flatMap Frame.encode) := by
  have hnil : firstFrame [] = none := by decide
  obtain ⟨h1, h2⟩ := means_items tbl [] hnil (fs.map (fun f => ([], f)))
    (by
      intro x hx
      obtain ⟨f, hf, rfl⟩ := List.mem_map.mp hx
      exact ⟨by simp, hw f hf, hc f hf⟩)
  have he : (fs.map (fun f => (([] : List UInt8), f))).flatMap (fun x => x.1 ++ x.2.encode) = fs.flatMap Frame.encode := by
    rw [List.flatMap_map]
    simp
  rw [he, List.append_nil] at h1 h2
  refine ⟨?_, h2⟩
  have : stripNoise [] = [] := by decide
  rw [this, List.map_map] at h1
  exact h1

/-- An endpoint with nothing buffered takes a whole datagram of valid frames and has nothing buffered afterwards. -/
theorem datagram_one (tbl : MsgTable) (rx : Rx) (hll : rx.lastLen = 0) (hb : rx.buf = []) (fs : List Frame)
    (hw : ∀ f ∈ fs, f.WF) (hc : ∀ f ∈ fs, f.CrcOk tbl) (hlen : (fs.flatMap Frame.encode).length ≤ 1120) :
    (handleReadRx tbl rx (.got (fs.flatMap Frame.encode))).1.lastLen = 0 ∧
    (handleReadRx tbl rx (.got (fs.flatMap Frame.encode))).1.buf = [] ∧
    (handleReadRx tbl rx (.got (fs.flatMap Frame.encode))).2.1 = fs.map (Frame.toMsg tbl) := by
  obtain ⟨h1, h2⟩ := encode_fits hw tbl hc
  have hnil : firstFrame [] = none := by decide
  have hs : stripNoise [] = [] := by decide
  obtain ⟨g1, g2⟩ := handleRead_clean_fit tbl rx (fs.flatMap Frame.encode) hll
    (by rw [hb]; simpa [rxBufMax] using hlen) (by rw [hb]; exact hnil) (by rw [hb]; exact hs) (by rw [hb]; exact h2)
  rw [hb, List.nil_append] at g2
  obtain ⟨e1, e2⟩ := Means.unique g2 h1
  exact ⟨g1, e2, e1⟩

/-- **C86** (partial): if every datagram consists of whole valid frames, at most 1120 bytes of them, then the frames of
all datagrams are handed on, in order, whoever sent them. Missing: other senders' datagrams that end in the middle of a
frame (`C86_violated`), and longer datagrams (`C86_long_violated`). -/
theorem C86_datagrams_partial (tbl : MsgTable) (ds : List (List Frame))
    (hw : ∀ fs ∈ ds, ∀ f ∈ fs, f.WF ∧ f.CrcOk tbl) (hlen : ∀ fs ∈ ds, (fs.flatMap Frame.encode).length ≤ 1120) :
    (runRx tbl {} (ds.map (fun fs => .got (fs.flatMap Frame.encode)))).2 = ds.flatten.map (Frame.toMsg tbl) := by
  have key : ∀ (ds : List (List Frame)) (rx : Rx), rx.lastLen = 0 → rx.buf = [] →
      (∀ fs ∈ ds, ∀ f ∈ fs, f.WF ∧ f.CrcOk tbl) → (∀ fs ∈ ds, (fs.flatMap Frame.encode).length ≤ 1120) →
      (runRx tbl rx (ds.map (fun fs => .got (fs.flatMap Frame.encode)))).2 = ds.flatten.map (Frame.toMsg tbl) := by
    intro ds
    induction ds with
    | nil => intro rx _ _ _ _; rfl
    | cons fs ds ih =>
      intro rx hll hb hw hlen
      obtain ⟨h1, h2, h3⟩ := datagram_one tbl rx hll hb fs (fun f hf => (hw fs (by simp) f hf).1)
        (fun f hf => (hw fs (by simp) f hf).2) (hlen fs (by simp))
      simp only [List.map_cons, runRx, List.flatten_cons, List.map_append, h3]
      rw [ih _ h1 h2 (fun x hx => hw x (List.mem_cons_of_mem _ hx)) (fun x hx => hlen x (List.mem_cons_of_mem _ hx))]
  exact key ds {} rfl rfl hw hlen

example : (runRx Sample.tbl {} [.got (Sample.hb2.encode ++ Sample.unk.encode), .got Sample.hb1.encode]).2.map
      (fun x => x.1.data) = [Sample.hb2.encode, Sample.unk.encode, Sample.hb1.encode] ∧
    ([Sample.hb2, Sample.unk].flatMap Frame.encode).length ≤ 1120 := by decide +kernel

/-- **C86** is false of the code: one receive buffer serves all senders, so a datagram of one sender that ends in the
middle of a frame makes the router lose the valid frame in the next datagram, of another sender. -/
theorem C86_violated :
    Sample.hb2.WF ∧ Sample.hb2.CrcOk Sample.tbl ∧
    (runRx Sample.tbl {} [.got (Sample.hb1.encode.take 12), .got Sample.hb2.encode]).2 = [] ∧
    (runRx Sample.tbl {} [.got Sample.hb2.encode]).2.map (fun x => x.1.data) = [Sample.hb2.encode] :=
  ⟨Sample.hb2_wf, Sample.hb2_crc, by decide +kernel, by decide +kernel⟩

/-- **C86** is false of the code for datagrams beyond 1120 bytes: the kernel discards what does not fit into the receive
buffer, so frames at the end of the datagram are lost. -/
theorem C86_long_violated :
    Sample.hb2.WF ∧ Sample.hb2.CrcOk Sample.tbl ∧
    ((List.replicate 54 Sample.hb2).flatMap Frame.encode).length = 1134 ∧
    (runRx Sample.tbl {} [.got ((List.replicate 54 Sample.hb2).flatMap Frame.encode)]).2.length = 53 :=
  ⟨Sample.hb2_wf, Sample.hb2_crc, by decide +kernel, by decide +kernel⟩

/-! ### C87 -/

/-- **C87** (partial): if nothing was left in the receive buffer when the old connection ended, the frames that arrive first
on the new one are all received. Missing: connections that end in the middle of a frame (`C87_violated`). -/
theorem C87_reconnect_partial (env : Env σ) (w : World σ) (hw : Reached env w) (i : Nat) (e : Ep)
    (he : w.eps[i]? = some e) (hll : e.rx.lastLen = 0) (hb : e.rx.buf = []) (fs : List Frame)
    (hv : ∀ f ∈ fs, f.WF ∧ f.CrcOk env.tbl) (hlen : (fs.flatMap Frame.encode).length ≤ 1120) :
    ∃ w' as, runRouter env w [.fd i false, .fd i true, .read i (.got (fs.flatMap Frame.encode))] = some (w', as) ∧
      as.map Arrival.msg = fs.map (fun f => (f.toMsg env.tbl).1) ∧ ∀ a ∈ as, a.ep = i := by
  have hi : i < w.eps.length := (List.getElem?_eq_some_iff.mp he).1
  have s1 : routerStep env w (.fd i false) = some ({ w with eps := w.eps.set i { e with fdOpen := false } }, []) := by
    simp only [routerStep, he]
  have s2 : routerStep env { w with eps := w.eps.set i { e with fdOpen := false } } (.fd i true) =
      some ({ w with eps := w.eps.set i { e with fdOpen := true } }, []) := by
    simp only [routerStep]
    rw [List.getElem?_set_self hi]
    simp only [List.set_set]
  have r2 : Reached env { w with eps := w.eps.set i { e with fdOpen := true } } := .event (.event hw s1) s2
  obtain ⟨w', as, s3, _⟩ := routerStep_spec env _ (reached_inv r2) (.read i (.got (fs.flatMap Frame.encode)))
  refine ⟨w', as, ?_, ?_⟩
  · simp only [runRouter, s1, s2, s3, List.append_nil, List.nil_append]
  · simp only [routerStep, handleRead] at s3
    rw [List.getElem?_set_self hi] at s3
    simp only at s3
    obtain ⟨hinv, _⟩ := set_inv (reached_inv r2) (i := i) (e := { e with fdOpen := true })
      (e' := { e with fdOpen := true, rx := (drain env.tbl true (rxBufMax + 1) e.rx (.got (fs.flatMap Frame.encode))).1 })
      (List.getElem?_set_self hi) rfl rfl rfl rfl rfl
    obtain ⟨w2, as2, h1, _, _, _, h5, h6⟩ := runMsgs_spec env i _ _ hinv
    rw [s3] at h1
    cases h1
    obtain ⟨_, _, d3⟩ := datagram_one env.tbl e.rx hll hb fs (fun f hf => (hv f hf).1) (fun f hf => (hv f hf).2) hlen
    unfold handleReadRx at d3
    refine ⟨?_, h6⟩
    rw [h5, d3, List.map_map]
    rfl

/-- **C87** is false of the code: closing does not clear the receive buffer (src/endpoint.cpp:1752-1762), so the bytes of a
frame cut off by the end of the old connection swallow the first frame of the new one. Endpoint 2 is a TCP client. -/
theorem C87_violated :
    (runRouter Sample.envQuiet Sample.w0 [.read 2 (.got (Sample.hb1.encode.take 12)), .fd 2 false, .fd 2 true,
      .read 2 (.got Sample.hb2.encode)]).map Prod.snd = some [] ∧
    (runRouter Sample.envQuiet Sample.w0 [.fd 2 false, .fd 2 true, .read 2 (.got Sample.hb2.encode)]).map
      (fun r => r.2.map Arrival.passed) = some [true] :=
  ⟨by decide +kernel, by decide +kernel⟩

example : (Sample.w0.eps[2]?).map (fun e => (e.kind, e.rx.lastLen, e.rx.buf)) = some (.tcp, 0, []) := by decide +kernel

end Verif
