/- C131: what the acknowledgement of PX4 log data is worth. -/
import Verif.Spec.ULogAck
import Verif.Props.ULogFlight
import Verif.Props.LogProto

namespace Verif

open Spec

theorem inTime_fresh {f : Nat × Msg → Nat × Pkt} (hf : ∀ x, (f x).1 = x.1) {x : Nat × Msg} {post : List (Nat × Msg)} :
    ∀ (pre : List (Nat × Msg)) (next : Nat), next ≤ x.1 → (∀ y ∈ pre, y.1 < x.1) →
    x.1 ∈ (fresh next ((pre ++ x :: post).map f)).map Prod.fst := by
  intro pre
  induction pre with
  | nil =>
    intro next h _
    have : f x = (x.1, (f x).2) := by rw [← hf x]
    simp only [List.nil_append, List.map_cons]
    rw [this]
    simp only [fresh, if_pos h, List.map_cons]
    exact List.mem_cons_self
  | cons y pre ih =>
    intro next h hp
    have : f y = (y.1, (f y).2) := by rw [← hf y]
    simp only [List.cons_append, List.map_cons]
    rw [this]
    simp only [fresh]
    have hy := hp y List.mem_cons_self
    split
    · exact List.mem_cons_of_mem _ (ih _ hy (fun z hz => hp z (List.mem_cons_of_mem _ hz)))
    · exact ih _ h (fun z hz => hp z (List.mem_cons_of_mem _ hz))

open Classical in
theorem arrivedMsgs_pick (hdr : List UInt8) (msgs chunks : List (List UInt8)) (got : List Nat) : ∀ k,
    arrivedMsgs hdr msgs chunks got k =
      picked msgs ((List.range k).filter fun j => decide (Arrived hdr msgs chunks got j)) := by
  intro k
  induction k with
  | zero => rfl
  | succ k ih =>
    rw [arrivedMsgs, ih, List.range_succ, List.filter_append, picked, picked, List.flatMap_append]
    congr 1
    by_cases h : Arrived hdr msgs chunks got k <;> simp [h]

theorem dataMsg_present {n : Nat} {first : UInt8} {chunk : List UInt8} {m : Msg} (h : DataMsg n first chunk m) (hne : chunk ≠ []) :
    NumberPresent m ∧ ulogNumber m = UInt16.ofNat n := by
  obtain ⟨_, hc, head, body, tail, fill, cut, ts, tc, hd, hh, hb, he, hl, _⟩ := h
  have hpos : 0 < chunk.length := List.length_pos_iff.mpr hne
  have h5 : 4 < body.length := by
    rcases Nat.lt_or_ge 4 body.length with h | h
    · exact h
    · have := congrArg (fun l => l[4]?) he
      simp only [List.getElem?_append_right h, List.cons_append, List.getElem?_cons_succ, List.getElem?_cons_zero,
        List.getElem?_replicate] at this
      rw [if_pos (by omega)] at this
      have h0 := congrArg UInt8.toNat (Option.some.inj this)
      simp at h0
      omega
  have hlen : headerLen m + m.payloadLen.toNat ≤ m.data.length := by
    rw [hd, ← hh, ← hb]; simp
  refine ⟨fun _ => ⟨by omega, hlen⟩, ?_⟩
  have hby : ∀ k, k < 2 → some (payloadByte m k) =
      ([UInt8.ofNat n, UInt8.ofNat (n / 256), ts, tc, UInt8.ofNat chunk.length, first] ++ chunk ++ fill)[k]? := by
    intro k hk
    rw [← he, List.getElem?_append_left (by omega)]
    unfold payloadByte
    rw [if_pos (by omega), hd, ← hh, List.getD_eq_getElem?_getD, List.append_assoc, List.getElem?_append_right (by omega),
      Nat.add_sub_cancel_left, List.getElem?_append_left (by omega), List.getElem?_eq_getElem (by omega)]
    rfl
  have b0 := hby 0 (by omega)
  have b1 := hby 1 (by omega)
  simp only [List.cons_append, List.getElem?_cons_zero, List.getElem?_cons_succ, Option.some.injEq] at b0 b1
  rw [ulogNumber, b0, b1]
  apply UInt16.toNat_inj.mp
  simp
  omega

theorem numbersToAck_data : ∀ evs : List ULogEv, numbersToAck evs =
    (dataMsgs evs).filterMap fun m => if m.msgId = 267 then some (ulogNumber m) else none := by
  intro evs
  induction evs with
  | nil => rfl
  | cons e evs ih =>
    cases e with
    | msg m =>
      have hm : messages (.msg m :: evs) = m :: messages evs := rfl
      simp only [numbersToAck, dataMsgs, hm, List.filterMap_cons]
      simp only [numbersToAck] at ih
      by_cases h : m.msgId = 267
      · rw [if_pos h, if_pos (.inr h), List.filterMap_cons, if_pos h, ih]
      · rw [if_neg h]
        by_cases h2 : m.msgId = 266
        · rw [if_pos (.inl h2), List.filterMap_cons, if_neg h, ih]
        · rw [if_neg (by simp [h, h2]), ih]
    | startTimeout => exact ih
    | aliveTimeout => exact ih
    | stop => exact ih

/-- **C131** (partial, complete writes; a log from start to end): the autopilot is told, once for each arrival and in order, that the
packets that ask for it were received; and every log message all bytes of which came in such packets, in time (before any packet behind
them), is in the file the log leaves, which has the header and messages of the stream, each at most once and in order. Missing: short
and blocked writes, packets overtaken by later ones, and packets that arrive when no log is open (`C131_violated`). -/
theorem C131_stored_partial (env : LogEnv) (hw : WritesAll env) (h77 : env.tbl 77 ≠ none) (h266 : env.tbl 266 ≠ none)
    (h267 : env.tbl 267 ≠ none) (hdr : List UInt8) (msgs chunks : List (List UInt8)) (hcut : Cut hdr msgs chunks)
    (hne : ∀ c ∈ chunks, c ≠ []) (target : Option UInt8) (mode : LogMode) (before : List ULogEv) (u0 u v w : ULog)
    (hb : (ULog.init target mode).run env before = some u0) (hbn : ∀ m ∈ messages before, NumberPresent m)
    (hs : u0.start env = (u, true)) (evs : List ULogEv) (hr : u.run env evs = some v)
    (hopen : v.base.nstart = u.base.nstart ∧ v.base.file ≠ none) (m : Msg) (d : List (Nat × Msg)) (hd : dataMsgs evs = ((0, m) :: d).map Prod.snd)
    (hwin : InWindow 0 (((0, m) :: d).map (fun x => (x.1, x.2.pkt env))))
    (hpk : ∀ x ∈ (0, m) :: d, ∃ chunk first, chunks[x.1]? = some chunk ∧ DataMsg x.1 first chunk x.2 ∧ FirstMsg hdr msgs chunks x.1 first)
    (hstop : v.stop env = some w) :
    ulogAcks v.base.out = ulogAcks u0.base.out ++ asking ((0, m) :: d) ∧
    ∃ idx : List Nat, idx.Pairwise (· < ·) ∧ w.base.file = none ∧
      w.base.done = u0.base.done ++ [hdr ++ (picked msgs idx).flatten] ∧
      ∀ j, j < msgs.length → AskedFor hdr msgs chunks ((0, m) :: d) j → j ∈ idx := by
  constructor
  · have hi0 := (ulogAcks_run h77 h266 h267 before _ u0 (timerInv_init target mode) hbn hb).2
    have hbase : u.base = (u0.base.start env).1 := by
      unfold ULog.start at hs
      split at hs <;> simp_all
      obtain ⟨rfl, _⟩ := hs
      rfl
    have hi : TimerInv u.base := by rw [hbase]; exact (Mv.start hi0).inv hi0
    have hout : ulogAcks u.base.out = ulogAcks u0.base.out := by rw [hbase]; exact (Mv.start hi0).ack
    have hp : ∀ x ∈ (0, m) :: d, NumberPresent x.2 ∧ ulogNumber x.2 = UInt16.ofNat x.1 := by
      intro x hx
      obtain ⟨chunk, first, h1, h2, _⟩ := hpk x hx
      exact dataMsg_present h2 (hne chunk (List.mem_of_getElem? h1))
    have hnp : ∀ y ∈ messages evs, NumberPresent y := by
      intro y hy h
      have : y ∈ dataMsgs evs := by
        clear hr hd
        induction evs with
        | nil => cases hy
        | cons e evs ih =>
          cases e with
          | msg m' =>
            have hm : messages (.msg m' :: evs) = m' :: messages evs := rfl
            rw [hm, List.mem_cons] at hy
            simp only [dataMsgs]
            rcases hy with rfl | hy
            · rw [if_pos (.inr h)]; exact List.mem_cons_self
            · split
              · exact List.mem_cons_of_mem _ (ih hy)
              · exact ih hy
          | startTimeout => exact ih hy
          | aliveTimeout => exact ih hy
          | stop => exact ih hy
      rw [hd] at this
      obtain ⟨x, hx, rfl⟩ := List.mem_map.mp this
      exact (hp x hx).1 h
    rw [(ulogAcks_run h77 h266 h267 evs u v hi hnp hr).1, hout, numbersToAck_data, hd]
    congr 1
    rw [asking]
    generalize (0, m) :: d = l at hp
    induction l with
    | nil => rfl
    | cons x l ih =>
      have := (hp x List.mem_cons_self).2
      have ih' := ih (fun y hy => hp y (List.mem_cons_of_mem _ hy))
      simp only [List.map_cons, List.filterMap_cons, List.filter_cons]
      by_cases h : x.2.msgId = 267
      · simp [h, this, ih']
      · simp [h, ih']
  · obtain ⟨h1, h2⟩ := C115_flight_partial env hw ⟨h266, h267⟩ hdr msgs chunks hcut hne u0 u v w hs evs hr hopen m d hd hwin hpk hstop
    rw [arrivedMsgs_pick] at h2
    refine ⟨_, (List.pairwise_lt_range).filter _, h1, h2, ?_⟩
    intro j hj ha
    rw [List.mem_filter]
    refine ⟨List.mem_range.mpr hj, ?_⟩
    simp only [decide_eq_true_eq]
    intro x hx1 hx2
    obtain ⟨y, hy, _, ⟨pre, z, post, e1, e2, e3⟩, h4, h5⟩ := ha x hx1 hx2
    refine ⟨y.1, ?_, h4, h5⟩
    rw [e1, ← e2]
    exact inTime_fresh (fun _ => rfl) pre 0 (Nat.zero_le _) (by rw [e2]; exact e3)

namespace Sample

/-- The messages of the stream of C115, each asking for an acknowledgement. -/
def askMsg (seq length first : UInt8) (d : List UInt8) : Msg := { ulogMsg seq length first d with msgId := 267 }

/-- The whole log in one message that asks for an acknowledgement. -/
def askOne : Msg := { flightOne with msgId := 267 }

end Sample

open Sample in
/-- Three packets, all acknowledged, packet 1 twice; packet 3 is lost. The messages begun in packets 0 and 2 are complete. -/
example : ((ULog.init (some 1) .always).start logEnv).2 = true ∧
    InTime [(0, askMsg 0 23 16 (ulogHdrBytes ++ ulogMsgA ++ [2, 0])), (1, askMsg 1 3 255 [0x41, 7, 8]), (2, askMsg 2 5 0 [0, 0, 0x42, 2, 0]),
      (1, askMsg 1 3 255 [0x41, 7, 8])] 1 ∧
    (((ULog.init (some 1) .always).start logEnv).1.run logEnv [.msg (askMsg 0 23 16 (ulogHdrBytes ++ ulogMsgA ++ [2, 0])),
      .msg (askMsg 1 3 255 [0x41, 7, 8]), .msg (askMsg 2 5 0 [0, 0, 0x42, 2, 0]), .msg (askMsg 1 3 255 [0x41, 7, 8]), .stop]).map
        (fun v => (ulogAcks v.base.out, v.base.done)) =
      some ([0, 1, 2, 1], [ulogHdrBytes ++ ulogMsgA ++ [2, 0, 0x41, 7, 8] ++ [0, 0, 0x42]]) :=
  ⟨by decide +kernel, ⟨[_], _, _, rfl, rfl, by decide⟩, by decide +kernel⟩

open Sample in
/-- **C131 is false**: a packet with log data that arrives when no log is open (here before the vehicle is armed) is acknowledged and
thrown away. -/
theorem C131_violated : ∃ (evs : List ULogEv) (u : ULog), (ULog.init (some 1) .whileArmed).run logEnv evs = some u ∧
    ulogAcks u.base.out = [0] ∧ u.base.file = none ∧ u.base.done = [] ∧
    ∃ m first chunk, evs = [.msg m] ∧ DataMsg 0 first chunk m ∧ chunk = ulogHdrBytes ++ ulogMsgA ++ ulogMsgB := by
  have h : ((ULog.init (some 1) .whileArmed).run logEnv [.msg askOne]).map
      (fun u => (ulogAcks u.base.out, u.base.file, u.base.done)) = some ([0], none, []) := by decide +kernel
  obtain ⟨u, hu, hu'⟩ := Option.map_eq_some_iff.mp h
  simp only [Prod.mk.injEq] at hu'
  obtain ⟨_, h2, h3⟩ := ulogMsg_data 0 (by decide) 16 (ulogHdrBytes ++ ulogMsgA ++ ulogMsgB) (by decide)
  exact ⟨_, u, hu, hu'.1, hu'.2.1, hu'.2.2, askOne, 16, _, rfl, ⟨.inr rfl, h2, h3⟩, rfl⟩

open Sample in
/-- **C131 is false** for an open log as well: no write fails, but some are short. The packet is acknowledged, and message B, which is in
it, is missing in the file; nothing is reported. -/
theorem C131_violated_short : ∃ (u0 u w : ULog) (m : Msg) (first : UInt8), u0.start slowEnv = (u, true) ∧
    DataMsg 0 first (ulogHdrBytes ++ ulogMsgA ++ ulogMsgB) m ∧ u.run slowEnv [.msg m, .stop] = some w ∧ ulogAcks w.base.out = [0] ∧
    w.base.done = [ulogHdrBytes ++ ulogMsgA] ∧ w.lost = false ∧ w.cut = false ∧ w.dropped = false := by
  have hx : ((ULog.init (some 1) .always).start slowEnv).2 = true ∧
      (((ULog.init (some 1) .always).start slowEnv).1.run slowEnv [.msg askOne, .stop]).map
        (fun w => ((ulogAcks w.base.out, w.base.done), (w.lost, w.cut, w.dropped))) =
        some (([0], [ulogHdrBytes ++ ulogMsgA]), (false, false, false)) := ⟨by decide +kernel, by decide +kernel⟩
  obtain ⟨w, hw, hw'⟩ := Option.map_eq_some_iff.mp hx.2
  simp only [Prod.mk.injEq] at hw'
  obtain ⟨_, h2, h3⟩ := ulogMsg_data 0 (by decide) 16 (ulogHdrBytes ++ ulogMsgA ++ ulogMsgB) (by decide)
  exact ⟨ULog.init (some 1) .always, _, w, askOne, 16, by rw [← hx.1], ⟨.inr rfl, h2, h3⟩, hw, hw'.1.1, hw'.1.2, hw'.2.1, hw'.2.2.1, hw'.2.2.2⟩

end Verif
