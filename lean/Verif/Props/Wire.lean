import Verif.Props.Link
import Verif.Props.Rx

/- Property C111: what a router writes to a stream link (serial line, TCP connection) is what the router at the other end receives.

The line itself carries the bytes the kernel accepted, unchanged and in order; bytes damaged on the line are the subject of C03 and
C05–C07, the ways of reading them the one of C01. -/

namespace Verif
open Spec

/-- The bytes the kernel accepted from the system calls of a history, in order: `write`/`sendto` with result `n` accepted the first `n`
bytes of the buffer given (src/endpoint.cpp:1010 for the UART, :1708 for TCP; no remainder is ever given again, see C31). -/
def wireBytes (k : LinkKind) : TxSt → List TxEv → List UInt8
  | _, [] => []
  | s, .offer msg res :: es =>
    (match (writeLink k s.tx msg res).2.1, res with
      | some d, .took n => d.take n
      | _, _ => []) ++ wireBytes k (txStep k s (.offer msg res)) es
  | s, ev :: es => wireBytes k (txStep k s ev) es

/-- The messages the kernel took completely. -/
def Spec.carried (k : LinkKind) (up : Bool) (port : UInt16) (es : List TxEv) : List (List UInt8) :=
  ((attempts k up port es).filter whole).map Prod.fst

theorem wire_step (k : LinkKind) (s : TxSt) (m : List UInt8) (r : SysRes) (es : List TxEv) :
    wireBytes k s (.offer m r :: es) =
      ((attempt k s.tx.fdOpen s.tx.port m r).flatMap fun a => match a.2 with
        | .took n => a.1.take n
        | _ => []) ++ wireBytes k (txStep k s (.offer m r)) es := by
  simp only [wireBytes]
  congr 1
  cases hf : s.tx.fdOpen
  · cases k <;> simp [writeLink, attempt, hf]
  · by_cases hp : s.tx.port = 0 <;> cases k <;> cases r <;> simp [writeLink, attempt, hf, hp]

/-- Without cut-off writes the link carries exactly the messages the kernel took, one after the other. -/
theorem wire_whole (k : LinkKind) : ∀ (es : List TxEv) (s : TxSt),
    (∀ m n, TxEv.offer m (.took n) ∈ es → n = m.length ∨ n = 0) →
    wireBytes k s es = (carried k s.tx.fdOpen s.tx.port es).flatten := by
  intro es
  induction es with
  | nil => intro s _; rfl
  | cons ev es ih =>
    intro s h
    have h' : ∀ m n, TxEv.offer m (.took n) ∈ es → n = m.length ∨ n = 0 :=
      fun m n hm => h m n (List.mem_cons_of_mem _ hm)
    cases ev with
    | offer m r =>
      obtain ⟨hf, hp, -⟩ := step_offer k s m r
      rw [wire_step, ih _ h', carried, carried, attempts_offer, hf, hp, List.filter_append, List.map_append,
        List.flatten_append]
      congr 1
      simp only [attempt]
      split
      · cases r with
        | took n =>
          rcases h m n List.mem_cons_self with rfl | rfl
          · simp [whole]
          · by_cases hm : m = []
            · subst hm; simp [whole]
            · have : ¬ (0 : Nat) = m.length := by
                cases m with
                | nil => exact absurd rfl hm
                | cons _ _ => simp
              simp [whole, this]
        | _ => simp [whole]
      · rfl
    | canWrite => simp only [wireBytes]; rw [ih _ h']; rfl
    | conn o => simp only [wireBytes]; rw [ih _ h']; rfl
    | peer p => simp only [wireBytes]; rw [ih _ h']; rfl

theorem encoded {ls : List (List UInt8)} {Q : Frame → Prop} (h : ∀ l ∈ ls, ∃ f, Q f ∧ l = f.encode) :
    ∃ fs : List Frame, (∀ f ∈ fs, Q f) ∧ ls = fs.map Frame.encode := by
  induction ls with
  | nil => exact ⟨[], by simp, rfl⟩
  | cons l ls ih =>
    obtain ⟨f, hf, rfl⟩ := h l List.mem_cons_self
    obtain ⟨fs, h1, rfl⟩ := ih (fun x hx => h x (List.mem_cons_of_mem _ hx))
    exact ⟨f :: fs, by simpa using ⟨hf, h1⟩, rfl⟩

/-- A prefix of a sequence of frames is some of the frames followed by the beginning of one. -/
theorem frames_prefix : ∀ (fs : List Frame) (p : List UInt8), (∀ f ∈ fs, f.WF) → p <+: fs.flatMap Frame.encode →
    ∃ gs tail, ∃ g : Frame, gs <+: fs ∧ g.WF ∧ p = gs.flatMap Frame.encode ++ tail ∧ tail <+: g.encode ∧ tail.length < g.encode.length := by
  intro fs
  induction fs with
  | nil =>
    intro p _ hp
    have hp : p = [] := by simpa using hp
    subst hp
    exact ⟨[], [], Sample.hb1, List.prefix_refl _, Sample.hb1_wf, rfl, List.nil_prefix, by decide⟩
  | cons f fs ih =>
    intro p hw hp
    by_cases hl : p.length < f.encode.length
    · refine ⟨[], p, f, List.nil_prefix, hw f List.mem_cons_self, rfl, ?_, hl⟩
      exact List.prefix_of_prefix_length_le hp (by simp) (by omega)
    · have h1 : f.encode <+: p := List.prefix_of_prefix_length_le (by simp) hp (by omega)
      obtain ⟨q, rfl⟩ := h1
      have h2 : q <+: fs.flatMap Frame.encode := by
        simpa [List.flatMap_cons, List.prefix_append_right_inj] using hp
      obtain ⟨gs, tail, g, a, b, c, d, e⟩ := ih q (fun x hx => hw x (List.mem_cons_of_mem _ hx)) h2
      refine ⟨f :: gs, tail, g, ?_, b, ?_, d, e⟩
      · obtain ⟨r, rfl⟩ := a; exact ⟨r, rfl⟩
      · rw [c]; simp [List.flatMap_cons]

theorem carried_offered {k : LinkKind} : ∀ {es : List TxEv} {up : Bool} {port : UInt16} {m : List UInt8},
    m ∈ carried k up port es → ∃ r, TxEv.offer m r ∈ es := by
  intro es
  induction es with
  | nil => intro up port m h; cases h
  | cons ev es ih =>
    intro up port m h
    cases ev with
    | offer m' r =>
      rw [carried, attempts_offer, List.filter_append, List.map_append, List.mem_append] at h
      rcases h with h | h
      · simp only [attempt] at h
        split at h
        · simp only [List.mem_map, List.mem_filter, List.mem_singleton] at h
          obtain ⟨a, ⟨rfl, -⟩, rfl⟩ := h
          exact ⟨r, List.mem_cons_self⟩
        · cases h
      · obtain ⟨r', h⟩ := ih h
        exact ⟨r', List.mem_cons_of_mem _ h⟩
    | canWrite => obtain ⟨r', h⟩ := ih (up := up) (port := port) h; exact ⟨r', List.mem_cons_of_mem _ h⟩
    | conn o => obtain ⟨r', h⟩ := ih (up := o) (port := port) h; exact ⟨r', List.mem_cons_of_mem _ h⟩
    | peer p => obtain ⟨r', h⟩ := ih (up := up) (port := p) h; exact ⟨r', List.mem_cons_of_mem _ h⟩

/-- What C111 says about one connection: whatever part of the accepted bytes has arrived, and however it is cut into reads, the
router at the other end has received some first ones of the messages the kernel took completely – and all of them when all bytes
have arrived. -/
def Spec.StreamOk (tbl : MsgTable) (k : LinkKind) (tx : Tx) (es : List TxEv) : Prop :=
  ∀ (chunks : List (List UInt8)), (∀ c ∈ chunks, c.length ≤ 841) →
    (chunks.flatten <+: wireBytes k { tx := tx } es →
      (runRx tbl {} (chunks.map .got)).2.map (fun x => x.1.data) <+: carried k tx.fdOpen tx.port es) ∧
    (chunks.flatten = wireBytes k { tx := tx } es →
      (runRx tbl {} (chunks.map .got)).2.map (fun x => x.1.data) = carried k tx.fdOpen tx.port es)

/-- Every message offered is a frame a router can hand on. -/
def Spec.OfferedFrames (tbl : MsgTable) (es : List TxEv) : Prop :=
  ∀ m r, TxEv.offer m r ∈ es → ∃ f : Frame, (f.WF ∧ f.CrcOk tbl) ∧ m = f.encode

/-- **C111**, partial: as long as every write is accepted completely or not at all (blocked, failed), whatever is blocked or fails.
Missing: writes of which the kernel takes a part – for these the claim is false, see `C111_violated`. -/
theorem C111_stream_partial (tbl : MsgTable) (k : LinkKind) (tx : Tx) (es : List TxEv) (hes : OfferedFrames tbl es)
    (hcut : ∀ m n, TxEv.offer m (.took n) ∈ es → n = m.length ∨ n = 0) : StreamOk tbl k tx es := by
  have hw := wire_whole k es { tx := tx } hcut
  obtain ⟨fs, h1, h2⟩ := encoded (ls := carried k tx.fdOpen tx.port es)
    (Q := fun f => f.WF ∧ f.CrcOk tbl)
    (fun l hl => (carried_offered hl).elim fun r hr => hes l r hr)
  have hw' : wireBytes k { tx := tx } es = fs.flatMap Frame.encode := by
    rw [hw, h2, List.flatMap_def]
  intro chunks hc
  rw [hw', h2]
  constructor
  · intro hp
    obtain ⟨gs, tail, g, a, b, c, d, e⟩ := frames_prefix fs _ (fun f hf => (h1 f hf).1) hp
    have hgs : ∀ f ∈ gs, f.WF ∧ f.CrcOk tbl := fun f hf => h1 f (a.subset hf)
    rw [(C01_reassembly tbl gs tail g chunks hgs b d e hc c).2.1]
    obtain ⟨r, rfl⟩ := a
    simp
  · intro hp
    exact (C01_reassembly tbl fs [] Sample.hb1 chunks h1 Sample.hb1_wf List.nil_prefix (by decide) hc (by simpa using hp)).2.1

/-- Three heartbeats are offered to a TCP connection; the second one is blocked: the other two arrive. -/
example : StreamOk Sample.tbl .tcp { fdOpen := true }
      [.offer Sample.hb2.encode (.took 21), .offer Sample.hb1.encode .eagain, .canWrite, .offer Sample.hb1.encode (.took 17)] ∧
    carried .tcp true 0
      [.offer Sample.hb2.encode (.took 21), .offer Sample.hb1.encode .eagain, .canWrite, .offer Sample.hb1.encode (.took 17)] =
      [Sample.hb2.encode, Sample.hb1.encode] := by
  refine ⟨C111_stream_partial _ _ _ _ ?_ ?_, by decide⟩
  · intro m r h
    simp only [List.mem_cons, TxEv.offer.injEq, List.not_mem_nil, or_false, reduceCtorEq, false_or] at h
    rcases h with ⟨rfl, -⟩ | ⟨rfl, -⟩ | ⟨rfl, -⟩
    · exact ⟨_, ⟨Sample.hb2_wf, Sample.hb2_crc⟩, rfl⟩
    · exact ⟨_, ⟨Sample.hb1_wf, Sample.hb1_crc⟩, rfl⟩
    · exact ⟨_, ⟨Sample.hb1_wf, Sample.hb1_crc⟩, rfl⟩
  · intro m n h
    simp only [List.mem_cons, TxEv.offer.injEq, List.not_mem_nil, or_false, reduceCtorEq, false_or, SysRes.took.injEq,
      and_false] at h
    rcases h with ⟨rfl, rfl⟩ | ⟨rfl, rfl⟩ <;> exact .inl (by decide)

/-- **C111** is false: the kernel takes 10 bytes of the first message (the rest is dropped) and the second one completely; the
router at the other end takes the beginning of the second for the end of the first and receives neither. -/
theorem C111_violated : ∃ (tbl : MsgTable) (es : List TxEv), OfferedFrames tbl es ∧
    (∀ k : LinkKind, k ≠ .udp → ¬ StreamOk tbl k { fdOpen := true } es) ∧
    carried .tcp true 0 es = [Sample.hb1.encode] ∧ carried .uart true 0 es = [Sample.hb1.encode] := by
  refine ⟨Sample.tbl, [.offer Sample.hb2.encode (.took 10), .offer Sample.hb1.encode (.took 17)], ?_, ?_, by decide, by decide⟩
  · intro m r h
    simp only [List.mem_cons, TxEv.offer.injEq, List.not_mem_nil, or_false] at h
    rcases h with ⟨rfl, -⟩ | ⟨rfl, -⟩
    · exact ⟨_, ⟨Sample.hb2_wf, Sample.hb2_crc⟩, rfl⟩
    · exact ⟨_, ⟨Sample.hb1_wf, Sample.hb1_crc⟩, rfl⟩
  · intro k hk h
    have := (h [Sample.hb2.encode.take 10 ++ Sample.hb1.encode] (by decide)).2
    cases k with
    | udp => exact hk rfl
    | tcp => exact absurd (this (by decide)) (by decide)
    | uart => exact absurd (this (by decide)) (by decide)

end Verif
