import Verif.Props.ReadLoop
import Verif.Props.ULog

/-
C20 and C121: what a PX4 log changes in the receive buffer. `ULog::_logging_data_process` works on the payload in place; a message
that lies in the buffer in front of others is followed by them in memory.
-/

namespace Verif

open Spec

variable {σ : Type}

/-! ### What is changed -/

/-- The packet after `_logging_data_process`: as many bytes of memory as before, and those behind the declared length unchanged. -/
def PktKept (p p' : Pkt) : Prop := p'.mem.length = p.mem.length ∧ p'.mem.drop p.length.toNat = p.mem.drop p.length.toNat

theorem takeHeader_kept (u : ULog) (p : Pkt) (h : ulogHdr + p.length.toNat ≤ p.mem.length) : PktKept p (takeHeader u p).2 := by
  have hl : ((p.mem.drop ulogHdr).take p.length.toNat).length = p.length.toNat := by
    rw [List.length_take, List.length_drop]; omega
  refine ⟨?_, ?_⟩
  · simp only [takeHeader, List.length_append, hl, List.length_drop]; omega
  · simp only [takeHeader]
    rw [List.drop_append_of_le_length (by omega), List.drop_of_length_le (by omega), List.nil_append]

theorem store_mem {env : LogEnv} {u u' : ULog} {p p' : Pkt} (h : u.store env p = some (u', p')) : p'.mem = p.mem := by
  unfold ULog.store at h
  split at h
  · cases h; rfl
  · simp only at h
    split at h
    · cases h; rfl
    · split at h
      · cases h
      · cases h; rfl

theorem append_mem {env : LogEnv} {u u' : ULog} {p p' : Pkt} {d : Bool} (h : u.append env p d = some (u', p')) : p'.mem = p.mem := by
  unfold ULog.append at h
  split at h
  · cases h
  · exact store_mem h

theorem process_kept {env : LogEnv} {u u' : ULog} {p p' : Pkt} (hp : ulogHdr + p.length.toNat ≤ p.mem.length)
    (h : u.process env p = some (u', p')) : PktKept p p' := by
  unfold ULog.process at h
  split at h
  · cases h; exact ⟨rfl, rfl⟩
  · simp only at h
    split at h
    · split at h
      · rw [Option.map_eq_some_iff] at h
        obtain ⟨a, _, ha⟩ := h
        cases ha; exact ⟨rfl, rfl⟩
      · have := takeHeader_kept { u with expSeq := ‹UInt16› } p hp
        exact ⟨(congrArg List.length (append_mem h)).trans this.1, (congrArg (List.drop _) (append_mem h)).trans this.2⟩
    · exact ⟨congrArg List.length (append_mem h), congrArg (List.drop _) (append_mem h)⟩

/-- What is left of the memory from the start of the message on: the same number of bytes, the header and the first four bytes of
the payload, and everything behind the declared data. -/
structure BufKept (n : Nat) (d d' : List UInt8) (h : Nat) : Prop where
  len : d'.length = d.length
  front : d'.take (h + 4) = d.take (h + 4)
  back : h + 6 + n ≤ d.length → d'.drop (h + 6 + n) = d.drop (h + 6 + n)

theorem BufKept.same (n : Nat) (d : List UInt8) (h : Nat) : BufKept n d d h := ⟨rfl, rfl, fun _ => rfl⟩

theorem pkt_mem (env : LogEnv) (m : Msg) : (m.pkt env).mem.length = 520 := by simp [Msg.pkt]

theorem pkt_mem_get (env : LogEnv) (m : Msg) (ht : m.trimmed 255 = 0) (k : Nat) (hk : k < 520) (hd : m.hdrLen + 6 + k < m.data.length) :
    (m.pkt env).mem[k]? = m.data[m.hdrLen + 6 + k]? := by
  simp only [Msg.pkt, ht, if_true, List.getElem?_map, List.getElem?_range hk, Option.map_some, Msg.rawByte]
  rw [show m.hdrLen + (6 + k) = m.hdrLen + 6 + k from by omega, List.getElem?_eq_getElem hd]

theorem edited_kept (env : LogEnv) (m : Msg) (p : Pkt) (hp : PktKept (m.pkt env) p) :
    BufKept (m.pkt env).length.toNat m.data (m.edited p) m.hdrLen := by
  unfold Msg.edited
  split
  · rename_i ht
    have hml : p.mem.length = 520 := hp.1.trans (pkt_mem env m)
    have hlen : ((m.data.take (m.hdrLen + 4) ++ [p.length] ++ (m.data.drop (m.hdrLen + 5)).take 1 ++ p.mem ++
      m.data.drop (m.hdrLen + 6 + p.mem.length)).take m.data.length).length = m.data.length := by
      simp only [List.length_take, List.length_append, List.length_drop, List.length_cons, List.length_nil, hml]
      omega
    refine ⟨hlen, ?_, fun hn => ?_⟩
    · rw [List.take_take]
      by_cases h : m.hdrLen + 4 ≤ m.data.length
      · rw [Nat.min_eq_left h]
        simp only [List.append_assoc]
        rw [List.take_append_of_le_length (by simp; omega), List.take_take, Nat.min_self]
      · rw [Nat.min_eq_right (by omega), List.take_of_length_le (l := m.data) (by omega)]
        simp only [List.append_assoc]
        rw [List.take_append_of_le_length (Nat.le_refl _), List.take_of_length_le (Nat.le_refl _)]
    · apply List.ext_getElem?
      intro k
      rw [List.getElem?_drop, List.getElem?_drop]
      by_cases hk : m.hdrLen + 6 + (m.pkt env).length.toNat + k < m.data.length
      · rw [List.getElem?_take_of_lt hk]
        have h1 : (m.data.take (m.hdrLen + 4) ++ [p.length] ++ (m.data.drop (m.hdrLen + 5)).take 1).length = m.hdrLen + 6 := by
          simp only [List.length_take, List.length_append, List.length_drop, List.length_cons, List.length_nil]; omega
        by_cases h5 : (m.pkt env).length.toNat + k < 520
        · rw [List.getElem?_append_left (by rw [List.length_append, h1, hml]; omega), List.getElem?_append_right (by rw [h1]; omega), h1]
          have := congrArg (fun l => l[k]?) hp.2
          simp only [List.getElem?_drop] at this
          rw [show m.hdrLen + 6 + (m.pkt env).length.toNat + k - (m.hdrLen + 6) = (m.pkt env).length.toNat + k from by omega, this,
            pkt_mem_get env m ht _ h5 (by omega), show m.hdrLen + 6 + ((m.pkt env).length.toNat + k) = m.hdrLen + 6 + (m.pkt env).length.toNat + k from by omega]
        · rw [List.getElem?_append_right (by rw [List.length_append, h1, hml]; omega), List.length_append, h1, List.getElem?_drop, hml,
            show m.hdrLen + 6 + 520 + (m.hdrLen + 6 + (m.pkt env).length.toNat + k - (m.hdrLen + 6 + 520)) = m.hdrLen + 6 + (m.pkt env).length.toNat + k from by omega]
      · rw [List.getElem?_eq_none (l := m.data) (by omega), List.getElem?_eq_none (by rw [hlen]; omega)]
  · exact .same _ _ _

theorem ulogWrite_kept {env : LogEnv} {u u' : ULog} {m : Msg} {d : List UInt8} (h : u.writeMsg env m = some (u', d)) :
    BufKept (m.pkt env).length.toNat m.data d m.hdrLen := by
  unfold ULog.writeMsg at h
  split at h
  · cases h
  · split at h
    · cases h; exact .same _ _ _
    · split at h
      · cases h; exact .same _ _ _
      · split at h
        · cases h; exact .same _ _ _
        · split at h
          · cases h
          · rename_i hp
            cases h
            refine edited_kept env m _ (process_kept ?_ hp)
            rw [pkt_mem]
            have := (m.pkt env).length.toNat_lt
            simp only [ulogHdr]; omega

/-! ### C20 -/

theorem flight_kept {env : LogEnv} {l l' : FlightLog} {m : Msg} {d : List UInt8} (h : l.writeMsg env m = some (l', d)) :
    d.length = m.data.length ∧ d.take (m.hdrLen + 4) = m.data.take (m.hdrLen + 4) := by
  cases l with
  | ulog u =>
    simp only [FlightLog.writeMsg] at h
    cases hw : u.writeMsg env m with
    | none => rw [hw] at h; cases h
    | some r => rw [hw] at h; cases h; exact ⟨(ulogWrite_kept hw).len, (ulogWrite_kept hw).front⟩
  | bin l => simp only [FlightLog.writeMsg] at h; cases h; exact ⟨rfl, rfl⟩

theorem logWrite_kept (le : Nat → LogEnv) (now : Nat → UInt64) (i : Nat) (s : LogSt) (m : Msg) :
    (logWrite le now i s m).2.2.length = m.data.length ∧ (logWrite le now i s m).2.2.take (m.hdrLen + 4) = m.data.take (m.hdrLen + 4) := by
  unfold logWrite
  split
  · exact ⟨rfl, rfl⟩
  · rename_i l _
    split
    · exact ⟨rfl, rfl⟩
    · rename_i l' d hw
      show d.length = m.data.length ∧ d.take (m.hdrLen + 4) = m.data.take (m.hdrLen + 4)
      generalize l.quiet = q at hw
      cases q with
      | ulog u =>
        simp only [Logger.writeMsg] at hw
        cases hx : u.writeMsg (le i) m with
        | none => rw [hx] at hw; cases hw
        | some r => rw [hx] at hw; cases hw; exact ⟨(ulogWrite_kept hx).len, (ulogWrite_kept hx).front⟩
      | bin l => simp only [Logger.writeMsg] at hw; cases hw; exact ⟨rfl, rfl⟩
      | tlog b => simp only [Logger.writeMsg] at hw; cases hw; exact ⟨rfl, rfl⟩
      | auto a =>
        simp only [Logger.writeMsg] at hw
        cases hx : a.writeMsg (le i) m with
        | none => rw [hx] at hw; cases hw
        | some r =>
          rw [hx] at hw
          cases hw
          unfold AutoLog.writeMsg at hx
          split at hx
          · rename_i l _
            cases hy : l.writeMsg (le i) m with
            | none => rw [hy] at hx; cases hx
            | some z => rw [hy] at hx; cases hx; exact flight_kept hy
          · simp only at hx
            split at hx <;> (cases hx; exact ⟨rfl, rfl⟩)

/-- **C20**, partial: whatever log endpoints do to a message on its way, every endpoint that takes it is handed as many bytes as were
received, and the same header and first four bytes of payload - so id, sender, sequence number and receiver of log data are never
changed. Missing: the rest of LOGGING_DATA and LOGGING_DATA_ACKED (`C20_violated`). -/
theorem C20_header_partial (env : Env LogSt) (le : Nat → LogEnv) (now : Nat → UInt64) (w : World LogSt) (m : Msg) (depth : Nat) :
    ∀ s ∈ directSince w (routeMsg (env.withLogs le now) (depth + 1) false w m),
      s.bytes.length = m.data.length ∧ s.bytes.take (headerLen m + 4) = m.data.take (headerLen m + 4) := by
  have hsame : ∀ d : List UInt8, d.length = m.data.length → d.take (m.hdrLen + 4) = m.data.take (m.hdrLen + 4) →
      ({ m with data := d } : Msg).hdrLen = m.hdrLen := by
    intro d _ h
    have hh : d.head? = m.data.head? := by
      have := congrArg List.head? h
      rwa [List.head?_take, List.head?_take, if_neg (by omega), if_neg (by omega)] at this
    simp only [Msg.hdrLen, hh]
  obtain ⟨new, hk, hb⟩ := routeLoop_bytes (env.withLogs le now) (routeMsg_ok (env.withLogs le now) depth)
    (fun d => d.length = m.data.length ∧ d.take (m.hdrLen + 4) = m.data.take (m.hdrLen + 4)) w.active w m true (by
    intro i hi e he hk s d hd
    have h1 := logWrite_kept le now i s { m with data := d }
    rw [hsame d hd.1 hd.2] at h1
    exact ⟨h1.1.trans hd.1, h1.2.trans hd.2⟩) ⟨rfl, rfl⟩
  have hk2 : Kept w (routeMsg (env.withLogs le now) (depth + 1) false w m) new := by
    unfold routeMsg
    simp only
    split
    · exact ⟨hk.eps, hk.active, hk.dedup, hk.checks, hk.out⟩
    · exact hk
  intro s hs
  rw [hk2.direct, List.mem_filter] at hs
  exact hb s hs.1 (by simpa using hs.2)

/-! ### C121 -/

/-- **C121** (part): a message handed to a PX4 log lies in the receive buffer, with the bytes `behind` it. If the data it declares
lie within the message, the bytes behind it are the same afterwards. Missing: more data are declared (`C121_spill_violated`). -/
theorem C121_behind_partial (env : LogEnv) (u u' : ULog) (m : Msg) (frame behind d : List UInt8) (hd : m.data = frame ++ behind)
    (hin : headerLen m + 6 + (m.pkt env).length.toNat ≤ frame.length) (h : u.writeMsg env m = some (u', d)) :
    d.length = frame.length + behind.length ∧ d.drop frame.length = behind := by
  have hk := ulogWrite_kept h
  rw [hdrLen_eq] at hk
  refine ⟨by rw [hk.len, hd, List.length_append], ?_⟩
  have hb := congrArg (List.drop (frame.length - (headerLen m + 6 + (m.pkt env).length.toNat))) (hk.back (by rw [hd, List.length_append]; omega))
  rw [List.drop_drop, List.drop_drop, show headerLen m + 6 + (m.pkt env).length.toNat +
    (frame.length - (headerLen m + 6 + (m.pkt env).length.toNat)) = frame.length from by omega] at hb
  rw [hb, hd, List.drop_append_of_le_length (Nat.le_refl _), List.drop_length, List.nil_append]

namespace Sample

/-- LOGGING_DATA with the start of a ULog file that declares `n` bytes of data; the message has room for 249. -/
def startsLog (n crcLo crcHi : UInt8) : Frame :=
  { v2 := true, seq := 10, sys := 1, comp := 1, msgid := 266, payload := [0, 0, 0, 0, n, 16] ++ ulogHdrBytes ++ List.replicate 233 7,
    crcLo := crcLo, crcHi := crcHi }

/-- The message of the frame, where it lies in the receive buffer in front of a heartbeat. -/
def inFront (f : Frame) : Msg := { (f.toMsg ulogTbl).1 with data := f.encode ++ hb2.encode }

end Sample

/-- **C121** is false of the code in another way: a valid LOGGING_DATA message that declares 255 bytes of data (six more than there
are) and begins a ULog file makes the PX4 log move the data in place, over the checksum and the first four bytes of the message
behind it. That message, a valid heartbeat, is gone: nothing is received from what is left of it. -/
theorem C121_spill_violated :
    ∃ (f : Frame) (u : ULog) (d : List UInt8), (f.WF ∧ f.CrcOk Sample.ulogTbl) ∧ Started u ∧
      (u.writeMsg Sample.logEnv (Sample.inFront f)).map Prod.snd = some d ∧
      (runRx Sample.ulogTbl {} [.got ((Sample.inFront f).data.drop f.encode.length)]).2 = [Sample.hb2.toMsg Sample.ulogTbl] ∧
      (runRx Sample.ulogTbl {} [.got (d.drop f.encode.length)]).2 = [] := by
  refine ⟨Sample.startsLog 255 253 247, Sample.ulogStarted,
    ((Sample.ulogStarted.writeMsg Sample.logEnv (Sample.inFront (Sample.startsLog 255 253 247))).map Prod.snd).getD [], ⟨?_, ?_⟩,
    Sample.ulogStarted_started, ?_, ?_, ?_⟩
  · unfold Frame.WF; decide +kernel
  · intro e h
    have h : some (_ : MsgEntry) = some e := h
    cases h
    decide +kernel
  · have : ((Sample.ulogStarted.writeMsg Sample.logEnv (Sample.inFront (Sample.startsLog 255 253 247))).map Prod.snd).isSome = true := by
      decide +kernel
    obtain ⟨d, hd⟩ := Option.isSome_iff_exists.mp this
    rw [hd]; rfl
  · decide +kernel
  · decide +kernel

/-- With 21 bytes declared the hypotheses of `C121_behind_partial` are met; the message itself is changed, its front and length
(`C20_header_partial`) and what is behind it are not. -/
example : headerLen (Sample.inFront (Sample.startsLog 21 0 0)) + 6 +
      ((Sample.inFront (Sample.startsLog 21 0 0)).pkt Sample.logEnv).length.toNat ≤ (Sample.startsLog 21 0 0).encode.length ∧
    (Sample.ulogStarted.writeMsg Sample.logEnv (Sample.inFront (Sample.startsLog 21 0 0))).map
      (fun r => (decide (r.2.take 267 = (Sample.startsLog 21 0 0).encode), decide (r.2.take 14 = (Sample.startsLog 21 0 0).encode.take 14),
        decide (r.2.drop 267 = Sample.hb2.encode))) = some (false, true, true) := ⟨by decide +kernel, by decide +kernel⟩

end Verif
