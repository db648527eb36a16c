/-
Specification vocabulary for PX4 logs: the file format, sequence numbers, packetised streams.
-/
import Verif.Model.ULog

namespace Verif.Spec

/-- A complete ULog message: 16 bit length of the payload (little endian), type, payload. -/
def WholeMsg (bs : List UInt8) : Prop :=
  ∃ lo hi ty payload, bs = lo :: hi :: ty :: payload ∧ payload.length = lo.toNat + 256 * hi.toNat

/-- A ULog file: a header of 16 bytes with the magic number, then complete messages. -/
def ULogFile (c : List UInt8) : Prop :=
  ∃ (hdr : List UInt8) (msgs : List (List UInt8)), c = hdr ++ msgs.flatten ∧ hdr.length = 16 ∧
    hdr.take 7 = [0x55, 0x4C, 0x6F, 0x67, 0x01, 0x12, 0x35] ∧ ∀ m ∈ msgs, WholeMsg m

/-- Forward distance between 16 bit numbers. -/
def dist (a b : UInt16) : Nat := (b.toNat + 65536 - a.toNat) % 65536

/-- A packet as a correct autopilot sends it: the length covers only data, and the offset of
the first message, if any, lies inside. -/
def Polite (p : Pkt) : Prop :=
  p.length.toNat ≤ 249 ∧ (p.first = 255 ∨ p.first.toNat ≤ p.length.toNat)

/-- A header packet leaving room for the in-place move. -/
def PoliteHeader (p : Pkt) : Prop :=
  p.length.toNat ≤ 233 ∧ (p.first = 255 ∨ p.first.toNat + 16 ≤ p.length.toNat)

/-- Packet number `i` of a stream cut into chunks: wire number `i mod 2^16`, the chunk at the start
of the data field. -/
def Carries (i : Nat) (chunk : List UInt8) (p : Pkt) : Prop :=
  p.seq = UInt16.ofNat i ∧ p.length.toNat = chunk.length ∧ p.mem.take chunk.length = chunk ∧
    520 ≤ p.mem.length

/-- Arrivals without loss: each arrival is the next packet of the stream, or the repetition of one
of the last 32766 packets.  `k` packets have arrived before, `n` have arrived in the end. -/
inductive Arrivals (chunks : List (List UInt8)) : Nat → List Pkt → Nat → Prop
  | nil (k : Nat) : Arrivals chunks k [] k
  | next {k n : Nat} {p : Pkt} {ps : List Pkt} {chunk : List UInt8} : chunks[k]? = some chunk →
      Carries k chunk p → Arrivals chunks (k + 1) ps n → Arrivals chunks k (p :: ps) n
  | again {k n j : Nat} {p : Pkt} {ps : List Pkt} : j < k → k ≤ j + 32766 →
      p.seq = UInt16.ofNat j → Arrivals chunks k ps n → Arrivals chunks k (p :: ps) n

/-- The new packets of a list of arrivals, given by absolute numbers, when all numbers below `next`
have been seen. -/
def fresh (next : Nat) : List (Nat × Pkt) → List (Nat × Pkt)
  | [] => []
  | (n, p) :: ps => if next ≤ n then (n, p) :: fresh (n + 1) ps else fresh next ps

/-- Every arrival is less than half the number space away from the next expected one. -/
def InWindow (next : Nat) : List (Nat × Pkt) → Prop
  | [] => True
  | (n, _) :: ps =>
    n ≤ next + 32766 ∧ next ≤ n + 32766 ∧ InWindow (if next ≤ n then n + 1 else next) ps

/-- Every write request is carried out completely (no request is longer than 2048 bytes). -/
def WritesAll (env : LogEnv) : Prop := ∀ i, ∃ k, env.wr i = .n k ∧ 2048 ≤ k

/-- Writing makes progress again and again: not for ever `EAGAIN` or 0 bytes. -/
def Progress (env : LogEnv) : Prop := ∀ i, ∃ j, i ≤ j ∧ env.wr j ≠ .again ∧ env.wr j ≠ .n 0

/-- The bytes `0xFD 0xFF` occur in a row: the size field 65533. -/
def HasFDFF (bs : List UInt8) : Prop := ∃ pre rest, bs = pre ++ 0xFD :: 0xFF :: rest

/-- A ULog endpoint that has just opened its file. -/
def Started (u : ULog) : Prop :=
  u.base.file = some [] ∧ u.waitHdr = true ∧ u.waitFirst = false ∧ u.expSeq = 0 ∧ u.pend = [] ∧
    u.idx = 0 ∧ u.part = []

/-- What the chunks of a stream satisfy: they make up the beginning of header and messages, each
fits a packet, and the first contains the header and is short enough to be handled within its
packet. -/
structure Cut (hdr : List UInt8) (msgs chunks : List (List UInt8)) : Prop where
  hdrLen : hdr.length = 16
  magic : hdr.take 7 = [0x55, 0x4C, 0x6F, 0x67, 0x01, 0x12, 0x35]
  whole : ∀ m ∈ msgs, WholeMsg m ∧ m.length ≤ 1800
  stream : ∃ rest, chunks.flatten ++ rest = hdr ++ msgs.flatten
  short : ∀ c ∈ chunks, c.length ≤ 249
  head : ∀ c, chunks[0]? = some c → 16 ≤ c.length ∧ c.length ≤ 233

end Verif.Spec
