/-
Message de-duplication: src/dedup.cpp:25-99, called from `Mainloop::dedup_check_msg`
(src/mainloop.cpp:356-360).
-/

namespace Verif

/-- `DedupImpl` (src/dedup.cpp:61-66): `_time_hash_queue` (front first) and `_packet_hash_set`.  The set is a
list without order significance. -/
structure Dedup where
  queue : List (UInt32 × UInt64) := []
  set : List UInt64 := []
deriving DecidableEq, Repr

/-- src/dedup.cpp:37-38: `duration_cast<milliseconds>(now - start).count()` is a signed 64-bit number of
milliseconds, converted to `uint32_t`. `now` is the elapsed time of the system clock, which may be stepped, so
any integer is allowed. -/
def dedupTimestamp (now : Int) : UInt32 := UInt32.ofNat (now % 4294967296).toNat

/-- src/dedup.cpp:40-46: drop expired entries from the front. `first + dedup_period_ms` is a 32-bit sum.
`none` is undefined behaviour: erasing the end iterator when the hash is not in the set. -/
def dedupExpire (ts period : UInt32) : List (UInt32 × UInt64) → List UInt64 →
    Option (List (UInt32 × UInt64) × List UInt64)
  | [], s => some ([], s)
  | (t, h) :: q, s =>
    if ts > t + period then
      if h ∈ s then dedupExpire ts period q (s.erase h) else none
    else some ((t, h) :: q, s)

/-- `DedupImpl::check_packet` (src/dedup.cpp:34-63) with the hash of the packet already computed
(50-51; `std::hash` is an arbitrary function, see `Dedup.check`). The result is `true` for a new packet. -/
def Dedup.checkHash (d : Dedup) (period : UInt32) (now : Int) (hash : UInt64) : Option (Dedup × Bool) :=
  let ts := dedupTimestamp now
  match dedupExpire ts period d.queue d.set with
  | none => none
  | some (q, s) =>
    if hash ∈ s then some ({ queue := q, set := s }, false)
    else some ({ queue := q ++ [(ts, hash)], set := hash :: s }, true)

/-- `Dedup::check_packet` (src/dedup.cpp:88-99): disabled with period 0. -/
def Dedup.check (hashFn : List UInt8 → UInt64) (d : Dedup) (period : UInt32) (now : Int)
    (pkt : List UInt8) : Option (Dedup × Bool) :=
  if period = 0 then some (d, true) else d.checkHash period now (hashFn pkt)

/-- A sequence of packets with clock readings; the results in order (`true` = passed on). -/
def Dedup.run (hashFn : List UInt8 → UInt64) (period : UInt32) :
    Dedup → List (Int × List UInt8) → Option (Dedup × List Bool)
  | d, [] => some (d, [])
  | d, (now, pkt) :: es =>
    match d.check hashFn period now pkt with
    | none => none
    | some (d', b) =>
      match d'.run hashFn period es with
      | none => none
      | some (d'', bs) => some (d'', b :: bs)

end Verif
