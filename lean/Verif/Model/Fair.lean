import Verif.Model.Rx

/-
The loop of `Endpoint::handle_read` when every kernel read returns something else (src/endpoint.cpp:220-252, 254-297).
`Model/Rx` gives the loop one kernel result; here it may read as often as the code does.
-/

namespace Verif

/-- `n` rounds at most of the loop of `handle_read` (src/endpoint.cpp:225-229) with an open descriptor. `ios` are the results of
the successive kernel reads, `k` the number of reads made so far; `read_msg` reads exactly if `_last_packet_len` is 0
(268-290).  Result: receive state, messages, value returned, reads made; `none` for the value: still looping. -/
def readLoop (tbl : MsgTable) (ios : Nat → SysRead) : Nat → Rx → Nat → Rx × List (Msg × Bool) × Option Int × Nat
  | 0, rx, k => (rx, [], none, k)
  | n + 1, rx, k =>
    let k' := if rx.lastLen = 0 then k + 1 else k
    match readMsg tbl true rx (ios k) with
    | (rx', .stop r) => (rx', [], some r, k')
    | (rx', .msg m b) =>
      let q := readLoop tbl ios n rx' k'
      (q.1, (m, b) :: q.2.1, q.2.2)

end Verif
