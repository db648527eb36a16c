/- The packets of log data among the messages a ULog endpoint gets. -/
import Verif.Spec.ULogLoss
import Verif.Spec.Payload

namespace Verif.Spec

/-- The data packets in a sequence of events: LOGGING_DATA (266) and LOGGING_DATA_ACKED (267). -/
def dataPkts (env : LogEnv) : List ULogEv → List Pkt
  | [] => []
  | .msg m :: evs => (if m.msgId = 266 ∨ m.msgId = 267 then [m.pkt env] else []) ++ dataPkts env evs
  | .startTimeout :: evs => dataPkts env evs
  | .aliveTimeout :: evs => dataPkts env evs
  | .stop :: evs => dataPkts env evs

/-- The messages with data packets in a sequence of events. -/
def dataMsgs : List ULogEv → List Msg
  | [] => []
  | .msg m :: evs => if m.msgId = 266 ∨ m.msgId = 267 then m :: dataMsgs evs else dataMsgs evs
  | .startTimeout :: evs => dataMsgs evs
  | .aliveTimeout :: evs => dataMsgs evs
  | .stop :: evs => dataMsgs evs

/-- A LOGGING_DATA or LOGGING_DATA_ACKED message with packet `n`, its bytes `chunk` and the offset `first`: the payload is the number
(two bytes, little endian), two bytes of the target, the length, the offset and the data field of 249 bytes that begins with the
chunk; MAVLink 2 may leave out zeros at its end. -/
def DataMsg (n : Nat) (first : UInt8) (chunk : List UInt8) (m : Msg) : Prop :=
  (m.msgId = 266 ∨ m.msgId = 267) ∧ chunk.length ≤ 249 ∧
    ∃ head body tail fill cut ts tc, m.data = head ++ body ++ tail ∧ head.length = headerLen m ∧ body.length = m.payloadLen.toNat ∧
      body ++ List.replicate cut 0 =
        [UInt8.ofNat n, UInt8.ofNat (n / 256), ts, tc, UInt8.ofNat chunk.length, first] ++ chunk ++ fill ∧
      body.length + cut = 255 ∧ (m.data.head? = some 0xFD ∨ cut = 0)

end Verif.Spec
