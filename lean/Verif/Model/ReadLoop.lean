import Verif.Model.Routing

/-
The loop of `Endpoint::handle_read` (src/endpoint.cpp:220-252) in the order of the code: read one message, handle it, read
the next one. `handleRead` of `Verif.Model.Routing` takes all messages out of the receive buffer first; here the descriptor
can be closed between two messages.
-/

namespace Verif

variable {σ : Type}

/-- A write to endpoint `i` between the states `w` and `w'` returned `-EPIPE`. -/
def brokePipe (env : Env σ) (i : Nat) (w w' : World σ) : Bool :=
  (List.range w'.out.length).any (fun k =>
    decide (w.out.length ≤ k) && decide ((w'.out[k]?).map Sent.ep = some i) && decide (env.wres k = negEPIPE))

/-- `TcpEndpoint::close` as called by `_schedule_reconnect` (src/endpoint.cpp:1752-1762, 1795). -/
def closeLink (w : World σ) (i : Nat) : World σ :=
  match w.eps[i]? with
  | none => w
  | some e => { w with eps := w.eps.set i { e with fdOpen := false } }

/-- `Endpoint::handle_read` (src/endpoint.cpp:220-252), at most `n` calls of `read_msg`. `retry`: the endpoint is a TCP
client with `_retry_timeout > 0`, whose `write_msg` closes the descriptor when the connection is broken
(src/endpoint.cpp:1711-1720); `read_msg` then returns `-EINVAL` (263-266). Simplified: log endpoints change nothing behind the
message in the buffer; for the PX4 log see `C121_behind_partial` and `C121_spill_violated` (`Verif.Props.Spill`). -/
def handleReadLoop (env : Env σ) (retry : Bool) (i : Nat) (io : SysRead) : Nat → World σ → Option (World σ × List Arrival)
  | 0, w => some (w, [])
  | n + 1, w =>
    match w.eps[i]? with
    | none => some (w, [])
    | some e =>
      match readMsg env.tbl e.fdOpen e.rx io with
      | (rx, .stop _) => some ({ w with eps := w.eps.set i { e with rx := rx } }, [])
      | (rx, .msg m _) =>
        let w0 := { w with eps := w.eps.set i { e with rx := rx } }
        match handleMsg env w0 i m with
        | none => none
        | some (w1, b) =>
          let w2 := if retry && brokePipe env i w0 w1 then closeLink w1 i else w1
          (handleReadLoop env retry i io n w2).map (fun r => (r.1, { ep := i, msg := m, passed := b } :: r.2))

end Verif
