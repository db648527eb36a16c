import Verif.Spec.Routing

/- What the router gets to see of its links: messages, not reads. -/

namespace Verif.Spec

/-- The state of an endpoint without its receive buffer and receive statistics. -/
def noRx (e : Ep) : Ep := { e with rx := {} }

/-- The router without the receive buffers and receive statistics of its endpoints: settings, learned addresses, de-duplication memory,
all bytes written so far, counters, state of the logs. -/
def seen {σ : Type} (w : World σ) : World σ := { w with eps := w.eps.map noRx }

/-- A message received on a link, or an event other than reading. -/
inductive Input where
  | msg (i : Nat) (m : Msg)
  | other (ev : RouterEv)
deriving DecidableEq, Repr

/-- Receive states of all endpoints, and whether they are open. -/
def receivers {σ : Type} (w : World σ) : List (Rx × Bool) := w.eps.map (fun e => (e.rx, e.fdOpen))

/-- The messages that complete in a history of reads, in order with the other events; each link on its own
(`drain`: src/endpoint.cpp:220-252, C01 to C07). -/
def traffic (tbl : MsgTable) : List (Rx × Bool) → List RouterEv → List Input
  | _, [] => []
  | rs, ev :: evs =>
    match ev with
    | .read i io =>
      match rs[i]? with
      | none => traffic tbl rs evs
      | some r =>
        let x := drain tbl r.2 (rxBufMax + 1) r.1 io
        x.2.1.map (fun m => .msg i m.1) ++ traffic tbl (rs.set i (x.1, r.2)) evs
    | .accept => .other .accept :: traffic tbl (rs ++ [({}, true)]) evs
    | .fd i o => .other (.fd i o) :: traffic tbl (rs.modify i (fun r => (r.1, o))) evs
    | .hangups gone => .other (.hangups gone) :: traffic tbl rs evs
    | .logCall i c => .other (.logCall i c) :: traffic tbl rs evs
    | .aggregate => .other .aggregate :: traffic tbl rs evs

/-- Two routers that differ at most in receive statistics: everything else is the same, including the bytes of incomplete
messages in the receive buffers. -/
def Alike {σ : Type} (w w' : World σ) : Prop :=
  seen w = seen w' ∧ w.eps.map (fun e => (e.rx.buf, e.rx.lastLen)) = w'.eps.map (fun e => (e.rx.buf, e.rx.lastLen))

end Verif.Spec
