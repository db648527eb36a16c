import Verif.Model.ReadLoop

/-
A write that finds its TCP connection broken closes the descriptor of a client that reconnects at once, inside
`TcpEndpoint::write_msg` (src/endpoint.cpp:1711-1720). `Verif.Model.Routing` leaves closing to a later event (`RouterEv.fd`). Here
the same functions are written with closing at once, and with reading and handling in turns (`Verif.Model.ReadLoop`).
-/

namespace Verif

variable {σ : Type}

/-- `Mainloop::write_msg` (src/mainloop.cpp:143-156) with `TcpEndpoint::write_msg` (src/endpoint.cpp:1685-1739) of a client that
reconnects: on `EPIPE` the descriptor is closed (1711-1713, 1795). `brk i k`: write number `k` is to link `i`, a client with
`_retry_timeout > 0`, and finds the connection broken; it is looked at only if the result of the write is `-EPIPE`. -/
def writeMsgNow (env : Env σ) (brk : Nat → Nat → Bool) (route : World σ → Msg → World σ) (gen : Bool) (w : World σ) (i : Nat) (m : Msg) :
    World σ × List UInt8 :=
  let r := writeMsg env route gen w i m
  if brk i w.out.length = true ∧ (w.eps[i]?).map Ep.kind = some .tcp ∧ (w.eps[i]?).map Ep.fdOpen = some true ∧ env.wres w.out.length = negEPIPE then
    (closeLink r.1 i, r.2)
  else r

/-- The loop of `route_msg` (src/mainloop.cpp:158-203), as `routeLoop`. -/
def routeLoopNow (env : Env σ) (brk : Nat → Nat → Bool) (route : World σ → Msg → World σ) (gen : Bool) :
    List Nat → World σ → Msg → Bool → World σ × Bool
  | [], w, _, unknown => (w, unknown)
  | i :: is, w, m, unknown =>
    match w.eps[i]? with
    | none => routeLoopNow env brk route gen is w m unknown
    | some e =>
      match acceptMsg env.sniffer e m with
      | .accepted =>
        let (w', data) := writeMsgNow env brk route gen w i m
        routeLoopNow env brk route gen is w' { m with data := data } false
      | .filtered => routeLoopNow env brk route gen is w m false
      | .rejected => routeLoopNow env brk route gen is w m unknown

/-- `Mainloop::route_msg` (src/mainloop.cpp:158-203), as `routeMsg`. -/
def routeMsgNow (env : Env σ) (brk : Nat → Nat → Bool) : Nat → Bool → World σ → Msg → World σ
  | 0, _, w, _ => w
  | depth + 1, gen, w, m =>
    let (w', unknown) := routeLoopNow env brk (routeMsgNow env brk depth true) gen w.active w m true
    if unknown then { w' with unknown := w'.unknown + 1 } else w'

/-- One message of `Endpoint::handle_read` (src/endpoint.cpp:231-248), as `handleMsg`. -/
def handleMsgNow (env : Env σ) (brk : Nat → Nat → Bool) (w : World σ) (i : Nat) (m : Msg) : Option (World σ × Bool) :=
  match w.eps[i]? with
  | none => some (w, false)
  | some e =>
    match w.dedup.check env.hashFn env.dedupPeriod (env.clock w.checks) m.data with
    | none => none
    | some (d, isNew) =>
      let w := { w with dedup := d, checks := w.checks + 1 }
      if !isNew then some (w, false)
      else if !allowedIn e.filters m then some (w, false)
      else
        match addSysComp (w.eps.length + 1) w.eps i (sysComp m.srcSys m.srcComp) with
        | none => none
        | some eps => some (routeMsgNow env brk 2 false { w with eps := eps } m, true)

/-- `Endpoint::handle_read` (src/endpoint.cpp:220-252), at most `n` calls of `read_msg`: read one message, handle it, read the next
one. -/
def handleReadNow (env : Env σ) (brk : Nat → Nat → Bool) (i : Nat) (io : SysRead) : Nat → World σ → Option (World σ × List Arrival)
  | 0, w => some (w, [])
  | n + 1, w =>
    match w.eps[i]? with
    | none => some (w, [])
    | some e =>
      match readMsg env.tbl e.fdOpen e.rx io with
      | (rx, .stop _) => some ({ w with eps := w.eps.set i { e with rx := rx } }, [])
      | (rx, .msg m _) =>
        match handleMsgNow env brk { w with eps := w.eps.set i { e with rx := rx } } i m with
        | none => none
        | some (w1, b) =>
          (handleReadNow env brk i io n w1).map (fun r => (r.1, { ep := i, msg := m, passed := b } :: r.2))

/-- A call into log endpoint `i` (src/logendpoint.cpp:404-407, 471-477, src/mainloop.cpp:306-308), as `logCall`. -/
def logCallNow (env : Env σ) (brk : Nat → Nat → Bool) (w : World σ) (i : Nat) (c : LogCall) : World σ :=
  match (w.eps[i]?).map Ep.kind with
  | some EpKind.log =>
    let (s, gs) := env.logCall i c (w.logs i)
    gs.foldl (routeMsgNow env brk 2 true) { w with logs := fun j => if j = i then s else w.logs j }
  | _ => w

/-- One event, as `routerStep` (src/mainloop.cpp:245-325). -/
def routerStepNow (env : Env σ) (brk : Nat → Nat → Bool) (w : World σ) : RouterEv → Option (World σ × List Arrival)
  | .read i io => handleReadNow env brk i io (rxBufMax + 1) w
  | .logCall i c => some (logCallNow env brk w i c, [])
  | ev => routerStep env w ev

/-- A history, as `runRouter` (src/mainloop.cpp:245-325). -/
def runRouterNow (env : Env σ) (brk : Nat → Nat → Bool) : World σ → List RouterEv → Option (World σ × List Arrival)
  | w, [] => some (w, [])
  | w, ev :: evs =>
    match routerStepNow env brk w ev with
    | none => none
    | some (w', as) =>
      match runRouterNow env brk w' evs with
      | none => none
      | some (w'', bs) => some (w'', as ++ bs)

end Verif
