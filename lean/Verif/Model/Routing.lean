import Verif.Model.Rx
import Verif.Model.Dedup

/-
Routing core: endpoint filters and learned addresses (src/endpoint.cpp:461-644, src/endpoint.h:160-305) and
`Mainloop::route_msg` (src/mainloop.cpp:143-203), with the message part of `Endpoint::handle_read`
(src/endpoint.cpp:220-252).

Endpoint objects live in a heap (`List Ep`, index = identity); `g_endpoints` is a list of indices.
-/

namespace Verif

/-- `UINT32_MAX`, compared with message ids in src/endpoint.cpp:527-556, 596-603. -/
def uint32Max : Nat := 4294967295

/-- The twelve filter vectors (src/endpoint.h:280-291). -/
structure Filters where
  allowOutMsg : List Nat := []
  blockOutMsg : List Nat := []
  allowOutComp : List UInt8 := []
  blockOutComp : List UInt8 := []
  allowOutSys : List UInt8 := []
  blockOutSys : List UInt8 := []
  allowInMsg : List Nat := []
  blockInMsg : List Nat := []
  allowInComp : List UInt8 := []
  blockInComp : List UInt8 := []
  allowInSys : List UInt8 := []
  blockInSys : List UInt8 := []
deriving DecidableEq, Repr

/-- Endpoint classes (src/endpoint.h:308-470, src/logendpoint.h). -/
inductive EpKind where
  | uart | udp | tcp | log
deriving DecidableEq, Repr

/-- The state of an `Endpoint` object that routing uses (src/endpoint.h:234-305).  `members` are the
`_group_members` pointers as heap indices; `fdOpen` is `fd >= 0` (false for a TCP client that is waiting to
reconnect). -/
structure Ep where
  kind : EpKind
  group : String := ""
  filters : Filters := {}
  learned : List UInt16 := []
  members : List Nat := []
  rx : Rx := {}
  fdOpen : Bool := true
deriving DecidableEq, Repr

/-- src/endpoint.cpp:463: `((uint16_t)sysid << 8) | compid`. -/
def sysComp (sys comp : UInt8) : UInt16 := (sys.toUInt16 <<< 8) ||| comp.toUInt16

/-- `has_sys_comp_id(unsigned)` (src/endpoint.cpp:492-501). -/
def Ep.hasSysComp (e : Ep) (id : UInt16) : Bool := e.learned.any (fun x => id == x)

/-- `has_sys_comp_id(unsigned, unsigned)` (src/endpoint.h:174-178): `((sysid & 0xff) << 8) | (compid & 0xff)`;
the arguments come from `int`s, so masking is reduction modulo 256. -/
def Ep.hasSysComp2 (e : Ep) (sys comp : Int) : Bool :=
  e.hasSysComp (sysComp (UInt8.ofNat (sys % 256).toNat) (UInt8.ofNat (comp % 256).toNat))

/-- `has_sys_id` (src/endpoint.cpp:482-490). -/
def Ep.hasSysId (e : Ep) (sys : Int) : Bool :=
  e.learned.any (fun x => (x >>> 8).toNat == (sys % 256).toNat)

/-- `AcceptState` (src/endpoint.h:151-155). -/
inductive Accept where
  | accepted | filtered | rejected
deriving DecidableEq, Repr

/-- One allow/block pair as written in `accept_msg`: true if the message must be discarded
(e.g. src/endpoint.cpp:527-536). -/
def filterDrops {α} [BEq α] (allow block : List α) (x : α) : Bool :=
  (!allow.isEmpty && !allow.contains x) || (!block.isEmpty && block.contains x)

/-- `Endpoint::accept_msg` (src/endpoint.cpp:503-586); not virtual, so it is also what runs for TCP endpoints
(`TcpEndpoint::accept_msg`, 1741-1750, is never called through `Endpoint`). -/
def acceptMsg (sniffer : UInt16) (e : Ep) (m : Msg) : Accept :=
  if e.hasSysComp2 m.srcSys.toNat m.srcComp.toNat then .rejected
  else if m.msgId ≠ uint32Max ∧ filterDrops e.filters.allowOutMsg e.filters.blockOutMsg m.msgId then .filtered
  else if m.msgId ≠ uint32Max ∧ filterDrops e.filters.allowOutComp e.filters.blockOutComp m.srcComp then
    .filtered
  else if m.msgId ≠ uint32Max ∧ filterDrops e.filters.allowOutSys e.filters.blockOutSys m.srcSys then
    .filtered
  else if m.targetSys = 0 ∨ m.targetSys = -1 then .accepted
  else if m.targetComp > 0 ∧ e.hasSysComp2 m.targetSys m.targetComp then .accepted
  else if (m.targetComp = 0 ∨ m.targetComp = -1) ∧ e.hasSysId m.targetSys then .accepted
  else if sniffer ≠ 0 ∧ e.hasSysId sniffer.toNat then .accepted
  else .rejected

/-- `Endpoint::allowed_by_incoming_filters` (src/endpoint.cpp:593-633). -/
def allowedIn (f : Filters) (m : Msg) : Bool :=
  !((m.msgId != uint32Max && filterDrops f.allowInMsg f.blockInMsg m.msgId)
    || filterDrops f.allowInComp f.blockInComp m.srcComp
    || filterDrops f.allowInSys f.blockInSys m.srcSys)

/-- `Endpoint::_add_sys_comp_id` (src/endpoint.cpp:461-480) on the heap, including the recursion into the group
members. `none`: recursion deeper than the fuel; a member index outside the heap (a dangling pointer; members
are owning `shared_ptr`s in the code) is skipped. -/
def addSysComp : Nat → List Ep → Nat → UInt16 → Option (List Ep)
  | 0, _, _, _ => none
  | fuel + 1, h, i, id =>
    match h[i]? with
    | none => some h
    | some e =>
      if e.hasSysComp id then some h
      else e.members.foldlM (fun h j => addSysComp fuel h j id)
        (h.set i { e with learned := e.learned ++ [id] })

/-- `link_group_member` (src/endpoint.cpp:635-644) as called by the double loop of `Mainloop::add_endpoints`
(src/mainloop.cpp:405-416; the name comparison there compares a name with itself, the real one is in
`link_group_member`): every endpoint gets all other endpoints with its non-empty group name, in order. -/
def linkGroups (eps : List Ep) : List Ep :=
  eps.mapIdx (fun i e =>
    if e.group = "" then e
    else { e with members := e.members ++ (List.range eps.length).filter (fun j =>
      j ≠ i ∧ (eps[j]?).map (·.group) = some e.group) })

/-- One `e->write_msg(buf)` call (src/mainloop.cpp:145): the endpoint, the bytes in the buffer at that moment,
and whether the message was generated by a log endpoint. -/
structure Sent where
  ep : Nat
  bytes : List UInt8
  gen : Bool
deriving DecidableEq, Repr

/-- State of `Mainloop` used by routing: the endpoint objects, `g_endpoints`, one state per log endpoint,
`_errors_aggregate.msg_to_unknown`, `should_process_tcp_hangups`, endpoints for which `EPOLLOUT` was requested,
the de-duplication memory, and the trace of writes. -/
structure World (σ : Type) where
  eps : List Ep
  active : List Nat
  logs : Nat → σ
  unknown : UInt32 := 0
  hangup : Bool := false
  pollOut : List Nat := []
  dedup : Dedup := {}
  checks : Nat := 0
  out : List Sent := []
  reported : List UInt32 := []

/-- Calls into a log endpoint that do not bring a message: its start timer (src/logendpoint.cpp:404-407), its
liveness timer (435-445), and the stop at exit (src/mainloop.cpp:306-308). -/
inductive LogCall where
  | start
  | alive
  | stop
deriving DecidableEq, Repr

/-- The environment: message table, hash, clock (by number of de-duplication checks), `write_msg` results of
UART/UDP/TCP endpoints (by number of writes), configuration, and the behaviour of the log endpoints: new state,
generated messages in order, and the bytes of the shared buffer afterwards (ULog edits it in place,
src/ulog.cpp:258-259, 307).  The generated messages are routed after the log state update; in the code the calls
are interleaved, which makes no difference because no log endpoint accepts them (theorem `C21_not_to_log`).
`logCall` is the same for calls without a message. -/
structure Env (σ : Type) where
  tbl : MsgTable
  hashFn : List UInt8 → UInt64
  clock : Nat → Int
  wres : Nat → Int
  sniffer : UInt16 := 0
  dedupPeriod : UInt32 := 0
  log : Nat → σ → Msg → σ × List Msg × List UInt8
  logCall : Nat → LogCall → σ → σ × List Msg := fun _ _ s => (s, [])

variable {σ : Type}

/-- `EPIPE` and `EAGAIN` on Linux, as negative return values (src/mainloop.cpp:151, 172). -/
def negEPIPE : Int := -32
def negEAGAIN : Int := -11

/-- `Mainloop::write_msg` (src/mainloop.cpp:143-156) and the `-EPIPE` check (172-174). `route` is the nested
`route_msg` used by `LogEndpoint::_send_msg` (src/logendpoint.cpp:83-103). Returns the buffer bytes
afterwards. -/
def writeMsg (env : Env σ) (route : World σ → Msg → World σ) (gen : Bool) (w : World σ) (i : Nat) (m : Msg) :
    World σ × List UInt8 :=
  match (w.eps[i]?).map Ep.kind with
  | some EpKind.log =>
    let (s, gs, data) := env.log i (w.logs i) m
    let w := { w with out := w.out ++ [{ ep := i, bytes := m.data, gen := gen }]
                      logs := fun j => if j = i then s else w.logs j }
    (gs.foldl route w, data)
  | _ =>
    -- src/endpoint.cpp:1690-1693: a TCP endpoint without a connection returns 0
    let r := if (w.eps[i]?).map Ep.fdOpen = some true then env.wres w.out.length else 0
    ({ w with out := w.out ++ [{ ep := i, bytes := m.data, gen := gen }]
              pollOut := if r = negEAGAIN then w.pollOut ++ [i] else w.pollOut
              hangup := w.hangup || r == negEPIPE }, m.data)

/-- The loop of `route_msg` (src/mainloop.cpp:158-203). -/
def routeLoop (env : Env σ) (route : World σ → Msg → World σ) (gen : Bool) :
    List Nat → World σ → Msg → Bool → World σ × Bool
  | [], w, _, unknown => (w, unknown)
  | i :: is, w, m, unknown =>
    match w.eps[i]? with
    | none => routeLoop env route gen is w m unknown
    | some e =>
      match acceptMsg env.sniffer e m with
      | .accepted =>
        let (w', data) := writeMsg env route gen w i m
        routeLoop env route gen is w' { m with data := data } false
      | .filtered => routeLoop env route gen is w m false
      | .rejected => routeLoop env route gen is w m unknown

/-- `Mainloop::route_msg` (src/mainloop.cpp:158-203). `depth` bounds the nesting caused by generated messages;
exceeding it drops the nested message (never happens with depth 2, theorem `C21_depth`). -/
def routeMsg (env : Env σ) : Nat → Bool → World σ → Msg → World σ
  | 0, _, w, _ => w
  | depth + 1, gen, w, m =>
    let (w', unknown) := routeLoop env (routeMsg env depth true) gen w.active w m true
    if unknown then { w' with unknown := w'.unknown + 1 } else w'

/-- The body of the loop of `Endpoint::handle_read` for one message (src/endpoint.cpp:231-248); the result also
says whether the message was passed to the router. `none`: undefined behaviour in de-duplication, or
runaway recursion in `_add_sys_comp_id`. An index without endpoint cannot occur and is ignored. -/
def handleMsg (env : Env σ) (w : World σ) (i : Nat) (m : Msg) : Option (World σ × Bool) :=
  match w.eps[i]? with
  | none => some (w, false)
  | some e =>
    match w.dedup.check env.hashFn env.dedupPeriod (env.clock w.checks) m.data with
    | none => none
    | some (d, isNew) =>
      let w := { w with dedup := d, checks := w.checks + 1 }
      if !isNew then some (w, false)
      else if !allowedIn e.filters m then some (w, false)
      else
        match addSysComp (w.eps.length + 1) w.eps i (sysComp m.srcSys m.srcComp) with
        | none => none
        | some eps => some (routeMsg env 2 false { w with eps := eps } m, true)

/-- A message that came out of the receive path of an endpoint, and whether it was passed to the router. -/
structure Arrival where
  ep : Nat
  msg : Msg
  passed : Bool
deriving DecidableEq, Repr

/-- Messages of one endpoint in order (loop of src/endpoint.cpp:225-249). -/
def runMsgs (env : Env σ) (i : Nat) : World σ → List Msg → Option (World σ × List Arrival)
  | w, [] => some (w, [])
  | w, m :: ms =>
    match handleMsg env w i m with
    | none => none
    | some (w', b) =>
      match runMsgs env i w' ms with
      | none => none
      | some (w'', as) => some (w'', { ep := i, msg := m, passed := b } :: as)

/-- `Endpoint::handle_read` (src/endpoint.cpp:220-252). The receive buffer is drained first and the messages are
processed afterwards; the code alternates (`handleReadLoop` in `Verif.Model.ReadLoop`), which is the same (theorem
`C121_handled_partial`) unless the descriptor is closed on the way, by a broken pipe of a TCP client that reconnects.
That a write to another link closes that one at once (src/endpoint.cpp:1711-1713) is in `Verif.Model.Broken`; the traffic is the
same (theorem `C135_later`).
(The ULog overflow of the receive buffer is in `Verif.Model.ULog`.) -/
def handleRead (env : Env σ) (w : World σ) (i : Nat) (io : SysRead) : Option (World σ × List Arrival) :=
  match w.eps[i]? with
  | none => some (w, [])
  | some e =>
    let r := drain env.tbl e.fdOpen (rxBufMax + 1) e.rx io
    runMsgs env i { w with eps := w.eps.set i { e with rx := r.1 } } (r.2.1.map Prod.fst)

/-- What happens to the router: an endpoint is readable; a TCP client connects to the server socket
(src/mainloop.cpp:224-243); hung-up TCP endpoints are removed (src/mainloop.cpp:205-222); the connection of a
TCP client is lost or established (src/endpoint.cpp:1752-1821); a log endpoint is called by a timer or at exit;
the aggregate timer fires (src/mainloop.cpp:327-340). -/
inductive RouterEv where
  | read (i : Nat) (io : SysRead)
  | accept
  | hangups (gone : List Nat)
  | fd (i : Nat) (isOpen : Bool)
  | logCall (i : Nat) (c : LogCall)
  | aggregate
deriving DecidableEq, Repr

/-- A call into log endpoint `i` (callbacks bound in src/logendpoint.cpp:404-407, 471-477 and
src/mainloop.cpp:306-308) and the routing of what it sends (src/logendpoint.cpp:83-103). -/
def logCall (env : Env σ) (w : World σ) (i : Nat) (c : LogCall) : World σ :=
  match (w.eps[i]?).map Ep.kind with
  | some EpKind.log =>
    let (s, gs) := env.logCall i c (w.logs i)
    gs.foldl (routeMsg env 2 true) { w with logs := fun j => if j = i then s else w.logs j }
  | _ => w

/-- `Mainloop::_log_aggregate_timeout` (src/mainloop.cpp:327-340): a positive count is printed and reset. The
counters of the endpoints are not part of this. -/
def aggregate (w : World σ) : World σ :=
  if w.unknown > 0 then { w with reported := w.reported ++ [w.unknown], unknown := 0 } else w

/-- One event. -/
def routerStep (env : Env σ) (w : World σ) : RouterEv → Option (World σ × List Arrival)
  | .read i io => handleRead env w i io
  | .accept => some ({ w with eps := w.eps ++ [{ kind := .tcp }], active := w.active ++ [w.eps.length] }, [])
  | .hangups gone => some ({ w with active := w.active.filter (fun i => i ∉ gone), hangup := false }, [])
  | .fd i o =>
    match w.eps[i]? with
    | none => some (w, [])
    | some e => some ({ w with eps := w.eps.set i { e with fdOpen := o } }, [])
  | .logCall i c => some (logCall env w i c, [])
  | .aggregate => some (aggregate w, [])

/-- A history of events; all arrivals in order. -/
def runRouter (env : Env σ) : World σ → List RouterEv → Option (World σ × List Arrival)
  | w, [] => some (w, [])
  | w, ev :: evs =>
    match routerStep env w ev with
    | none => none
    | some (w', as) =>
      match runRouter env w' evs with
      | none => none
      | some (w'', bs) => some (w'', as ++ bs)

end Verif
