/-
The poll loop (src/mainloop.cpp:205-325) with the lifetime of endpoints and timers, the TCP connection state
machine (src/endpoint.cpp:1452-1515, 1606-1739, 1752-1762, 1788-1821) and the timer handles of the endpoints.

What a handler does between two observable points is an arbitrary list of actions (`Act`): writes to endpoints with
arbitrary results, creating, changing and cancelling timers through `Timeout *` members. Descriptor numbers are
dropped: an object owns at most one descriptor, so "in the poll set" is a property of the object.
-/

namespace Verif

/-- Whose callback a timer runs: one kept in a `Timeout *` member (numbered slots: `nomessage_timeout`,
`_change_baud_timeout`, the three members of `LogEndpoint::_timeout`, and the ones nobody keeps), whose callbacks
always return true (src/endpoint.cpp:954-966, 1276-1294, src/logendpoint.cpp:435-463, src/ulog.cpp:42-56,
src/binlog.cpp:28-46, src/tlog.cpp:35-39, src/mainloop.cpp:327-354), or the reconnect callback of a TCP endpoint
(src/endpoint.cpp:1810-1821). `LogEndpoint::_fsync` returns false only without open file; its timer is cancelled
whenever the file is closed. -/
inductive TCb where
  | slot (s : Nat)
  | retry (ep : Nat)
deriving DecidableEq, Repr

/-- Objects: timers (src/timeout.h), TCP endpoints (src/endpoint.h:362-402; `members` are the owning pointers
`_group_members`), all other endpoints. -/
inductive Obj where
  | timer (removeMe : Bool) (ms : UInt32) (cb : TCb)
  | tcp (fdOpen valid : Bool) (retry : Int) (members : List Nat)
  | plain (members : List Nat)
deriving DecidableEq, Repr

/-- State: objects by address (`none`: destroyed; addresses are not reused), the epoll set, `g_endpoints`,
`_timeouts`, the `Timeout *` members, `should_process_tcp_hangups` and `should_exit`
(src/mainloop.cpp:35, src/mainloop.h:80, 110-128). -/
structure LoopSt where
  heap : List (Option Obj) := []
  poll : List Nat := []
  endpoints : List Nat := []
  timers : List Nat := []
  slots : Nat → Option Nat := fun _ => none
  hangup : Bool := false
  exit : Bool := false

/-- The object at an address. -/
def LoopSt.obj (s : LoopSt) (p : Nat) : Option Obj := (s.heap[p]?).join

/-- Assignment to an object. -/
def LoopSt.put (s : LoopSt) (p : Nat) (o : Option Obj) : LoopSt := { s with heap := s.heap.set p o }

/-- `add_timeout` (src/mainloop.cpp:506-533); `ok`: the system calls succeed. Returns the timer or `nullptr`. -/
def LoopSt.addTimeout (s : LoopSt) (ms : UInt32) (cb : TCb) (ok : Bool) : LoopSt × Option Nat :=
  if ok then
    ({ s with
        heap := s.heap ++ [some (.timer false ms cb)]
        poll := s.heap.length :: s.poll
        timers := s.heap.length :: s.timers }, some s.heap.length)
  else (s, none)

/-- `del_timeout` (src/mainloop.cpp:535-538); `none`: dangling pointer. -/
def LoopSt.delTimeout (s : LoopSt) (t : Nat) : Option LoopSt :=
  match s.obj t with
  | some (.timer _ ms cb) => some (s.put t (some (.timer true ms cb)))
  | _ => none

/-- `mod_timeout` (src/mainloop.cpp:540-550); `none`: dangling pointer. -/
def LoopSt.modTimeout (s : LoopSt) (t : Nat) (ms : UInt32) : Option LoopSt :=
  match s.obj t with
  | some (.timer r _ cb) => some (s.put t (some (.timer r ms cb)))
  | _ => none

/-- `MSEC_PER_SEC * _retry_timeout` converted to the `uint32_t` parameter (src/endpoint.cpp:1797-1798). -/
def retryMs (retry : Int) : UInt32 := UInt32.ofNat ((1000 * retry) % 4294967296).toNat

/-- `_schedule_reconnect` (src/endpoint.cpp:1788-1808), including `close` (1752-1762), followed by
`_valid = true` (1673, 1718). Only called with `retry > 0`. -/
def LoopSt.scheduleReconnect (s : LoopSt) (p : Nat) (retry : Int) (members : List Nat) (ok : Bool) : LoopSt :=
  let s := { s.put p (some (.tcp false true retry members)) with poll := s.poll.filter (· ≠ p) }
  (s.addTimeout (retryMs retry) (.retry p) ok).1

/-- Results of the `sendto`/`write` system call that matter here. -/
inductive WRes where
  | ok | again | epipe | err
deriving DecidableEq, Repr

/-- What handlers do to shared state. `timerOk` says whether creating a timer succeeds, should one be needed. -/
inductive Act where
  | write (q : Nat) (r : WRes) (timerOk : Bool)
  | setSlot (s : Nat) (ms : UInt32) (timerOk : Bool)
  | clearSlot (s : Nat)
  | modSlot (s : Nat) (ms : UInt32)
deriving DecidableEq, Repr

/-- One action. `write`: `Mainloop::write_msg` on a member of `g_endpoints` (src/mainloop.cpp:143-174) with
`TcpEndpoint::write_msg` (src/endpoint.cpp:1685-1739). `setSlot`: `member = add_timeout(…)`. `clearSlot`: cancel and
forget if set (src/logendpoint.cpp:360-373, 465-469, src/endpoint.cpp:979-980). `modSlot`: src/endpoint.cpp:1278,
1320. `none`: access to a destroyed object. -/
def LoopSt.act (s : LoopSt) : Act → Option LoopSt
  | .write q r ok =>
    if q ∈ s.endpoints then
      match s.obj q with
      | none => none
      | some (.tcp true _ retry members) =>
        if r = .epipe then
          let s := if retry > 0 then s.scheduleReconnect q retry members ok
            else s.put q (some (.tcp true false retry members))
          some { s with hangup := true }
        else some s
      | some _ => some s
    else some s
  | .setSlot k ms ok =>
    let r := s.addTimeout ms (.slot k) ok
    some { r.1 with slots := fun j => if j = k then r.2 else r.1.slots j }
  | .clearSlot k =>
    match s.slots k with
    | none => some s
    | some t => (s.delTimeout t).map (fun s => { s with slots := fun j => if j = k then none else s.slots j })
  | .modSlot k ms =>
    match s.slots k with
    | none => some s
    | some t => s.modTimeout t ms

/-- Several actions. -/
def LoopSt.acts (s : LoopSt) : List Act → Option LoopSt
  | [] => some s
  | a :: as => (s.act a).bind (fun s => s.acts as)

/-- How reading an endpoint ends. -/
inductive RStop where
  | again | eof | err
deriving DecidableEq, Repr

/-- One `epoll_event`: the listening socket, or an object with `EPOLLIN` (actions of the handler, how reading
stops, whether a timer read yields an expiry, whether connecting succeeds, timer creation), `EPOLLOUT`,
`EPOLLERR`. -/
inductive PollEv where
  | listener (ok : Bool)
  | obj (p : Nat) (isIn : Bool) (as : List Act) (stop : RStop) (expired connOk timerOk : Bool) (isOut isErr : Bool)
deriving DecidableEq, Repr

/-- `handle_tcp_connection` (src/mainloop.cpp:224-243), `TcpEndpoint::accept` (src/endpoint.cpp:1522-1552: no
reconnect). -/
def LoopSt.accept (s : LoopSt) (ok : Bool) : LoopSt :=
  if ok then
    { s with
      heap := s.heap ++ [some (.tcp true true 0 [])]
      endpoints := s.endpoints ++ [s.heap.length]
      poll := s.heap.length :: s.poll }
  else s

/-- `p->handle_read()` and the hang-up check (src/mainloop.cpp:277-283) for an endpoint or a timer. -/
def LoopSt.handleIn (s : LoopSt) (p : Nat) (as : List Act) (stop : RStop) (expired connOk timerOk : Bool) :
    Option LoopSt :=
  match s.obj p with
  | none => none
  | some (.plain _) => s.acts as
  | some (.tcp _ _ _ _) =>
    match s.acts as with
    | none => none
    | some s =>
      match s.obj p with
      | some (.tcp true v retry members) =>
        match stop with
        | .again => some s
        | .err => if v then some s else some { s with hangup := true }
        | .eof =>
          -- src/endpoint.cpp:1672-1681
          if retry > 0 then some (s.scheduleReconnect p retry members timerOk)
          else some { s.put p (some (.tcp true false retry members)) with hangup := true }
      | some (.tcp false v _ _) =>
        -- `read_msg` with `fd < 0`: -EINVAL (src/endpoint.cpp:263-266)
        if v then some s else some { s with hangup := true }
      | _ => none
  | some (.timer removeMe _ cb) =>
    -- `Timeout::handle_read` (src/timeout.cpp:31-45)
    if expired ∧ removeMe = false then
      match cb with
      | .slot _ => s.acts as
      | .retry e =>
        -- `_retry_timeout_cb` (src/endpoint.cpp:1810-1821), `open` (1606-1647)
        match s.obj e with
        | some (.tcp _ v retry members) =>
          if connOk then
            let s := { s.put e (some (.tcp true true retry members)) with poll := e :: s.poll.filter (· ≠ e) }
            match s.obj p with
            | some (.timer _ ms cb) => some (s.put p (some (.timer true ms cb)))
            | _ => none
          else some (s.put e (some (.tcp false v retry members)))
        | _ => none
    else some s

/-- The body of the event loop for one event (src/mainloop.cpp:268-302). `EPOLLOUT` re-registers the descriptor
without `EPOLLOUT` (no endpoint has pending messages: `flush_pending_msgs` returns `-ENOSYS`); `EPOLLERR` on an
object other than a TCP endpoint ends the router (`is_critical`). -/
def LoopSt.handle (s : LoopSt) : PollEv → Option LoopSt
  | .listener ok => some (s.accept ok)
  | .obj p isIn as stop expired connOk timerOk isOut isErr =>
    match if isIn then s.handleIn p as stop expired connOk timerOk else some s with
    | none => none
    | some s =>
      if isOut ∨ isErr then
        match s.obj p with
        | none => none
        | some (.tcp _ _ _ _) => some s
        | some _ => some { s with exit := s.exit || isErr }
      else some s

/-- The events of one batch. -/
def LoopSt.handleAll (s : LoopSt) : List PollEv → Option LoopSt
  | [] => some s
  | e :: es => (s.handle e).bind (fun s => s.handleAll es)

/-- The endpoint is a TCP endpoint with `_valid == false`. -/
def LoopSt.invalid (s : LoopSt) (p : Nat) : Bool :=
  match s.obj p with
  | some (.tcp _ v _ _) => !v
  | _ => false

/-- Some existing object has an owning pointer to `p` among its group members. -/
def LoopSt.owned (s : LoopSt) (p : Nat) : Bool :=
  s.heap.any (fun o => match o with
    | some (.tcp _ _ _ ms) => ms.contains p
    | some (.plain ms) => ms.contains p
    | _ => false)

/-- Erasing a `shared_ptr` from `g_endpoints`: the object is destroyed, and its descriptor closed and taken out of
the poll set (`~TcpEndpoint`, src/endpoint.cpp:1447-1450), if nobody else owns it. -/
def LoopSt.release (s : LoopSt) (p : Nat) : LoopSt :=
  if s.owned p then s else { s.put p none with poll := s.poll.filter (· ≠ p) }

/-- `process_tcp_hangups` (src/mainloop.cpp:205-222). -/
def LoopSt.processHangups (s : LoopSt) : LoopSt :=
  let gone := s.endpoints.filter s.invalid
  let s := { s with endpoints := s.endpoints.filter (fun p => !s.invalid p) }
  { gone.foldl LoopSt.release s with hangup := false }

/-- The timer is marked for removal. -/
def LoopSt.marked (s : LoopSt) (t : Nat) : Bool :=
  match s.obj t with
  | some (.timer r _ _) => r
  | _ => false

/-- `_del_timeouts` (src/mainloop.cpp:552-578) on the abstract list (theorem `C33_sweep` is about the pointers). -/
def LoopSt.sweep (s : LoopSt) : LoopSt :=
  let gone := s.timers.filter s.marked
  { s with
    timers := s.timers.filter (fun t => !s.marked t)
    heap := s.heap.mapIdx (fun i o => if i ∈ gone then none else o)
    poll := s.poll.filter (· ∉ gone) }

/-- One iteration of the loop (src/mainloop.cpp:260-311). -/
def LoopSt.iteration (s : LoopSt) (evs : List PollEv) : Option LoopSt :=
  (s.handleAll evs).map (fun s => (if s.hangup then s.processHangups else s).sweep)

/-- Configured endpoints: TCP clients (`RetryTimeout`, whether the first connection succeeds, timer creation), or
others; with the group members. -/
inductive EpConf where
  | tcp (retry : Int) (connOk timerOk : Bool) (members : List Nat)
  | plain (members : List Nat)
deriving DecidableEq, Repr

/-- `add_endpoints` for one endpoint (src/mainloop.cpp:370-403) with `TcpEndpoint::setup`
(src/endpoint.cpp:1502-1514). The members are linked later in the code; they are set here at once. -/
def LoopSt.addEndpoint (s : LoopSt) : EpConf → LoopSt
  | .plain ms =>
    { s with
      heap := s.heap ++ [some (.plain ms)]
      endpoints := s.endpoints ++ [s.heap.length]
      poll := s.heap.length :: s.poll }
  | .tcp retry connOk timerOk ms =>
    let p := s.heap.length
    let s' := { s with heap := s.heap ++ [some (.tcp connOk true retry ms)]
                       endpoints := s.endpoints ++ [p] }
    if connOk then { s' with poll := p :: s'.poll }
    else if retry > 0 then s'.scheduleReconnect p retry ms timerOk
    else s'

/-- The state when the loop starts. -/
def LoopSt.configured (cs : List EpConf) : LoopSt := cs.foldl LoopSt.addEndpoint {}

end Verif
