/-
The router with its actual log endpoints: `Mainloop::route_msg` calls `write_msg` of the log
endpoints `add_endpoints` created (/repo/src/mainloop.cpp:158-203, 425-448).
-/
import Verif.Model.Routing
import Verif.Model.AutoLog

namespace Verif

/-- A log endpoint in the router; `logger` is `none` after a call that does not return (see C52; the
router is then stuck, the model lets it go on without this log endpoint).  `tick` counts the calls
(mainloop.cpp:145). -/
structure LogSt where
  logger : Option Logger
  tick : Nat := 0
deriving DecidableEq, Repr

/-- Forget the record of messages sent so far (bookkeeping of the model, no code). -/
def LogBase.quiet (b : LogBase) : LogBase := { b with out := [] }

/-- Likewise for a log endpoint. -/
def Logger.quiet : Logger → Logger
  | .ulog u => .ulog { u with base := u.base.quiet }
  | .bin l => .bin { l with base := l.base.quiet }
  | .auto a => .auto { a with
      logger := a.logger.map fun l => match l with
        | .ulog u => .ulog { u with base := u.base.quiet }
        | .bin l => .bin { l with base := l.base.quiet } }
  | .tlog b => .tlog b.quiet

/-- The messages a log endpoint sent during a call, as handed to `route_msg`
(logendpoint.cpp:83-103). -/
def Logger.sent (env : LogEnv) (l : Logger) : List Msg :=
  match l.base with
  | none => []
  | some b => b.out.map (LogOut.toMsg env b.target)

/-- `write_msg` of log endpoint `i` (mainloop.cpp:145); `now` is the clock at the n-th call
(tlog.cpp:71). -/
def logWrite (le : Nat → LogEnv) (now : Nat → UInt64) (i : Nat) (s : LogSt) (m : Msg) :
    LogSt × List Msg × List UInt8 :=
  match s.logger with
  | none => (s, [], m.data)
  | some l =>
    match l.quiet.writeMsg (le i) (now s.tick) m with
    | none => ({ logger := none, tick := s.tick + 1 }, [], m.data)
    | some (l, data) => ({ logger := some l, tick := s.tick + 1 }, l.sent (le i), data)

/-- The event of a log endpoint for a call without message (logendpoint.cpp:404-407, 471-477,
mainloop.cpp:306-308). -/
def LogCall.event : LogCall → ULogEv
  | .start => .startTimeout
  | .alive => .aliveTimeout
  | .stop => .stop

/-- Such a call on a log endpoint (virtual calls).  The start timer of TLog does nothing
(tlog.cpp:34-38), it has no liveness timer, and nothing stops it at exit (mainloop.cpp:306-308). -/
def Logger.call (env : LogEnv) (c : LogCall) : Logger → Option Logger
  | .ulog u => (u.step env c.event).map .ulog
  | .bin l => some (.bin (l.step env c.event))
  | .auto a => (a.step env c.event).map .auto
  | .tlog b => some (.tlog b)

/-- A call without message into log endpoint `i`. -/
def logTimer (le : Nat → LogEnv) (i : Nat) (c : LogCall) (s : LogSt) : LogSt × List Msg :=
  match s.logger with
  | none => (s, [])
  | some l =>
    match l.quiet.call (le i) c with
    | none => ({ s with logger := none }, [])
    | some l => ({ s with logger := some l }, l.sent (le i))

/-- An environment with the actual log endpoints (mainloop.cpp:425-448). -/
def Env.withLogs (env : Env LogSt) (le : Nat → LogEnv) (now : Nat → UInt64) : Env LogSt :=
  { env with
    log := logWrite le now
    logCall := logTimer le }

end Verif
