/-
Automatic choice of the flight-stack logger, model of /repo/src/autolog.cpp and /repo/src/autolog.h,
and the log endpoints as one type.
-/
import Verif.Model.BinLog
import Verif.Model.TLog

namespace Verif

/-- What `AutoLog::_logger` points to (autolog.h:46). -/
inductive FlightLog where
  | ulog (u : ULog)
  | bin (l : BinLog)
deriving DecidableEq, Repr

/-- State of `AutoLog` (autolog.h:26-47).  `conf` and `mode` are `_config.fcu_id` and
`_config.log_mode`, given to the logger it creates; `target` its own `_target_system_id`. -/
structure AutoLog where
  conf : Option UInt8
  mode : LogMode
  target : Option UInt8
  logger : Option FlightLog := none
deriving DecidableEq, Repr

/-- `AutoLog` as constructed (autolog.h:28-31, logendpoint.cpp:60-81). -/
def AutoLog.init (conf : Option UInt8) (mode : LogMode) : AutoLog := { conf, mode, target := conf }

/-- `write_msg` of the chosen logger (virtual call, autolog.cpp:28). -/
def FlightLog.writeMsg (env : LogEnv) (l : FlightLog) (m : Msg) : Option (FlightLog × List UInt8) :=
  match l with
  | .ulog u => (u.writeMsg env m).map fun r => (.ulog r.1, r.2)
  | .bin l => some (.bin (l.writeMsg env m), m.data)

/-- The logger for the autopilot type in a heartbeat: 12 is `MAV_AUTOPILOT_PX4`, 3 is
`MAV_AUTOPILOT_ARDUPILOTMEGA` (autolog.cpp:46-53). -/
def AutoLog.choose (a : AutoLog) (autopilot : UInt8) : Option FlightLog :=
  if autopilot = 12 then some (.ulog (ULog.init a.conf a.mode))
  else if autopilot = 3 then some (.bin (BinLog.init a.conf a.mode))
  else none

/-- "set the expected system id to the first autopilot that we get a heartbeat from"
(autolog.cpp:31-35). -/
def AutoLog.learn (a : AutoLog) (m : Msg) : AutoLog :=
  if a.target = none ∧ m.msgId = 0 ∧ m.srcComp = 1 then { a with target := some m.srcSys } else a

/-- `AutoLog::write_msg` (autolog.cpp:25-56).  The heartbeat that decides is not given to the new
logger. -/
def AutoLog.writeMsg (env : LogEnv) (a : AutoLog) (m : Msg) : Option (AutoLog × List UInt8) :=
  match a.logger with
  | some l => (l.writeMsg env m).map fun r => ({ a with logger := some r.1 }, r.2)
  | none =>
    let a := a.learn m
    if m.msgId ≠ 0 ∨ a.target ≠ some m.srcSys then some (a, m.data)
    else some ({ a with logger := a.choose (m.rawByte env 5) }, m.data)

/-- Events of the chosen logger; before the choice timers do not exist and `stop` does nothing
(autolog.cpp:58-63). -/
def AutoLog.step (env : LogEnv) (a : AutoLog) (ev : ULogEv) : Option AutoLog :=
  match ev with
  | .msg m => (a.writeMsg env m).map (·.1)
  | ev =>
    match a.logger with
    | none => some a
    | some (.ulog u) => (u.step env ev).map fun u => { a with logger := some (.ulog u) }
    | some (.bin l) => some { a with logger := some (.bin (l.step env ev)) }

/-- A history of events. -/
def AutoLog.run (env : LogEnv) (a : AutoLog) : List ULogEv → Option AutoLog
  | [] => some a
  | ev :: evs =>
    match a.step env ev with
    | none => none
    | some a => a.run env evs

/-- The log endpoints `Mainloop::add_endpoints` creates (mainloop.cpp:425-448). -/
inductive Logger where
  | ulog (u : ULog)
  | bin (l : BinLog)
  | auto (a : AutoLog)
  | tlog (b : LogBase)
deriving DecidableEq, Repr

/-- `write_msg` of a log endpoint (virtual call, mainloop.cpp:145). -/
def Logger.writeMsg (env : LogEnv) (now : UInt64) (l : Logger) (m : Msg) : Option (Logger × List UInt8) :=
  match l with
  | .ulog u => (u.writeMsg env m).map fun r => (.ulog r.1, r.2)
  | .bin l => some (.bin (l.writeMsg env m), m.data)
  | .auto a => (a.writeMsg env m).map fun r => (.auto r.1, r.2)
  | .tlog b => some (.tlog (tlogWriteMsg env b now m), m.data)

/-- The common part of a log endpoint that sends messages. -/
def Logger.base : Logger → Option LogBase
  | .ulog u => some u.base
  | .bin l => some l.base
  | .auto a =>
    match a.logger with
    | none => none
    | some (.ulog u) => some u.base
    | some (.bin l) => some l.base
  | .tlog b => some b

end Verif
