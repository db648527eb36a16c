/-
The telemetry log endpoint, model of /repo/src/tlog.cpp and /repo/src/tlog.h.
-/
import Verif.Model.LogCore

namespace Verif

/-- `htobe64` (tlog.cpp:72): the eight bytes of the timestamp, most significant first. -/
def be64 (t : UInt64) : List UInt8 :=
  [(t >>> 56).toUInt8, (t >>> 48).toUInt8, (t >>> 40).toUInt8, (t >>> 32).toUInt8,
   (t >>> 24).toUInt8, (t >>> 16).toUInt8, (t >>> 8).toUInt8, t.toUInt8]

/-- `TLog::stop` (tlog.cpp:49-57). -/
def tlogStop (b : LogBase) : LogBase := if b.file = none then b else b.stop

/-- `_handle_auto_start_stop` for TLog (logendpoint.cpp:480-514, tlog.cpp:40-57). -/
def tlogAuto (env : LogEnv) (b : LogBase) (m : Msg) : LogBase :=
  match b.autoAct env m with
  | .nothing => b
  | .start =>
    match b.start env with
    | (b, true) => b
    | (b, false) => { b with mode := .disabled }
  | .stop => tlogStop b

/-- `TLog::write_msg` (tlog.cpp:59-77); `now` is the system clock in microseconds.  The results of
the two `write` calls are ignored. -/
def tlogWriteMsg (env : LogEnv) (b : LogBase) (now : UInt64) (m : Msg) : LogBase :=
  let b := tlogAuto env (b.learnTarget m) m
  let b := (b.write env (be64 now)).1
  (b.write env m.data).1

/-- What happens to a TLog endpoint.  Its timer callback does nothing (tlog.cpp:34-38); nothing in
the program calls its `stop` except `_handle_auto_start_stop`. -/
structure TLogEv where
  now : UInt64
  msg : Msg
deriving DecidableEq, Repr

/-- A history. -/
def tlogRun (env : LogEnv) (b : LogBase) (evs : List TLogEv) : LogBase :=
  evs.foldl (fun b ev => tlogWriteMsg env b ev.now ev.msg) b

end Verif
