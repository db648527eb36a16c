import Verif.Model.Link

/-
Periodic jobs of the main loop: the reports of incomplete messages (src/endpoint.cpp:711-722, src/mainloop.cpp:327-340)
and the background sync of log files (src/logendpoint.cpp:61-64, 357-386, 410-420, 447-463).
-/

namespace Verif

/-- A link as far as the reports are concerned; `reports` are the counts logged so far. -/
structure AggSt where
  tx : TxSt
  alive : Bool := true
  reports : List UInt32 := []
deriving DecidableEq, Repr

/-- Writing events, the 5 s timer, the endpoint is destroyed (`process_tcp_hangups`, src/mainloop.cpp:205-222). -/
inductive AggEv where
  | tx (e : TxEv)
  | tick
  | destroy
deriving DecidableEq, Repr

/-- One event; at a tick `Endpoint::log_aggregate` (src/endpoint.cpp:711-722) of every endpoint is called. -/
def aggStep (k : LinkKind) (s : AggSt) : AggEv → AggSt
  | .tx e => if s.alive then { s with tx := txStep k s.tx e } else s
  | .tick =>
    if s.alive then
      if s.tx.tx.incomplete > 0 then
        { s with
          reports := s.reports ++ [s.tx.tx.incomplete]
          tx := { s.tx with tx := { s.tx.tx with incomplete := 0 } } }
      else s
    else s
  | .destroy => { s with alive := false }

/-- A history. -/
def aggRun (k : LinkKind) (s : AggSt) (es : List AggEv) : AggSt := es.foldl (aggStep k) s

/-- The open log file (numbered) of a log endpoint, `aio_fildes` of its control block (`none`: -1), the file for which the system
is executing an operation with this control block, and whether the control block was handed over or freed while in
use (undefined behaviour). -/
structure SyncSt where
  file : Option Nat := none
  cbFd : Option Nat := none
  busy : Option Nat := none
  ub : Bool := false
deriving DecidableEq, Repr

/-- What happens: a log is started, the 1 s timer (`queued`: `aio_fsync` accepts the
operation, if called), the log is stopped, the endpoint is destroyed, the system finishes. -/
inductive SyncEv where
  | start (file : Nat)
  | tick (queued : Bool)
  | stop
  | destroy
  | done
deriving DecidableEq, Repr

/-- `LogEndpoint::_fsync` (src/logendpoint.cpp:447-463). -/
def SyncSt.fsync (s : SyncSt) (queued : Bool) : SyncSt :=
  match s.file with
  | none => s
  | some f =>
    if s.cbFd.isSome ∧ s.busy.isSome then s
    else { s with cbFd := some f, busy := if queued then some f else s.busy, ub := s.ub || s.busy.isSome }

/-- One event. `stop` (src/logendpoint.cpp:357-386) forgets the descriptor in the control block; nothing waits for the
operation or cancels it, also not the destructor. -/
def syncStep (s : SyncSt) : SyncEv → SyncSt
  | .start f => if s.file.isSome then s else { s with file := some f }
  | .tick q => s.fsync q
  | .stop => { s with file := none, cbFd := none }
  | .destroy => { s with file := none, ub := s.ub || s.busy.isSome }
  | .done => { s with busy := none }

/-- A history. -/
def syncRun (s : SyncSt) (es : List SyncEv) : SyncSt := es.foldl syncStep s

end Verif
