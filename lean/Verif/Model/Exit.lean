import Verif.Model.LogRouter

/-
End of the program: the exit flag, signals and the exit status (src/mainloop.cpp:35-56, 77-81, 245-325,
src/main.cpp:636-643), and what is done with the log endpoints (src/mainloop.cpp:310-314).

Signals may arrive between any two steps; the two stores of `request_exit` are one step.
-/

namespace Verif

/-- Where the main loop is (src/mainloop.cpp:261-324): about to test the exit flag, between the test and `epoll_wait`,
waiting, handling the events of a batch (for each whether it is an error on a critical descriptor), cleaning up,
returned from `loop`. -/
inductive LoopPc where
  | check
  | before
  | waiting
  | handling (evs : List Bool)
  | cleanup
  | returned
deriving DecidableEq, Repr

/-- `should_exit`, `_retcode` (src/mainloop.cpp:35, src/mainloop.h:125) and the position; `open` has set `_retcode` to 0
(src/mainloop.cpp:98). -/
structure ExitSt where
  pc : LoopPc := .check
  exit : Bool := false
  ret : Int := 0
deriving DecidableEq, Repr

/-- What may happen next: a termination signal, a step of the program, events for the waiting program, an error of
`epoll_wait`. -/
inductive ExitEv where
  | signal
  | run
  | wake (evs : List Bool)
  | waitError
deriving DecidableEq, Repr

/-- `Mainloop::request_exit` (src/mainloop.cpp:77-81). -/
def ExitSt.request (s : ExitSt) (ret : Int) : ExitSt := { s with exit := true, ret }

/-- One step (src/mainloop.cpp:40-43, 261-324).  A signal interrupts `epoll_wait`, which returns `EINTR` (266-268); with
another error no event is handled and the loop goes on. A signal after the return of `loop` changes nothing
(src/main.cpp:636-639). -/
def ExitSt.step (s : ExitSt) : ExitEv → ExitSt
  | .signal =>
    if s.pc = .returned then s
    else if s.pc = .waiting then { s.request 0 with pc := .check }
    else s.request 0
  | .run =>
    match s.pc with
    | .check => { s with pc := if s.exit then .cleanup else .before }
    | .before => { s with pc := .waiting }
    | .handling [] => { s with pc := .check }
    | .handling (e :: es) =>
      if e then { s.request 1 with pc := .handling es } else { s with pc := .handling es }
    | .cleanup => { s with pc := .returned }
    | .waiting => s
    | .returned => s
  | .wake evs =>
    if s.pc = .waiting ∧ evs ≠ [] ∧ evs.length ≤ 8 then { s with pc := .handling evs } else s
  | .waitError => if s.pc = .waiting then { s with pc := .check } else s

/-- A history. -/
def ExitSt.exec (s : ExitSt) (es : List ExitEv) : ExitSt := es.foldl ExitSt.step s

/-- The exit status of the program (src/main.cpp:639). -/
def ExitSt.status (s : ExitSt) : Nat := if s.ret = 0 then 0 else 1

/-- The end of `Mainloop::loop` for the log endpoints (src/mainloop.cpp:310-314): the flight-stack logger, if there is one, is
stopped; then all endpoints are dropped.  `none`: `stop` does not return. -/
def exitLogs (env : LogEnv) (flight tlog : Option Logger) : Option (Option Logger × Option Logger) :=
  match flight with
  | none => some (none, tlog)
  | some l => (l.call env .stop).map fun l => (some l, tlog)

end Verif
