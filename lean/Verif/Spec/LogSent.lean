import Verif.Model.LogRouter

/- The calls of the router into one of its log endpoints, and what it is handed during them. -/

namespace Verif.Spec

/-- What log endpoint `i` does in one call: its new state and the messages it gives to the router. -/
def oneCall (env : Env LogSt) (i : Nat) (s : LogSt) : ULogEv → LogSt × List Msg
  | .msg m => ((env.log i s m).1, (env.log i s m).2.1)
  | .startTimeout => env.logCall i .start s
  | .aliveTimeout => env.logCall i .alive s
  | .stop => env.logCall i .stop s

/-- The same for a history of calls; the messages in order. -/
def allCalls (env : Env LogSt) (i : Nat) : LogSt → List ULogEv → LogSt × List Msg
  | s, [] => (s, [])
  | s, ev :: evs => ((allCalls env i (oneCall env i s ev).1 evs).1, (oneCall env i s ev).2 ++ (allCalls env i (oneCall env i s ev).1 evs).2)

end Verif.Spec
