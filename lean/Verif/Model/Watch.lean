import Verif.Model.Loop

/-
Registration with epoll (`Mainloop::add_fd`, src/mainloop.cpp:118-131) that fails. `add_fd` logs the error and returns -1; no caller
looks at the result for an endpoint: the accepted connection (src/mainloop.cpp:236), UARTs and UDP endpoints (379, 391), the TCP
client at start (src/endpoint.cpp:1513) and after reconnecting (1818). In the model of the loop registration succeeds.
-/

namespace Verif

/-- `handle_tcp_connection` (src/mainloop.cpp:224-243) with the result of `add_fd` (236): the endpoint is put into `g_endpoints`
(237) whatever the result. -/
def LoopSt.acceptReg (s : LoopSt) (ok regOk : Bool) : LoopSt :=
  if regOk then s.accept ok else { s.accept ok with poll := s.poll }

/-- `add_endpoints` for one endpoint (src/mainloop.cpp:370-403) with the result of `add_fd`. -/
def LoopSt.addEndpointReg (s : LoopSt) (c : EpConf) (regOk : Bool) : LoopSt :=
  if regOk then s.addEndpoint c else
    { s.addEndpoint c with poll := (s.addEndpoint c).poll.filter (· ≠ s.heap.length) }

/-- `add_endpoints` for all endpoints with the results of `add_fd`. -/
def LoopSt.configuredReg (cs : List (EpConf × Bool)) : LoopSt := cs.foldl (fun s c => s.addEndpointReg c.1 c.2) {}

end Verif
