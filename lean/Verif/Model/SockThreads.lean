import Verif.Model.SockServer
/-!
# A socket listener in a process with a limit on threads

`ThreadingTCPServer` starts a thread for each connection (sock_listener.py:150). Where the process can have `limit` of them at
once and they are all running, `Thread.start` raises RuntimeError; `socketserver` reports it and closes the connection
(`_handle_request_noblock`), and goes on accepting. `Model/SockServer.lean` has no limit.

Simplification. The limit is a constant; threads of other parts of the program are not counted.
-/
namespace Bolt

/-- the thread of the connection runs (sock_listener.py:91-140) -/
def SSt.running (s : SSt) : Bool := decide (s.phase ≠ .done)

/-- the number of threads of connections (sock_listener.py:150) -/
def SockSrv.threads (s : SockSrv) : Nat := s.conns.countP SSt.running

/-- One event (sock_listener.py:62-156); a connection that gets no thread is closed at once. -/
def limStep (limit : Nat) (svc : Services) (s : SockSrv) (e : SockSrvEv) : SockSrv :=
  match e with
  | .accept =>
    if s.serving then
      if s.threads < limit then { s with conns := s.conns ++ [({ reg := s.reg } : SSt)] }
      else { s with conns := s.conns ++ [({ reg := s.reg, phase := .done } : SSt)] }
    else s
  | e => ssrvStep svc s e

/-- a schedule of a new listener (sock_listener.py:146-150) -/
def limRun (limit : Nat) (svc : Services) (reg : Registry) (evs : List SockSrvEv) : SockSrv :=
  evs.foldl (limStep limit svc) ({ reg := reg } : SockSrv)

end Bolt
