import Verif.Model.SockListener
/-!
# Model of a whole `SockListener` (anthunder/listener/sock_listener.py:142-156): all connections, the registry

`ThreadingTCPServer` runs one thread per connection (`Model/SockListener.lean`); all of them use the `service_handler`
put into the class `SockBoltHandler` (149), whose registry is shared. There is no limit on the number of threads.

Simplifications. Every connection has a heap of RpcId objects of its own (contexts of different connections share no
objects). `shutdown` is `self.server.shutdown()` (156): `serve_forever` returns, nothing is accepted any more, the threads
of the connections go on. `serve_forever` is taken to be running before.
-/
namespace Bolt

/-- State of a listener (sock_listener.py:143-156). -/
structure SockSrv where
  conns : List SSt := []
  serving : Bool := true
  reg : Registry := []
  deriving DecidableEq, Repr

/-- Events: a connection is accepted; something happens on connection `c` (`SEv`, except registrations, which are those of
the listener); `register_interface`; `shutdown` (sock_listener.py:62-156). -/
inductive SockSrvEv where
  | accept
  | conn (c : Nat) (e : SEv)
  | register (r : Registration)
  | shutdown
  deriving DecidableEq, Repr

/-- events of the connection alone, as opposed to `register_interface` (sock_listener.py:62-77), whose dictionary all
connections share -/
def SEv.isLocal : SEv → Bool
  | .register _ => false
  | _ => true

/-- One event; events that cannot happen change nothing (sock_listener.py:62-156). -/
def ssrvStep (svc : Services) (s : SockSrv) : SockSrvEv → SockSrv
  | .accept => if s.serving then { s with conns := s.conns ++ [({ reg := s.reg } : SSt)] } else s
  | .conn c e => if e.isLocal then { s with conns := s.conns.modify c fun l => sstep svc l e } else s
  | .register r => { s with reg := registerInterface s.reg r, conns := s.conns.map fun l => sstep svc l (.register r) }
  | .shutdown => { s with serving := false }

/-- a schedule of a new listener (sock_listener.py:146-150) -/
def ssrvRun (svc : Services) (reg : Registry) (evs : List SockSrvEv) : SockSrv :=
  evs.foldl (ssrvStep svc) ({ reg := reg } : SockSrv)

end Bolt
