import Verif.Model.SockServer
/-!
# The end of a process with a socket listener

`ThreadingTCPServer` makes the threads of its connections with `daemon_threads = False` (the default of `ThreadingMixIn`, which
sock_listener.py:150 does not change). When the main thread has ended, the interpreter waits for all threads that are no
daemons. So the process ends when `serve_forever` has returned and the thread of every connection has left `handle`.

Simplification: the main thread does nothing else after `run_forever`, and the process has no other threads.
-/
namespace Bolt

/-- the interpreter ends: nothing is left to wait for (sock_listener.py:150-156) -/
def SockSrv.exits (s : SockSrv) : Prop := s.serving = false ∧ ∀ l ∈ s.conns, l.phase = .done

/-- the number of threads that have not left `handle` (sock_listener.py:91-140) -/
def SockSrv.live (s : SockSrv) : Nat := s.conns.countP fun l => decide (l.phase ≠ .done)

end Bolt
