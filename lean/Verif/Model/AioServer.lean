import Verif.Model.AioListener
/-!
# Model of a whole `AioListener` (anthunder/listener/aio_listener.py): all connections, the thread pool, the registry

A listener serves any number of connections, each with its own `_handler_connection` and tasks (`Model/AioListener.lean`).
They share the handler object: its `interface_mapping` and its `ThreadPoolExecutor(max_workers=30)`
(aio_listener.py:52-55).

The executor, as the standard library has it: `submit` appends to a first-in-first-out queue; each of at most
`max_workers` threads takes the head of the queue, drops it if it has been cancelled, and otherwise runs it to its end
before it takes another one. There is a free thread whenever fewer than `max_workers` calls are running.

Simplifications. Every connection has a heap of RpcId objects of its own (contexts of different connections share no
objects) and a clock that starts when it is accepted (only differences of times matter). `shutdown` is
`self._server.close()`: the listening socket is closed, nothing else happens.
-/
namespace Bolt

/-- `MAX_WORKER` (aio_listener.py:52) -/
def maxWorker : Nat := 30

/-- State of a listener. A call is named by its connection and its number there. `queue`: submitted, not yet taken by a
thread. `running`: what the threads are busy with. `subs` (all submissions in order) is a ghost
(aio_listener.py:52-57, 100-103). -/
structure SrvSt where
  conns : List LSt := []
  queue : List (Nat × Nat) := []
  running : List (Nat × Nat) := []
  subs : List (Nat × Nat) := []
  listening : Bool := true
  reg : Registry := []
  deriving DecidableEq, Repr

/-- Events of aio_listener.py: a connection is accepted (111); something happens on connection `c` (`LEv`, except the
events of the executor, the clock and the registry, which are those of the listener); a thread takes the head of the
queue; the method of a running call ends; time passes; `register_interface` (78-94); `shutdown` (116-121). -/
inductive SrvEv where
  | accept
  | conn (c : Nat) (e : LEv)
  | take
  | finish (c k : Nat) (o : Outcome)
  | tick (d : Nat)
  | register (r : Registration)
  | shutdown
  deriving DecidableEq, Repr

/-- events that concern one connection only (aio_listener.py:123-271) -/
def LEv.isLocal : LEv → Bool
  | .futStart _ | .futFinish _ _ | .tick _ | .register _ => false
  | _ => true

/-- the calls that connection `c` has submitted in a step from `l` to `l'` (`executor.submit`, aio_listener.py:74) -/
def submitted (c : Nat) (l l' : LSt) : List (Nat × Nat) :=
  (List.range' l.futs.length (l'.futs.length - l.futs.length)).map fun k => (c, k)

/-- the state of a call (aio_listener.py:74-76) -/
def SrvSt.futSt (s : SrvSt) (x : Nat × Nat) : Option FutSt := s.conns[x.1]?.bind fun l => l.futSt x.2

/-- One event; events that cannot happen change nothing (aio_listener.py:52-121). -/
def srvStep (svc : Services) (s : SrvSt) : SrvEv → SrvSt
  | .accept => if s.listening then { s with conns := s.conns ++ [({ reg := s.reg } : LSt)] } else s
  | .conn c e =>
    if e.isLocal then
      match s.conns[c]? with
      | none => s
      | some l =>
        let l' := lstep svc l e
        { s with conns := s.conns.set c l', queue := s.queue ++ submitted c l l', subs := s.subs ++ submitted c l l' }
    else s
  | .take =>
    match s.queue with
    | [] => s
    | x :: q =>
      if s.running.length < maxWorker then
        if s.futSt x = some .queued then
          { s with queue := q, running := s.running ++ [x],
                   conns := s.conns.modify x.1 fun l => lstep svc l (.futStart x.2) }
        else { s with queue := q }
      else s
  | .finish c k o =>
    if (c, k) ∈ s.running then
      { s with running := s.running.erase (c, k), conns := s.conns.modify c fun l => lstep svc l (.futFinish k o) }
    else s
  | .tick d => { s with conns := s.conns.map fun l => lstep svc l (.tick d) }
  | .register r => { s with reg := registerInterface s.reg r, conns := s.conns.map fun l => lstep svc l (.register r) }
  | .shutdown => { s with listening := false }

/-- a schedule of a new listener (aio_listener.py:100-114) -/
def srvRun (svc : Services) (reg : Registry) (evs : List SrvEv) : SrvSt :=
  evs.foldl (srvStep svc) ({ reg := reg } : SrvSt)

end Bolt
