import Verif.Model.AioServer
/-!
# Model of an `AioListener` whose services raise SystemExit (anthunder/listener/aio_listener.py)

SystemExit (`sys.exit()`) and KeyboardInterrupt are no `Exception`. One that is raised by a method ends up in the future of
the call, like any other exception, and the thread of the pool goes on; the coroutine that waits for the future has no
clause for it (aio_listener.py:154-165), nor for one that is raised where a service object is made (140-149). asyncio lets
these two exceptions through: the one that leaves a coroutine leaves `run_forever` (114), and the loop does not run any
more. Threads of the pool, the clock and callers of `register_interface` and `shutdown` are not affected.

Simplifications. The future of a call that ended in SystemExit is `finished (raised stopIteration)` in the model of the
connections: that is an outcome that does not get to the clauses of `_dispatch` either. What reaches a socket while the loop
does not run stays in the kernel.
-/
namespace Bolt

/-- The listener, the calls that have ended in SystemExit (aio_listener.py:74), and whether the loop has stopped (114). -/
structure ExSt where
  srv : SrvSt := {}
  exited : List (Nat × Nat) := []
  stopped : Bool := false
  deriving DecidableEq, Repr

/-- Events: one of the listener; the method of a running call raises SystemExit (aio_listener.py:74); the service class
of the request of task `i` does, where it is called (69). -/
inductive ExEv where
  | ev (e : SrvEv)
  | exits (c k : Nat)
  | exitsMaking (c i : Nat)
  deriving DecidableEq, Repr

/-- what happens in the loop (aio_listener.py:105-114, 123-271), not in other threads -/
def SrvEv.inLoop : SrvEv → Bool
  | .accept | .conn _ _ => true
  | _ => false

/-- the event gives the SystemExit of a call to the coroutine that waits for it (aio_listener.py:155-156) -/
def ExSt.delivers (s : ExSt) : SrvEv → Bool
  | .conn c (.result i) =>
    match s.srv.conns[c]? with
    | some l =>
      match l.tasks[i]? with
      | some t =>
        match t.st, t.fut with
        | .waiting _, some k => s.exited.contains (c, k)
        | _, _ => false
      | none => false
    | none => false
  | _ => false

/-- the coroutine of task `i` is about to call the class registered for its request (aio_listener.py:123-138, 63-69) -/
def SrvSt.makes (s : SrvSt) (c i : Nat) : Bool :=
  match s.conns[c]? with
  | some l =>
    match l.tasks[i]? with
    | some t =>
      match t.st, t.kind with
      | .new, .dispatch r =>
        match serviceOf r.header, methodOf r.header with
        | some service, some _ => (extract l.heap [] r.header).toOption.isSome && (PyDict.get? l.reg service).isSome
        | _, _ => false
      | _, _ => false
    | none => false
  | none => false

/-- One event (aio_listener.py:52-165). -/
def exStep (svc : Services) (s : ExSt) : ExEv → ExSt
  | .ev e =>
    if s.stopped && e.inLoop then s
    else if s.delivers e then { s with stopped := true }
    else { s with srv := srvStep svc s.srv e }
  | .exits c k =>
    if (c, k) ∈ s.srv.running then
      { s with srv := srvStep svc s.srv (.finish c k (.raised .stopIteration)), exited := s.exited ++ [(c, k)] }
    else s
  | .exitsMaking c i => if s.srv.makes c i then { s with stopped := true } else s

/-- a schedule of a new listener (aio_listener.py:100-114) -/
def exRun (svc : Services) (reg : Registry) (evs : List ExEv) : ExSt :=
  evs.foldl (exStep svc) { srv := { reg := reg } }

end Bolt
