import Verif.Model.AioExit
/-!
# Model of an `AioListener` whose service classes take their time (anthunder/listener/aio_listener.py)

`handle_request` looks the class up, calls it and takes the method from the object (aio_listener.py:63-72) in the coroutine,
that is, in the thread of the event loop; only the method is given to the pool (74). In the other models this takes no time.
Here making a service object may take any time, during which the loop does nothing else: threads of the pool, the clock and
callers of `register_interface` and `shutdown` go on. What reaches a socket meanwhile stays in the kernel.

The registry is looked into before the class is called (64). What the class and `getattr` give is the same as in the other
models (`Services`).
-/
namespace Bolt

/-- The request whose service object is being made: its connection and task, the trace id that it would be given, the
registry it was looked up in (aio_listener.py:64, 69). -/
structure Making where
  conn : Nat
  task : Nat
  fresh : PyStr
  reg : Registry
  deriving DecidableEq, Repr

/-- the listener, and what its loop is busy with (aio_listener.py:69-70, 114) -/
structure SlowSt where
  srv : SrvSt := {}
  making : Option Making := none
  deriving DecidableEq, Repr

/-- Events: one of the listener; a class is called for task `i` of connection `c`; the call has ended
(aio_listener.py:69-70). -/
inductive SlowEv where
  | ev (e : SrvEv)
  | begin (c i : Nat) (fresh : PyStr)
  | made
  deriving DecidableEq, Repr

/-- The service object is there, the coroutine goes on to its next `await` (aio_listener.py:70-76, 139-156). -/
def SrvSt.finishMaking (svc : Services) (s : SrvSt) (m : Making) : SrvSt :=
  match s.conns[m.conn]? with
  | none => s
  | some l =>
    let l' := { lstep svc { l with reg := m.reg } (.run m.task m.fresh) with reg := l.reg }
    { s with conns := s.conns.set m.conn l', queue := s.queue ++ submitted m.conn l l',
             subs := s.subs ++ submitted m.conn l l' }

/-- One event (aio_listener.py:52-156). -/
def slowStep (svc : Services) (s : SlowSt) : SlowEv → SlowSt
  | .ev e => if s.making.isSome && e.inLoop then s else { s with srv := srvStep svc s.srv e }
  | .begin c i fresh =>
    match s.making with
    | some _ => s
    | none =>
      match s.srv.conns[c]? with
      | none => s
      | some l => if s.srv.makes c i then { s with making := some ⟨c, i, fresh, l.reg⟩ } else s
  | .made =>
    match s.making with
    | none => s
    | some m => { srv := s.srv.finishMaking svc m, making := none }

/-- a schedule of a new listener (aio_listener.py:100-114) -/
def slowRun (svc : Services) (reg : Registry) (evs : List SlowEv) : SlowSt :=
  evs.foldl (slowStep svc) { srv := { reg := reg } }

end Bolt
