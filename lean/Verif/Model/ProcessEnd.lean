import Verif.Model.AioServer
/-!
# The end of a process that has an asyncio listener

`run_threading` (base_listener.py:111-113) runs the loop in a daemon thread: when the main thread has ended, the interpreter
does not wait for it. It does wait for the threads of a `ThreadPoolExecutor` (aio_listener.py:55):
`concurrent.futures.thread._python_exit` sets the flag `_shutdown`, puts `None` behind what is on the queue of the pool and
joins the threads, which take what is before that `None`. From then on `submit` (aio_listener.py:74) raises a RuntimeError
(`PyExc.other`) before it has put anything on the queue. Meanwhile the loop runs on. When the last thread of the pool has
been joined, the process ends, wherever the loop is.

Simplifications. Other threads that are not daemons, and whatever else the interpreter does at its end, are left out: they
can only make the end later (`dies` is an event of the schedule that is possible from some time on). `register_interface`
and `shutdown` may be called by other daemon threads meanwhile.
-/
namespace Bolt

/-- The listener; whether the main thread has ended and `_python_exit` has begun (aio_listener.py:55); whether the process
is over (base_listener.py:112). -/
structure EndSt where
  srv : SrvSt := {}
  ending : Bool := false
  over : Bool := false
  deriving DecidableEq, Repr

/-- Events: one of the listener (aio_listener.py:52-121); the main thread ends (base_listener.py:111-113); the last thread
of the pool has been joined and the process is gone (aio_listener.py:55). -/
inductive EndEv where
  | ev (e : SrvEv)
  | mainEnds
  | dies
  deriving DecidableEq, Repr

/-- `_dispatch` from its start to its end (aio_listener.py:125-149), as `LSt.dispatch`, where `submit` raises before it has
queued the call (line 74, caught in line 146). -/
def LSt.dispatchR (svc : Services) (s : LSt) (i : Nat) (t : Task) (r : Req) (fresh : PyStr) : LSt :=
  match serviceOf r.header with
  | none =>
    s.setTask i { t with st := toWrite (failMsg r.id .clientSendError), fate := some .badName }
  | some service =>
    match methodOf r.header with
    | none =>
      s.setTask i { t with st := toWrite (failMsg r.id .clientSendError), fate := some .badName }
    | some method =>
      match extract s.heap fresh r.header with
      | .error _ => s.setTask i { t with st := .ended, fate := some .badCarrier }
      | .ok (heap, ctx) =>
        let s := { s with heap := heap }
        match findMethod svc s.reg heap ctx service method with
        | .error .noProcessor =>
          s.setTask i { t with st := toWrite (failMsg r.id .noProcessor), fate := some .notFound, ran := some s.reg }
        | .error e =>
          s.setTask i { t with st := toWrite (failMsg r.id .serverException), fate := some (.failed e),
                               ran := some s.reg }
        | .ok _ =>
          s.setTask i { t with st := toWrite (failMsg r.id .serverException), fate := some (.failed .other),
                               ran := some s.reg }

/-- One event of the listener when the pool takes nothing any more (aio_listener.py:52-121, 74). -/
def refuseStep (svc : Services) (s : SrvSt) : SrvEv → SrvSt
  | .conn c (.run i fresh) =>
    match s.conns[c]? with
    | some l =>
      match l.tasks[i]? with
      | some t =>
        match t.st, t.kind with
        | .new, .dispatch r => { s with conns := s.conns.set c (l.dispatchR svc i t r fresh) }
        | _, _ => s
      | none => s
    | none => s
  | e => srvStep svc s e

/-- One event; events that cannot happen change nothing. The process is gone as soon as no thread of the pool has anything to
do (aio_listener.py:52-121, base_listener.py:111-113). -/
def endStep (svc : Services) (s : EndSt) : EndEv → EndSt
  | .ev e =>
    if s.over then s
    else if s.ending then { s with srv := refuseStep svc s.srv e }
    else { s with srv := srvStep svc s.srv e }
  | .mainEnds => { s with ending := true }
  | .dies => if s.ending && s.srv.queue.isEmpty && s.srv.running.isEmpty then { s with over := true } else s

/-- a schedule of a new listener (aio_listener.py:100-114) -/
def endRun (svc : Services) (reg : Registry) (evs : List EndEv) : EndSt :=
  evs.foldl (endStep svc) { srv := { reg := reg } }

end Bolt
