import Verif.Model.AioListener
/-!
# The thread pool of the asyncio listener when no thread can be started

`executor.submit` (aio_listener.py:74) puts the call on the queue of the pool first and then, if no worker is idle and there
are fewer than `max_workers`, starts a thread (`ThreadPoolExecutor.submit` and `_adjust_thread_count` of
concurrent/futures/thread.py). Where the system allows no further thread, `Thread.start` raises a RuntimeError
(`PyExc.other`): `submit` raises, but the call stays on the queue for the workers there are. In `Model/AioListener.lean`
`submit` does not fail; here whether it does is part of the schedule.
-/
namespace Bolt

/-- `_dispatch` from its start to its first suspension or its end (aio_listener.py:125-149), as `LSt.dispatch`, where `submit`
raises after having queued the call (line 74, caught in line 146). The task has no reference to the future then; its field
`fut`, which only a waiting task uses, is a ghost here. -/
def LSt.dispatchX (svc : Services) (s : LSt) (i : Nat) (t : Task) (r : Req) (fresh : PyStr) : LSt :=
  match serviceOf r.header with
  | none =>
    s.setTask i { t with st := toWrite (failMsg r.id .clientSendError), fate := some .badName }
  | some service =>
    match methodOf r.header with
    | none =>
      s.setTask i { t with st := toWrite (failMsg r.id .clientSendError), fate := some .badName }
    | some method =>
      match extract s.heap fresh r.header with
      | .error _ => s.setTask i { t with st := .ended, fate := some .badCarrier }
      | .ok (heap, ctx) =>
        let s := { s with heap := heap }
        match findMethod svc s.reg heap ctx service method with
        | .error .noProcessor =>
          s.setTask i { t with st := toWrite (failMsg r.id .noProcessor), fate := some .notFound, ran := some s.reg }
        | .error e =>
          s.setTask i { t with st := toWrite (failMsg r.id .serverException), fate := some (.failed e),
                               ran := some s.reg }
        | .ok func =>
          let k := s.futs.length
          let s := { s with futs := s.futs ++ [({ func := func, body := r.body, ctx := ctx, heap := heap } : Fut)] }
          s.setTask i { t with st := toWrite (failMsg r.id .serverException), fut := some k, fate := some (.failed .other),
                               ran := some s.reg }

/-- Events of a connection: those of `LEv`, and a task that starts while no thread can be started
(aio_listener.py:74, 123-149). -/
inductive XEv where
  | ev (e : LEv)
  | runFull (i : Nat) (fresh : PyStr)
  deriving DecidableEq, Repr

/-- One event (aio_listener.py:123-271). -/
def xstep (svc : Services) (s : LSt) : XEv → LSt
  | .ev e => lstep svc s e
  | .runFull i fresh =>
    match s.tasks[i]? with
    | some t =>
      match t.st, t.kind with
      | .new, .dispatch r => s.dispatchX svc i t r fresh
      | _, _ => s
    | none => s

/-- a schedule on a new connection (aio_listener.py:111, 180-187) -/
def xrun (svc : Services) (reg : Registry) (evs : List XEv) : LSt := evs.foldl (xstep svc) ({ reg := reg } : LSt)

end Bolt
