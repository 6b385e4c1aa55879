import Verif.Model.AioServer
/-!
# Model of the server of performance_aio.py

The script replaces the thread pool of the handler by a `CoroExecutor` (performance_aio.py:62-70, 92), whose `submit`
makes a task of the event loop that calls the method. A method therefore runs on the thread of the loop: nothing else
happens there until it has returned. The tasks of the loop are started in the order in which they were made.
`hello` counts the calls (77-84), and a coroutine prints the count every second (48-56, 93).

Simplifications. `wait_for` is that of Python 3.5-3.11: when the time is up and the call is over by then, it gives the
result of the call. Cancelling a task that has not been started makes it end without calling the method. The script
assigns the executor and registers the service before it starts the clients (91-92, 123-125), so that no call goes to
the thread pool. Connections, tasks and futures are those of `Model/AioServer.lean`, with the tasks of the loop in place
of the futures of the pool (`asyncio.wrap_future`, aio_listener.py:155, returns them as they are).
-/
namespace Bolt

/-- The listener, the counter (performance_aio.py:42-46), the variables of `print_count` (49-50), and what it has
printed (55: seconds, requests, requests in the last second). `ran`, the calls in the order in which they were run and how
they ended, is a ghost. -/
structure CoSt where
  srv : SrvSt := {}
  count : Nat := 0
  secs : Nat := 0
  last : Nat := 0
  printed : List (Nat × Nat × Int) := []
  ran : List ((Nat × Nat) × Outcome) := []
  deriving DecidableEq, Repr

/-- Events: something that happens to the listener (but for its thread pool, which has nothing to do); the loop starts the
first task made by `submit`, the method takes the time `d` and ends in `o` (performance_aio.py:66-70); a second has passed
for `print_count` (52-56). -/
inductive CoEv where
  | ev (e : SrvEv)
  | call (d : Nat) (o : Outcome)
  | print
  deriving DecidableEq, Repr

/-- events of the thread pool (aio_listener.py:56), which is not used here (performance_aio.py:92) -/
def SrvEv.isPool : SrvEv → Bool
  | .take | .finish _ _ _ => true
  | _ => false

/-- The time of `wait_for` is up (aio_listener.py:156), but the call is over: `wait_for` gives its result, which is another
event. -/
def SrvSt.tooLate (s : SrvSt) : SrvEv → Bool
  | .conn c (.expire i) =>
    match s.conns[c]? with
    | some l =>
      match (l.tasks[i]?).bind Task.fut with
      | some k =>
        match l.futSt k with
        | some (.finished _) => true
        | _ => false
      | none => false
    | none => false
  | _ => false

/-- the bound method that a call is of (`func` of aio_listener.py:69, performance_aio.py:66) -/
def SrvSt.func (s : SrvSt) (x : Nat × Nat) : Option Nat :=
  s.conns[x.1]?.bind fun l => (l.futs[x.2]?).map Fut.func

/-- `counter.inc()` (performance_aio.py:45-46): only `hello` counts, as the last thing before it returns (77-84);
`hello` says which bound methods are that one. -/
def countOf (hello : Nat → Bool) (func : Option Nat) : Outcome → Nat
  | .ret _ => if func.any hello then 1 else 0
  | .raised _ => 0

/-- How the task of a call ends (performance_aio.py:69-70): like the method, but that Python turns a StopIteration that
leaves an `async def` into a RuntimeError. -/
def inCoro : Outcome → Outcome
  | .raised .stopIteration => .raised .other
  | o => o

/-- One event (performance_aio.py:48-70, 77-93). A task that was cancelled before it was started ends without calling the
method. -/
def coStep (svc : Services) (hello : Nat → Bool) (s : CoSt) : CoEv → CoSt
  | .ev e =>
    if e.isPool || s.srv.tooLate e then s
    else { s with srv := srvStep svc s.srv e }
  | .call d o =>
    match s.srv.queue with
    | [] => s
    | x :: _ =>
      if s.srv.futSt x = some .queued then
        { s with srv := srvStep svc (srvStep svc (srvStep svc s.srv .take) (.tick d)) (.finish x.1 x.2 (inCoro o)),
                 count := s.count + countOf hello (s.srv.func x) (inCoro o), ran := s.ran ++ [(x, inCoro o)] }
      else { s with srv := srvStep svc s.srv .take }
  | .print =>
    { s with secs := s.secs + 1, last := s.count,
             printed := s.printed ++ [(s.secs + 1, s.count, (s.count : Int) - s.last)] }

/-- a run of the server of the script (performance_aio.py:87-93) -/
def coRun (svc : Services) (hello : Nat → Bool) (reg : Registry) (evs : List CoEv) : CoSt :=
  evs.foldl (coStep svc hello) { srv := { reg := reg } }

end Bolt
