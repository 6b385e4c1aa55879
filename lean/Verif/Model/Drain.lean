import Verif.Model.Py

/-!
# Flow control of one connection shared by many writers

`AioListener._write_msg` (anthunder/listener/aio_listener.py:175-178) and the body of `_send` in
`AioClient._send_request` (anthunder/client/aio_client.py:190-193) are the same three lines:
`await writer.drain(); writer.write(msg); await writer.drain()`.  Many coroutines run them on the
same `StreamWriter`: the listener starts one per heartbeat and one per request
(aio_listener.py:216-217, 227-228), the client one per call (aio_client.py:77, 84, 100).

The other models take `drain` to return, to suspend, or to fail for an unexplained reason.  This one
follows what `drain` does.  The standard library is not part of /repo; what is modelled of it:

* `StreamWriter.drain` / `FlowControlMixin._drain_helper`: raise ConnectionResetError when the
  connection is lost; return when the protocol is not paused; otherwise wait for `resume_writing`.
  In the versions of Python that setup.py:75-77 declares (3.5, 3.6, 3.7) the protocol has room for
  one waiter: `assert waiter is None or waiter.cancelled()`.  Later versions keep all waiters.
* the transport: `write` hands what it can to the socket when its buffer is empty, buffers the rest
  and pauses the protocol when more than `high` bytes are buffered; the protocol is resumed when the
  socket has taken enough to leave at most `low` bytes.

Simplifications: the coroutines that write are not cancelled; `drain` on a closing transport, which
first yields once, is not distinguished; a waiter that `connection_lost` wakes with an exception is
taken to have failed at once (it does nothing else when it runs).
-/

namespace Bolt

/-- the limits of the transport and whether the protocol keeps all waiters (`many`) or asserts that
there is at most one (Python 3.5-3.7, setup.py:75-77) -/
structure FlowCfg where
  high : Nat
  low : Nat
  many : Bool
  deriving DecidableEq, Repr

/-- asyncio's default limits with the single waiter of the Python versions of setup.py:75-77 -/
def flowOld : FlowCfg := ⟨65536, 16384, false⟩
/-- asyncio's default limits with any number of waiters
(the writers of aio_listener.py:111 and aio_client.py:155 set no limits) -/
def flowNew : FlowCfg := ⟨65536, 16384, true⟩

/-- what a `drain` raises: the AssertionError of the second waiter, or ConnectionResetError
(in aio_listener.py:176-178, aio_client.py:191-193) -/
inductive FlowExc where
  | assertion
  | reset
  deriving DecidableEq, Repr

/-- where a coroutine is in `drain; write; drain` (aio_listener.py:176-178, aio_client.py:191-193) -/
inductive FlowPhase where
  /-- created by `ensure_future`, not run yet -/
  | start
  /-- suspended in the first `drain` -/
  | wait1
  /-- the first `drain` was woken; the coroutine has not run since -/
  | woke1
  /-- suspended in the second `drain`: the message is written -/
  | wait2
  /-- the second `drain` was woken -/
  | woke2
  /-- all three lines ran -/
  | done
  /-- a `drain` raised; `sent` tells whether it was the second -/
  | failed (sent : Bool) (e : FlowExc)
  deriving DecidableEq, Repr

/-- a coroutine writing one message (aio_listener.py:176-178, aio_client.py:191-193) -/
structure FlowTask where
  msg : Bytes
  phase : FlowPhase
  deriving DecidableEq, Repr

/-- the protocol (`paused`, `lost`, `waiters`), the transport (`buf`: bytes buffered) and the
coroutines; `log`: the messages given to the transport, in order, each with the coroutine that wrote it
(the writer of aio_listener.py:180 or aio_client.py:155-157) -/
structure FlowSt where
  buf : Nat
  paused : Bool
  lost : Bool
  waiters : List Nat
  tasks : List FlowTask
  log : List (Nat × Bytes)
  deriving DecidableEq, Repr

/-- a fresh connection (aio_listener.py:180, aio_client.py:155) -/
def FlowSt.init : FlowSt := ⟨0, false, false, [], [], []⟩

/-- the outcome of calling `drain` (aio_listener.py:176, 178; aio_client.py:191, 193) -/
inductive DrainRes where
  | returned
  | waits
  | raised (e : FlowExc)
  deriving DecidableEq, Repr

/-- `await writer.drain()` up to its suspension (aio_listener.py:176, 178; aio_client.py:191, 193) -/
def FlowSt.drain (c : FlowCfg) (s : FlowSt) : DrainRes :=
  if s.lost then .raised .reset
  else if s.paused then
    (if c.many || s.waiters.isEmpty then .waits else .raised .assertion)
  else .returned

/-- `writer.write(msg)` by coroutine `i` (aio_listener.py:177, aio_client.py:192): the socket takes
up to `k` bytes at once when nothing is buffered; on a lost connection the message is dropped -/
def FlowSt.write (c : FlowCfg) (s : FlowSt) (i : Nat) (m : Bytes) (k : Nat) : FlowSt :=
  if s.lost then s
  else
    let rest := if s.buf = 0 then m.length - k else m.length
    { s with
      buf := s.buf + rest
      paused := s.paused || (decide (rest ≠ 0) && decide (c.high < s.buf + rest))
      log := s.log ++ [(i, m)] }

/-- coroutine `i` gets phase `p` (aio_listener.py:176-178, aio_client.py:191-193) -/
def FlowSt.setPhase (s : FlowSt) (i : Nat) (p : FlowPhase) : FlowSt :=
  { s with tasks := s.tasks.modify i (fun t => { t with phase := p }) }

/-- from the `write` to the end of the coroutine or its suspension
(aio_listener.py:177-178, aio_client.py:192-193) -/
def FlowSt.finish (c : FlowCfg) (s : FlowSt) (i : Nat) (m : Bytes) (k : Nat) : FlowSt :=
  let s := s.write c i m k
  match s.drain c with
  | .returned => s.setPhase i .done
  | .waits => { s.setPhase i .wait2 with waiters := s.waiters ++ [i] }
  | .raised e => s.setPhase i (.failed true e)

/-- what happens on the event loop (what bears on aio_listener.py:176-178, aio_client.py:191-193) -/
inductive FlowEv where
  /-- a coroutine for `msg` is created (aio_listener.py:216-217, 227-228; aio_client.py:77, 84, 100) -/
  | spawn (msg : Bytes)
  /-- coroutine `i` runs until it suspends or ends; if it writes, the socket takes `k` bytes at once -/
  | step (i : Nat) (k : Nat)
  /-- the socket takes `k` of the buffered bytes -/
  | take (k : Nat)
  /-- `connection_lost`, with an exception or without -/
  | lose (exc : Bool)
  deriving DecidableEq, Repr

/-- coroutine `i` runs until it suspends or ends (aio_listener.py:175-178, aio_client.py:190-193) -/
def FlowSt.run1 (c : FlowCfg) (s : FlowSt) (i k : Nat) : FlowSt :=
  match s.tasks[i]? with
  | none => s
  | some t =>
    match t.phase with
    | .start =>
      match s.drain c with
      | .returned => s.finish c i t.msg k
      | .waits => { s.setPhase i .wait1 with waiters := s.waiters ++ [i] }
      | .raised e => s.setPhase i (.failed false e)
    | .woke1 => s.finish c i t.msg k
    | .woke2 => s.setPhase i .done
    | _ => s

/-- the phase after the waiter's future is resolved (`resume_writing`, `connection_lost(None)`)
(in aio_listener.py:176, 178; aio_client.py:191, 193) -/
def FlowPhase.wake : FlowPhase → FlowPhase
  | .wait1 => .woke1
  | .wait2 => .woke2
  | p => p

/-- the phase after the waiter's future got the exception of `connection_lost(exc)`
(in aio_listener.py:176, 178; aio_client.py:191, 193) -/
def FlowPhase.break : FlowPhase → FlowPhase
  | .wait1 => .failed false .reset
  | .wait2 => .failed true .reset
  | p => p

/-- `f` is applied to the phases of the coroutines in the protocol's waiters, which are forgotten
(of aio_listener.py:176, 178; aio_client.py:191, 193) -/
def FlowSt.wakeAll (s : FlowSt) (f : FlowPhase → FlowPhase) : FlowSt :=
  { s with
    tasks := s.tasks.mapIdx (fun i t => if s.waiters.contains i then { t with phase := f t.phase } else t)
    waiters := [] }

/-- one event (aio_listener.py:176-178, aio_client.py:191-193) -/
def flowStep (c : FlowCfg) (s : FlowSt) : FlowEv → FlowSt
  | .spawn m => { s with tasks := s.tasks ++ [⟨m, .start⟩] }
  | .step i k => s.run1 c i k
  | .take k =>
    if s.lost then s
    else if s.paused && decide (s.buf - k ≤ c.low) then
      { s.wakeAll FlowPhase.wake with buf := s.buf - k, paused := false }
    else { s with buf := s.buf - k }
  | .lose exc =>
    if s.lost then s
    else if s.paused then
      { s.wakeAll (if exc then FlowPhase.break else FlowPhase.wake) with lost := true, buf := 0 }
    else { s with lost := true, buf := 0 }

/-- a run from a fresh connection (aio_listener.py:180, aio_client.py:155) -/
def flowRun (c : FlowCfg) (evs : List FlowEv) : FlowSt := evs.foldl (flowStep c) .init

end Bolt
