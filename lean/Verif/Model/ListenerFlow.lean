import Verif.Model.AioListener
import Verif.Model.Drain
/-!
# A connection of the asyncio listener with its flow control

In `Model/AioListener.lean` a `drain` takes any time and then returns. `Model/Drain.lean` says what `drain` does, for
coroutines that only write. Here both are put together: whether a `drain` of anthunder/listener/aio_listener.py returns,
suspends or raises is decided by the flow control of the connection (cf. `FlowSt`), and what becomes of the coroutine is
what the listener makes of it. Coroutines that write are the tasks (`_write_msg`, lines 175-178, called in 127, 133, 143,
147, 159, 163, 171, 216) and the reader (`_write_msg` in 231 and 237, the closing sequence in 243-255 and 260-270).

Simplifications: those of the two models. The second `drain` of the closing sequence, after `write_eof`, is not followed;
nothing is written any more then.
-/
namespace Bolt

/-- the coroutines of a connection that write: its tasks and the reader (aio_listener.py:175-178, 180) -/
inductive LWho where
  | task (i : Nat)
  | reader
  deriving DecidableEq, Repr

/-- A connection. `buf` bytes are buffered by the transport; `paused` and `waiters` (who is suspended in a `drain`) belong
to the protocol; `woken` are those whose `drain` has been woken and that have not run since, with `false` if it raises.
`hold`: the reader is in the second `drain` of `_write_msg` (178). `dead`: an exception has left `_handler_connection`
from one of its `except` clauses (231, 237) (the writer of aio_listener.py:180). -/
structure LFSt where
  l : LSt := {}
  buf : Nat := 0
  paused : Bool := false
  waiters : List LWho := []
  woken : List (LWho × Bool) := []
  hold : Bool := false
  dead : Bool := false
  deriving DecidableEq, Repr

/-- What happens: an event of the connection other than a run of the reader, a write or a reset; a coroutine runs from
where it is, and if it writes, the socket takes `k` bytes at once; the socket takes `k` of the buffered bytes; the
connection is reset (aio_listener.py:175-271). -/
inductive LFEv where
  | ev (e : LEv)
  | turn (w : LWho) (k : Nat)
  | take (k : Nat)
  | reset
  deriving DecidableEq, Repr

/-- `await writer.drain()` as `w` runs into it or goes on with it (aio_listener.py:176, 178, 243, 260; cf. `FlowSt.drain`):
`none` if it is suspended (afterwards), `some true` if it returns, `some false` if it raises. -/
def LFSt.drain (c : FlowCfg) (s : LFSt) (w : LWho) : LFSt × Option Bool :=
  match s.woken.find? (fun x => x.1 == w) with
  | some x => ({ s with woken := s.woken.filter fun x => x.1 != w }, some x.2)
  | none =>
    if w ∈ s.waiters then (s, none)
    else if s.l.lost then (s, some false)
    else if s.paused then
      (if c.many || s.waiters.isEmpty then ({ s with waiters := s.waiters ++ [w] }, none) else (s, some false))
    else (s, some true)

/-- `writer.write` (aio_listener.py:177, 245, 262) as the transport sees it (cf. `FlowSt.write`); on a closed or lost
connection nothing is buffered -/
def LFSt.buffer (c : FlowCfg) (s : LFSt) (len k : Nat) : LFSt :=
  if s.l.closed then s
  else
    let rest := if s.buf = 0 then len - k else len
    { s with buf := s.buf + rest, paused := s.paused || (decide (rest ≠ 0) && decide (c.high < s.buf + rest)) }

/-- An exception leaves `_handler_connection`: the reader has ended, nobody closes the connection
(aio_listener.py:231, 237). -/
def LFSt.die (s : LFSt) : LFSt :=
  { s with dead := true, hold := false, l := { s.l with tail := .reading, rd := { s.l.rd with phase := .stopped } } }

/-- Task `i` runs in `_write_msg` (aio_listener.py:175-178). Where the first `drain` raises, nothing is written and the
task ends: the exception is that of the task, or logged (173). What the second one does makes no difference to the task. -/
def LFSt.turnTask (c : FlowCfg) (svc : Services) (s : LFSt) (i k : Nat) : LFSt :=
  match s.l.tasks[i]? with
  | none => s
  | some t =>
    match t.st with
    | .writing m =>
      match s.drain c (.task i) with
      | (s, none) => s
      | (s, some false) => { s with l := s.l.setTask i { t with st := .ended } }
      | (s, some true) =>
        let s' := { s.buffer c m.length k with l := lstep svc s.l (.write i) }
        if s.l.closed then s' else (s'.drain c (.task i)).1
    | _ => { s with woken := s.woken.filter fun x => x.1 != .task i }

/-- The reader runs (aio_listener.py:187-271). In `_write_msg` (231, 237) an exception of either `drain` leaves the
coroutine. In the closing sequence (243-255, 260-270) an exception of the first `drain` has the effect that nothing is
written. -/
def LFSt.turnReader (c : FlowCfg) (svc : Services) (s : LFSt) (k : Nat) : LFSt :=
  if s.dead then s
  else if s.hold then
    match s.drain c .reader with
    | (s, none) => s
    | (s, some true) => { s with hold := false }
    | (s, some false) => s.die
  else
    match s.l.tail with
    | .reading => { s with l := lstep svc s.l .reader }
    | .replying m =>
      match s.drain c .reader with
      | (s, none) => s
      | (s, some false) => s.die
      | (s, some true) =>
        match ({ s.buffer c m.length k with l := lstep svc s.l .reader }).drain c .reader with
        | (s, none) => { s with hold := true }
        | (s, some true) => s
        | (s, some false) => s.die
    | .closing m =>
      match s.drain c .reader with
      | (s, none) => s
      | (s, some false) => { s with l := lstep svc { s.l with tail := .closing none } .reader }
      | (s, some true) =>
        { s.buffer c ((m.map List.length).getD 0) k with l := lstep svc s.l .reader }

/-- events of the connection that are no run of the reader, no write and no reset (aio_listener.py:59-94, 123-173) -/
def LEv.outside : LEv → Bool
  | .reader | .write _ | .reset => false
  | _ => true

/-- One event; events that cannot happen change nothing. Taking enough leaves at most `low` bytes: `resume_writing`. A
reset (`connection_lost` with an exception) wakes everyone with the exception (aio_listener.py:123-271; cf. `flowStep`). -/
def lfStep (c : FlowCfg) (svc : Services) (s : LFSt) : LFEv → LFSt
  | .ev e => if e.outside then { s with l := lstep svc s.l e } else s
  | .turn (.task i) k => s.turnTask c svc i k
  | .turn .reader k => s.turnReader c svc k
  | .take k =>
    if s.l.lost then s
    else if s.paused && decide (s.buf - k ≤ c.low) then
      { s with buf := s.buf - k, paused := false, waiters := [], woken := s.woken ++ s.waiters.map fun w => (w, true) }
    else { s with buf := s.buf - k }
  | .reset =>
    { s with l := lstep svc s.l .reset, buf := 0, waiters := [], hold := false,
             woken := s.woken ++ (s.waiters.filter (· != .reader)).map fun w => (w, false) }

/-- a schedule on a new connection (aio_listener.py:111, 180-187) -/
def lfRun (c : FlowCfg) (svc : Services) (reg : Registry) (evs : List LFEv) : LFSt :=
  evs.foldl (lfStep c svc) { l := { reg := reg } }

end Bolt
