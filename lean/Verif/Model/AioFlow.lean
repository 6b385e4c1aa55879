import Verif.Model.AioClient
import Verif.Model.Drain
/-!
# The asyncio client with the flow control of its connections

`Model/AioClient.lean` lets `drain` succeed or raise as the environment likes. `Model/Drain.lean` says what `drain` does, for
one connection and coroutines that only write. Here both are put together: whether a `drain` of `_send`
(anthunder/client/aio_client.py:191, 193) returns, suspends or raises is decided by the flow control of the connection the
call got, and what `_send` makes of it (aio_client.py:194-199) is that of the client.

Simplifications: those of the two models. A message written to a connection that is lost, or closed with nothing buffered,
is dropped by the transport; the ghost `sent` of the client model lists it nevertheless.
-/
namespace Bolt

/-- Flow control of a connection: `buf` bytes are buffered by the transport; `paused`, `lost` and `waiters` (the calls
suspended in a `drain`) belong to the protocol; `woken` are the calls whose `drain` has been woken and that have not run
since, with `false` if it raises (cf. `FlowSt`) (the writer of aio_client.py:155-157). -/
structure CFlow where
  buf : Nat := 0
  paused : Bool := false
  lost : Bool := false
  waiters : List Nat := []
  woken : List (Nat × Bool) := []
  deriving DecidableEq, Repr

/-- The client and the flow control of each of its connections (aio_client.py:54-58). -/
structure AFSt where
  a : ASt := {}
  flows : List CFlow := []
  deriving DecidableEq, Repr

/-- What happens: an event of the client other than the end of a `drain`; call `i` runs from where it is in a `drain`, and
if it writes, the socket takes `k` bytes at once; the socket takes `k` of the bytes buffered on connection `n`;
connection `n` is lost, with an exception or without (aio_client.py:189-199). -/
inductive AFEv where
  | ev (e : AEv)
  | turn (i k : Nat)
  | take (n k : Nat)
  | lose (n : Nat) (exc : Bool)
  deriving DecidableEq, Repr

/-- the connection on which a call is in a `drain` (aio_client.py:191, 193) -/
def CallPc.writesOn : CallPc → Option Nat
  | .drain1 _ _ n => some n
  | .drain2 _ _ n => some n
  | _ => none

/-- `writer.write` (aio_client.py:192) as the transport sees it (cf. `FlowSt.write`) -/
def CFlow.write (c : FlowCfg) (f : CFlow) (len k : Nat) : CFlow :=
  if f.lost then f
  else
    let rest := if f.buf = 0 then len - k else len
    { f with buf := f.buf + rest, paused := f.paused || (decide (rest ≠ 0) && decide (c.high < f.buf + rest)) }

/-- The `drain` in which call `i` is has ended: the client goes on (aio_client.py:191-199, 214-218); after the first one
the message is written, unless it cannot be encoded. A writer that has been closed drops it if nothing is buffered. -/
def AFSt.resume (c : FlowCfg) (v : PyVer) (s : AFSt) (i n : Nat) (ok : Bool) (k : Nat) : AFSt :=
  let flows := match s.a.calls[i]? with
    | some call =>
      match call.pc, ok, call.req.toStream, s.a.conns[n]? with
      | .drain1 _ _ _, true, .ok bs, some conn =>
        s.flows.modify n fun f => if conn.closed && f.buf == 0 then f else f.write c bs.length k
      | _, _, _, _ => s.flows
    | none => s.flows
  { a := astep v s.a (.drained i ok), flows := flows }

/-- Call `i` runs from where it is in `await writer.drain()` (aio_client.py:191, 193; cf. `FlowSt.drain`): a call that was
woken goes on, one that is suspended does not, any other calls `drain`. -/
def AFSt.turn (c : FlowCfg) (v : PyVer) (s : AFSt) (i k : Nat) : AFSt :=
  match s.a.calls[i]?.bind (fun call => call.pc.writesOn) with
  | none => s
  | some n =>
    match s.flows[n]? with
    | none => s
    | some f =>
      match f.woken.find? (fun w => w.1 == i) with
      | some w =>
        { s with flows := s.flows.modify n fun f => { f with woken := f.woken.filter fun w => w.1 != i } }.resume
          c v i n w.2 k
      | none =>
        if i ∈ f.waiters then s
        else if f.lost then s.resume c v i n false k
        else if f.paused then
          (if c.many || f.waiters.isEmpty then
            { s with flows := s.flows.modify n fun f => { f with waiters := f.waiters ++ [i] } }
          else s.resume c v i n false k)
        else s.resume c v i n true k

/-- the socket takes `k` bytes; at most `low` left: `resume_writing` (cf. `flowStep`)
(what lets a `drain` of aio_client.py:191, 193 return) -/
def CFlow.take (c : FlowCfg) (f : CFlow) (k : Nat) : CFlow :=
  if f.lost then f
  else if f.paused && decide (f.buf - k ≤ c.low) then
    { f with buf := f.buf - k, paused := false, waiters := [], woken := f.woken ++ f.waiters.map fun i => (i, true) }
  else { f with buf := f.buf - k }

/-- `connection_lost` (cf. `flowStep`): waiters are woken, with the exception if there is one
(what lets a `drain` of aio_client.py:191, 193 raise) -/
def CFlow.lose (f : CFlow) (exc : Bool) : CFlow :=
  if f.lost then f
  else { f with buf := 0, lost := true, waiters := [], woken := f.woken ++ f.waiters.map fun i => (i, !exc) }

/-- a cancelled call does not wait any more (aio_client.py:191, 193) -/
def CFlow.forget (f : CFlow) (i : Nat) : CFlow :=
  { f with waiters := f.waiters.filter (· != i), woken := f.woken.filter fun w => w.1 != i }

/-- new connections get a fresh flow control (aio_client.py:155) -/
def AFSt.pad (s : AFSt) : AFSt :=
  { s with flows := s.flows ++ List.replicate (s.a.conns.length - s.flows.length) {} }

/-- One event. When a connection is lost the reader learns it, too (`feed_eof` or `set_exception`)
(aio_client.py:145-260). -/
def afStep (c : FlowCfg) (v : PyVer) (s : AFSt) : AFEv → AFSt
  | .ev (.drained _ _) => s
  | .ev (.cancel i) => ({ s with a := astep v s.a (.cancel i), flows := s.flows.map fun (f : CFlow) => f.forget i }).pad
  | .ev e => ({ s with a := astep v s.a e }).pad
  | .turn i k => (s.turn c v i k).pad
  | .take n k => { s with flows := s.flows.modify n fun f => f.take c k }
  | .lose n exc =>
    { a := astep v s.a (if exc then .reset n else .eof n), flows := s.flows.modify n fun f => f.lose exc }

/-- a schedule on a new client (aio_client.py:51-58) -/
def afRun (c : FlowCfg) (v : PyVer) (evs : List AFEv) : AFSt := evs.foldl (afStep c v) {}

end Bolt
