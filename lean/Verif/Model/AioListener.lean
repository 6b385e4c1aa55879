import Verif.Model.Package
import Verif.Model.Handler
/-!
# Model of one connection of `AioListener` (anthunder/listener/aio_listener.py)

The reader coroutine (`_handler_connection`), the tasks it starts (`_dispatch`, the heartbeat `_write_msg`), the
futures of the thread pool, and the output. A schedule is a list of events; each event is one uninterrupted piece of
one coroutine, or something the environment does.

Simplifications. `drain` may suspend for any time before a write (it is a separate event) and otherwise does
nothing. `writer.write(msg)` appends the whole message to the output at once (asyncio transports keep the order of
writes). After `write_eof`/`close` and after a connection reset nothing more goes out. The executor starts queued
calls in any order, with no limit on their number; submitting a call always succeeds (see ExecutorFull), and a fresh trace
id can always be made (see HostName). Exceptions that are no `Exception` (`SystemExit`, see AioExit) raised by
services, cancellation of the tasks themselves, and the logging are not modelled.
-/
namespace Bolt

/-- The entries of the bolt header that the listener uses (aio_listener.py:201-211, 215, 227-228). -/
structure ReqHdr where
  ptype : Int
  cmdcode : Int
  requestId : Int
  timeout : Int
  classLen : Int
  headerLen : Int
  contentLen : Int
  deriving DecidableEq, Repr

/-- `BoltRequest.bolt_header_from_stream(bs)` and the subscripts applied to the result (aio_listener.py:200-228,
sock_listener.py:94-103) -/
def reqHdr (bs : Bytes) : Except PyExc ReqHdr := do
  let h ← boltHeaderFromStream .boltRequest bs
  let ptype ← BoltHdr.get h .ptype
  let cmdcode ← BoltHdr.get h .cmdcode
  let requestId ← BoltHdr.get h .requestId
  let timeout ← BoltHdr.get h .timeout
  let classLen ← BoltHdr.get h .classLen
  let headerLen ← BoltHdr.get h .headerLen
  let contentLen ← BoltHdr.get h .contentLen
  pure ⟨ptype, cmdcode, requestId, timeout, classLen, headerLen, contentLen⟩

/-- Arguments of `_dispatch` (aio_listener.py:123). -/
structure Req where
  callType : Int
  id : Int
  header : PyDict PyStr PyStr
  body : Bytes
  timeout : Int
  deriving DecidableEq, Repr

/-! ## The reader coroutine -/

/-- Which `readexactly` the reader is in (aio_listener.py:190, 204, 207, 211), with the local variables; or it has
left the loop. -/
inductive RPhase where
  | hdr
  | cls (h : ReqHdr)
  | shdr (h : ReqHdr) (cn : Bytes)
  | body (h : ReqHdr) (cn : Bytes) (d : PyDict PyStr PyStr)
  | stopped
  deriving DecidableEq, Repr

/-- What the reader does after having read something (aio_listener.py:189-271): start `_dispatch` (227), start the
heartbeat answer (216), answer and go on (230-239), answer and close (241-271; `none`: the variable `header` is
unbound, the resulting exception is swallowed and nothing is written), or die with an `UnboundLocalError` in the
`except` clauses of lines 229 and 235. -/
inductive Act where
  | dispatch (r : Req)
  | heartbeat (id : Int)
  | reject (id : Int) (st : RespStatus)
  | close (id : Option Int) (st : RespStatus)
  | crash
  deriving DecidableEq, Repr

/-- Reader position and the id in the variable `header`, which keeps its value from one iteration to the next
(aio_listener.py:187-271). -/
structure ReadSt where
  phase : RPhase := .hdr
  last : Option Int := none
  deriving DecidableEq, Repr

/-- The `except` clauses (aio_listener.py:229-271) for an exception other than `EOFError`. -/
def onError (e : PyExc) (last : Option Int) : Act :=
  if e = .clientError then
    match last with
    | some id => .reject id .clientSendError
    | none => .crash
  else if e.isProtocolError then
    match last with
    | some id => .reject id .codecException
    | none => .crash
  else .close last .unknown

/-- where the reader is after having handled an exception that way (aio_listener.py:229-271) -/
def Act.next : Act → RPhase
  | .close _ _ | .crash => .stopped
  | _ => .hdr

/-- aio_listener.py:214-228: what is done with a complete frame. -/
def handleFrame (h : ReqHdr) (cn : Bytes) (d : PyDict PyStr PyStr) (body : Bytes) : Act :=
  if h.cmdcode = CmdCode.heartbeat.code then .heartbeat h.requestId
  else if h.cmdcode = CmdCode.response.code then onError .clientError (some h.requestId)
  else if cn ≠ pyb "com.alipay.sofa.rpc.core.request.SofaRequest" then onError .clientError (some h.requestId)
  else .dispatch ⟨h.ptype, h.requestId, d, body, h.timeout⟩

/-- The reader runs from its current `readexactly` to the next one, if it can: `none` if it has to wait for bytes.
`readexactly` raises IncompleteReadError (an EOFError) at the end of the stream (aio_listener.py:187-228, 241). -/
def readerIter (r : ReadSt) (buf : Bytes) (eof : Bool) : Option (ReadSt × Bytes × Option Act) :=
  match r.phase with
  | .hdr =>
    let n := PkgClass.boltRequest.headerSize
    if n ≤ buf.length then
      match reqHdr (buf.take n) with
      | .error e => some (⟨(onError e r.last).next, r.last⟩, buf.drop n, some (onError e r.last))
      | .ok h => some (⟨.cls h, some h.requestId⟩, buf.drop n, none)
    else if eof then some (⟨.stopped, r.last⟩, buf, some (.close r.last .connectionClosed))
    else none
  | .cls h =>
    let n := h.classLen.toNat
    if n ≤ buf.length then some (⟨.shdr h (buf.take n), r.last⟩, buf.drop n, none)
    else if eof then some (⟨.stopped, r.last⟩, buf, some (.close r.last .connectionClosed))
    else none
  | .shdr h cn =>
    let n := h.headerLen.toNat
    if n ≤ buf.length then
      match headerFromBytes (buf.take n) with
      | .error e => some (⟨(onError e r.last).next, r.last⟩, buf.drop n, some (onError e r.last))
      | .ok d => some (⟨.body h cn d, r.last⟩, buf.drop n, none)
    else if eof then some (⟨.stopped, r.last⟩, buf, some (.close r.last .connectionClosed))
    else none
  | .body h cn d =>
    let n := h.contentLen.toNat
    if n ≤ buf.length then
      let a := handleFrame h cn d (buf.take n)
      some (⟨a.next, r.last⟩, buf.drop n, some a)
    else if eof then some (⟨.stopped, r.last⟩, buf, some (.close r.last .connectionClosed))
    else none
  | .stopped => none

/-! ## Tasks and futures -/

/-- How a service method ends (`func(body)`, aio_listener.py:74; sock_listener.py:60). -/
inductive Outcome where
  | ret (v : PyObj)
  | raised (e : PyExc)
  deriving DecidableEq, Repr

/-- State of a `concurrent.futures.Future` (of `executor.submit`, aio_listener.py:74). -/
inductive FutSt where
  | queued
  | running
  | finished (o : Outcome)
  | cancelled
  deriving DecidableEq, Repr

/-- A call submitted to the executor (aio_listener.py:74): bound method, argument, state. `ctx` and `heap` are the
context the service object was built with. -/
structure Fut where
  func : Nat
  body : Bytes
  ctx : Baggage
  heap : Heap
  st : FutSt := .queued
  deriving DecidableEq, Repr

/-- What a task is for (the two `ensure_future`, aio_listener.py:216, 227). -/
inductive TaskKind where
  | heartbeat (id : Int)
  | dispatch (r : Req)
  deriving DecidableEq, Repr

/-- Where a task is: not started; in `wait_for` (aio_listener.py:156), with the deadline if there is one; in
`_write_msg` before the write (176); ended. -/
inductive TaskSt where
  | new
  | waiting (deadline : Option Int)
  | writing (msg : Bytes)
  | ended
  deriving DecidableEq, Repr

/-- How a dispatched request fared (a ghost, for stating properties of aio_listener.py:123-173): a name is missing
(126-136), `extract` raised (138), `handle_request` raised (142-149), a one-way call was accepted (150-152),
`wait_for` timed out, or it gave the outcome of the call (156-166). -/
inductive Fate where
  | badName
  | badCarrier
  | notFound
  | failed (e : PyExc)
  | accepted
  | expired
  | answered (o : Outcome)
  deriving DecidableEq, Repr

/-- A task. `ran` (the registry that `handle_request` saw) and `started` (when the call was submitted) are ghosts
(aio_listener.py:216, 227). -/
structure Task where
  kind : TaskKind
  st : TaskSt := .new
  fut : Option Nat := none
  fate : Option Fate := none
  ran : Option Registry := none
  started : Option Int := none
  deriving DecidableEq, Repr

/-- Who wrote a message (a ghost): task `i`, or the reader in its `n`-th action (in aio_listener.py:177, 245 or 262). -/
inductive Origin where
  | task (i : Nat)
  | reader (n : Nat)
  deriving DecidableEq, Repr

/-- What the reader is doing besides reading (aio_listener.py): in `_write_msg` (231, 237), in the closing sequence
(241-271). -/
inductive RTail where
  | reading
  | replying (msg : Bytes)
  | closing (msg : Option Bytes)
  deriving DecidableEq, Repr

/-- State of a connection and of what it uses. `closed`: nothing more can be written; `lost`: the peer reset the
connection. `recvd` (all bytes received), `acts` (all actions of the reader) and
the origins in `out` are ghosts (the variables of aio_listener.py:180-271 and of the tasks it starts). -/
structure LSt where
  recvd : Bytes := []
  buf : Bytes := []
  eof : Bool := false
  rd : ReadSt := {}
  tail : RTail := .reading
  acts : List Act := []
  tasks : List Task := []
  futs : List Fut := []
  out : List (Origin × Bytes) := []
  closed : Bool := false
  lost : Bool := false
  now : Int := 0
  heap : Heap := []
  reg : Registry := []
  deriving DecidableEq, Repr

/-- `FailResponse.response_to(id, status).to_stream()`
(aio_listener.py:128, 134, 144, 148, 159, 163, 231, 237, 245, 262; sock_listener.py:118, 124; command/fail_response.py:29-33) -/
def failMsg (id : Int) (st : RespStatus) : Except PyExc Bytes := do
  let p ← failResponseTo (.int id) st
  p.toStream

/-- `HeartbeatResponse.response_to(id).to_stream()`
(aio_listener.py:217; sock_listener.py:106; command/heartbeat.py:38-43) -/
def heartbeatMsg (id : Int) : Except PyExc Bytes := do
  let p ← heartbeatResponseTo (.int id)
  p.toStream

/-- `BoltResponse.response_to(result, request_id=id).to_stream()` (aio_listener.py:169-171) -/
def resultMsg (v : PyObj) (id : Int) : Except PyExc Bytes := do
  let p ← boltResponseTo v (.int id)
  p.toStream

/-- A task goes on to write a message (aio_listener.py:127-171); if building the message raises, the task ends (the
exception is logged by the loop, or by line 173). -/
def toWrite (m : Except PyExc Bytes) : TaskSt :=
  match m with
  | .ok bs => .writing bs
  | .error _ => .ended

/-- The effect of the reader's actions (aio_listener.py:214-271). Building the heartbeat answer happens in the reader
(217): if it raised, the reader would be in the clause `except Exception`; `heartbeatMsg_ok` shows that it does not,
and the model stops there. In the closing sequence all exceptions are swallowed. -/
def LSt.perform (s : LSt) (a : Act) : LSt :=
  let s := { s with acts := s.acts ++ [a] }
  match a with
  | .dispatch r => { s with tasks := s.tasks ++ [{ kind := .dispatch r }] }
  | .heartbeat id =>
    match heartbeatMsg id with
    | .ok m => { s with tasks := s.tasks ++ [{ kind := .heartbeat id, st := .writing m }] }
    | .error _ => { s with rd := { s.rd with phase := .stopped } }
  | .reject id st =>
    match failMsg id st with
    | .ok m => { s with tail := .replying m }
    | .error _ => { s with rd := { s.rd with phase := .stopped } }
  | .close id st =>
    { s with tail := .closing (id.bind fun i => (failMsg i st).toOption) }
  | .crash => s

/-- bytes handed to `writer.write` (aio_listener.py:175-178): on a closed connection they go nowhere -/
def LSt.write (s : LSt) (o : Origin) (m : Bytes) : LSt :=
  if s.closed then s else { s with out := s.out ++ [(o, m)] }

/-- The reader runs until its next suspension point (aio_listener.py:187-271). -/
def LSt.reader (s : LSt) : LSt :=
  match s.tail with
  | .reading =>
    match readerIter s.rd s.buf s.eof with
    | none => s
    | some (rd, buf, none) => { s with rd := rd, buf := buf }
    | some (rd, buf, some a) => LSt.perform { s with rd := rd, buf := buf } a
  | .replying m => { s.write (.reader (s.acts.length - 1)) m with tail := .reading }
  | .closing none => { s with tail := .reading, closed := true }
  | .closing (some m) => { s.write (.reader (s.acts.length - 1)) m with tail := .reading, closed := true }

/-- change task `i` (aio_listener.py:123-173) -/
def LSt.setTask (s : LSt) (i : Nat) (t : Task) : LSt := { s with tasks := s.tasks.set i t }

/-- `_dispatch` from its start to its first suspension (aio_listener.py:125-156) or its end. `fresh` is the trace id
that `SpanContext` would generate. -/
def LSt.dispatch (svc : Services) (s : LSt) (i : Nat) (t : Task) (r : Req) (fresh : PyStr) : LSt :=
  match serviceOf r.header with
  | none =>
    s.setTask i { t with st := toWrite (failMsg r.id .clientSendError), fate := some .badName }
  | some service =>
    match methodOf r.header with
    | none =>
      s.setTask i { t with st := toWrite (failMsg r.id .clientSendError), fate := some .badName }
    | some method =>
      match extract s.heap fresh r.header with
      | .error _ => s.setTask i { t with st := .ended, fate := some .badCarrier }
      | .ok (heap, ctx) =>
        let s := { s with heap := heap }
        match findMethod svc s.reg heap ctx service method with
        | .error .noProcessor =>
          s.setTask i { t with st := toWrite (failMsg r.id .noProcessor), fate := some .notFound, ran := some s.reg }
        | .error e =>
          s.setTask i { t with st := toWrite (failMsg r.id .serverException), fate := some (.failed e),
                               ran := some s.reg }
        | .ok func =>
          let k := s.futs.length
          let s := { s with futs := s.futs ++ [({ func := func, body := r.body, ctx := ctx, heap := heap } : Fut)] }
          if PType.oneway.code = r.callType then
            s.setTask i { t with st := .ended, fut := some k, fate := some .accepted, ran := some s.reg,
                                 started := some s.now }
          else
            s.setTask i { t with st := .waiting (if r.timeout > 0 then some (s.now + r.timeout) else none),
                                 fut := some k, ran := some s.reg, started := some s.now }

/-- what is written for an outcome of the call (aio_listener.py:157-171) -/
def afterCall (id : Int) : Outcome → TaskSt
  | .raised .timeoutError | .raised .cancelledError => toWrite (failMsg id .timeout)
  | .raised _ => toWrite (failMsg id .unknown)
  | .ret v => if v.truthy then toWrite (resultMsg v id) else .ended

/-- Events. `reader`: the reader runs. `run i fresh`: task `i` starts. `result i`: the future of task `i` has
finished and wakes it. `expire i`: its `wait_for` deadline has passed. `write i`: `drain` returns and the message is
written. `futStart`/`futFinish`: the executor. `data`/`eof`/`reset`: the peer. `tick`: time passes.
`register`: `register_interface` is called
(Each is the run of one coroutine of aio_listener.py:123-271 between two of its `await`s, or comes from outside). -/
inductive LEv where
  | data (bs : Bytes)
  | eof
  | reset
  | reader
  | run (i : Nat) (fresh : PyStr)
  | result (i : Nat)
  | expire (i : Nat)
  | write (i : Nat)
  | futStart (k : Nat)
  | futFinish (k : Nat) (o : Outcome)
  | tick (d : Nat)
  | register (r : Registration)
  deriving DecidableEq, Repr

/-- state of the `k`-th future (aio_listener.py:74, 155) -/
def LSt.futSt (s : LSt) (k : Nat) : Option FutSt := (s.futs[k]?).map Fut.st

/-- the future of the `k`-th call changes (aio_listener.py:74, 155-156) -/
def LSt.setFut (s : LSt) (k : Nat) (st : FutSt) : LSt :=
  { s with futs := s.futs.modify k fun f => { f with st := st } }

/-- Timing out cancels the future, which succeeds only if the call has not started (`concurrent.futures`)
(aio_listener.py:156-157). -/
def LSt.cancelFut (s : LSt) (k : Nat) : LSt :=
  if s.futSt k = some .queued then s.setFut k .cancelled else s

/-- One event; events that cannot happen change nothing (aio_listener.py:59-94, 123-271). A call that has raised
StopIteration never wakes its task (155-156): `wrap_future` copies the exception with `asyncio.Future.set_exception`, which
raises TypeError for a StopIteration, in a callback of the loop, and the future stays pending. -/
def lstep (svc : Services) (s : LSt) : LEv → LSt
  | .data bs => if s.eof then s else { s with recvd := s.recvd ++ bs, buf := s.buf ++ bs }
  | .eof => { s with eof := true }
  | .reset => { s with lost := true, closed := true, tail := .reading, rd := { s.rd with phase := .stopped } }
  | .reader => s.reader
  | .run i fresh =>
    match s.tasks[i]? with
    | some t =>
      match t.st, t.kind with
      | .new, .dispatch r => s.dispatch svc i t r fresh
      | _, _ => s
    | none => s
  | .result i =>
    match s.tasks[i]? with
    | some t =>
      match t.st, t.kind, t.fut with
      | .waiting _, .dispatch r, some k =>
        match s.futSt k with
        | some (.finished (.raised .stopIteration)) => s
        | some (.finished o) => s.setTask i { t with st := afterCall r.id o, fate := some (.answered o) }
        | _ => s
      | _, _, _ => s
    | none => s
  | .expire i =>
    match s.tasks[i]? with
    | some t =>
      match t.st, t.kind, t.fut with
      | .waiting (some d), .dispatch r, some k =>
        if d ≤ s.now then
          (s.cancelFut k).setTask i { t with st := toWrite (failMsg r.id .timeout), fate := some .expired }
        else s
      | _, _, _ => s
    | none => s
  | .write i =>
    match s.tasks[i]? with
    | some t =>
      match t.st with
      | .writing m => (s.write (.task i) m).setTask i { t with st := .ended }
      | _ => s
    | none => s
  | .futStart k => if s.futSt k = some .queued then s.setFut k .running else s
  | .futFinish k o => if s.futSt k = some .running then s.setFut k (.finished o) else s
  | .tick d => { s with now := s.now + d }
  | .register r => { s with reg := registerInterface s.reg r }

/-- a schedule on a new connection (aio_listener.py:111, 180-187) -/
def lrun (svc : Services) (reg : Registry) (evs : List LEv) : LSt :=
  evs.foldl (lstep svc) ({ reg := reg } : LSt)

/-- the bytes on the wire (what aio_listener.py:177, 245, 262 have written) -/
def LSt.wire (s : LSt) : Bytes := (s.out.map Prod.snd).flatten

/-- the reader is waiting for bytes (or has ended) (aio_listener.py:190, 204, 207, 211) -/
def LSt.idle (s : LSt) : Prop := s.tail = .reading ∧ readerIter s.rd s.buf s.eof = none

end Bolt
