import Verif.Model.SyncClient
/-!
# Model of `anthunder/client/aio_client.py`, the asyncio client

The coroutines `invoke` (one for each call) and `_recv_response` (one for each connection) on one event loop, with
the dictionaries they share. A schedule is a list of events; each event is one piece of one coroutine between two
awaits, or something the environment does. All ways of interleaving the pieces are schedules, including the ones in
which an `await` that has nothing to wait for does not suspend.

Simplifications. `asyncio.Lock` is taken by any waiter when it is free (asyncio hands it out first come, first
served). `drain` and `open_connection` succeed or raise as the environment likes. `writer.write` appends the whole
frame to the output of the connection; a transport that has been closed or lost drops what it is given from some point on
(one that is closed while bytes are buffered still takes more), so that what reaches the peer is a prefix of the output. The address is a parameter of the
event that starts `invoke` (`_get_address` is modelled in `Verif.Model.Mesh`). Logging, `_init` and the waiting of
the calling threads are not modelled, except for what they make of the result of `invoke`. Exceptions that are no
`Exception` other than `CancelledError` are left out.
-/
namespace Bolt

/-- an inet address (`address`, aio_client.py:155, 167) -/
abbrev Addr := PyStr × Int

/-- How `invoke` ends: with `None` (aio_client.py:173), with a response (175), or with an exception. -/
inductive CallRes where
  | none
  | resp (p : Pkg)
  | raised (e : PyExc)
  deriving DecidableEq, Repr

/-- Where `invoke` is: not started; waiting for the dial lock (aio_client.py:151); in `open_connection` (155), holding
the lock; in the first (191) or second (193) `drain`; in `event.wait` (174); ended. `retry` is the argument of the
innermost `_send` (186), `conn` the connection it got. `ev` names the event by the call that made it. -/
inductive CallPc where
  | new
  | locking (retry : Nat) (addr : Addr) (lock : Nat)
  | dialing (retry : Nat) (addr : Addr) (lock : Nat)
  | drain1 (retry : Nat) (addr : Addr) (conn : Nat)
  | drain2 (retry : Nat) (addr : Addr) (conn : Nat)
  | waiting (ev : Nat)
  | done (r : CallRes)
  deriving DecidableEq, Repr

/-- A call of `invoke` (aio_client.py:162-175); `set` is the state of the `asyncio.Event` made in line 202. -/
structure ACall where
  req : Pkg
  pc : CallPc := .new
  set : Bool := false
  deriving DecidableEq, Repr

/-- Where `_recv_response` is: not started; in the first (aio_client.py:229) or second (231) `readexactly`; ended. -/
inductive RecvPc where
  | new
  | hdr
  | body (h : BoltHdr)
  | ended
  deriving DecidableEq, Repr

/-- A connection. `buf` is the buffer of the `StreamReader`, `eof` says that the peer has closed, `lost` that the
reader has an exception (connection reset), `cancelled` that the reading task has been cancelled, `closed` that
`writer.close` has been called. `recvd` (everything received) and `sent` (who gave what to the transport) are ghosts
(the pair of reading task and writer, aio_client.py:155-157). -/
structure AConn where
  addr : Addr
  buf : Bytes := []
  eof : Bool := false
  lost : Bool := false
  cancelled : Bool := false
  closed : Bool := false
  pc : RecvPc := .new
  recvd : Bytes := []
  sent : List (Nat × Bytes) := []
  deriving DecidableEq, Repr

/-- The client: `request_mapping`, `response_mapping`, `connection_mapping`, `_pending_dial` (aio_client.py:54-58),
the locks made so far (taken or not), the connections and calls made so far. `writes` (a ghost) lists every
`writer.write` by call and connection. -/
structure ASt where
  reqs : PyDict PyObj Nat := []
  resps : PyDict PyObj Pkg := []
  connMap : PyDict Addr Nat := []
  dialMap : PyDict Addr Nat := []
  locks : List Bool := []
  conns : List AConn := []
  calls : List ACall := []
  writes : List (Nat × Nat) := []
  deriving DecidableEq, Repr

/-- `asyncio.CancelledError` is an `Exception` up to Python 3.7, and none from 3.8 on
(the clauses in aio_client.py:194, 209, 248; setup.py:75-77). -/
inductive PyVer where
  | upTo37
  | from38
  deriving DecidableEq, Repr

/-- Call `i` has reached another place in aio_client.py:167-175, 187-218. -/
def ASt.setPc (s : ASt) (i : Nat) (pc : CallPc) : ASt :=
  { s with calls := s.calls.modify i fun c => { c with pc := pc } }

/-- the `asyncio.Lock` number `l` is taken or released (aio_client.py:151) -/
def ASt.setLock (s : ASt) (l : Nat) (b : Bool) : ASt := { s with locks := s.locks.set l b }

/-- An `Exception` leaves `_send` (aio_client.py:205-212): the entry is removed and `invoke` returns `None`, unless
the entry is gone, which makes a `KeyError`. -/
def ASt.sendFailed (s : ASt) (i : Nat) (c : ACall) : ASt :=
  if PyDict.contains s.reqs c.req.requestId then
    { s with reqs := PyDict.erase s.reqs c.req.requestId }.setPc i (.done .none)
  else s.setPc i (.done (.raised .keyError))

/-- `_send(retry)` from its beginning to the first `await` (aio_client.py:187-189, 148-155). With `retry = 0` a
`PyboltError` is raised. A lock that is free is taken at once; the second look into `connection_mapping` (152) finds
nothing then. -/
def ASt.send (s : ASt) (i : Nat) (c : ACall) (retry : Nat) (addr : Addr) : ASt :=
  if retry = 0 then s.sendFailed i c
  else match PyDict.get? s.connMap addr with
    | some n => s.setPc i (.drain1 retry addr n)
    | none =>
      match PyDict.get? s.dialMap addr with
      | some l =>
        if s.locks[l]? = some false then (s.setLock l true).setPc i (.dialing retry addr l)
        else s.setPc i (.locking retry addr l)
      | none =>
        let l := s.locks.length
        { s with dialMap := PyDict.set s.dialMap addr l, locks := s.locks ++ [true] }.setPc i (.dialing retry addr l)

/-- The `except` clause of `_send` (aio_client.py:194-199): the reading task of the connection is cancelled, the
entries of the address are removed (a missing one is a `KeyError`, which leaves `_send`), and `_send` starts again. -/
def ASt.broken (s : ASt) (i : Nat) (c : ACall) (retry : Nat) (addr : Addr) (conn : Nat) : ASt :=
  let s := { s with conns := s.conns.modify conn fun k => { k with cancelled := true } }
  if PyDict.contains s.connMap addr then
    let s := { s with connMap := PyDict.erase s.connMap addr }
    if PyDict.contains s.dialMap addr then
      { s with dialMap := PyDict.erase s.dialMap addr }.send i c (retry - 1) addr
    else s.sendFailed i c
  else s.sendFailed i c

/-- The call starts (aio_client.py:167-170, 184, 202-204): the event is made and entered, then `_send(3)`. -/
def ASt.start (s : ASt) (i : Nat) (addr : Addr) : ASt :=
  match s.calls[i]? with
  | some c =>
    match c.pc with
    | .new => { s with reqs := PyDict.set s.reqs c.req.requestId i }.send i c 3 addr
    | _ => s
  | none => s

/-- A waiting call gets the dial lock (aio_client.py:151-155). -/
def ASt.lockTurn (s : ASt) (i : Nat) : ASt :=
  match s.calls[i]? with
  | some c =>
    match c.pc with
    | .locking r addr l =>
      if s.locks[l]? = some false then
        match PyDict.get? s.connMap addr with
        | some n => s.setPc i (.drain1 r addr n)
        | none => (s.setLock l true).setPc i (.dialing r addr l)
      else s
    | _ => s
  | none => s

/-- `open_connection` has ended (aio_client.py:155-157): a new connection with its reading task, entered unless there
is an entry already; an exception leaves `_send`. The lock is released in both cases. -/
def ASt.dialed (s : ASt) (i : Nat) (ok : Bool) : ASt :=
  match s.calls[i]? with
  | some c =>
    match c.pc with
    | .dialing r addr l =>
      let s := s.setLock l false
      if ok then
        let n := s.conns.length
        let s := { s with conns := s.conns ++ [({ addr := addr } : AConn)] }
        match PyDict.get? s.connMap addr with
        | some m => s.setPc i (.drain1 r addr m)
        | none => { s with connMap := PyDict.set s.connMap addr n }.setPc i (.drain1 r addr n)
      else s.sendFailed i c
    | _ => s
  | none => s

/-- A `drain` has ended (aio_client.py:191-199, 214-218, 174): the first one is followed by `to_stream` and `write`,
the second one by the end of `_send_request`. -/
def ASt.drained (s : ASt) (i : Nat) (ok : Bool) : ASt :=
  match s.calls[i]? with
  | some c =>
    match c.pc with
    | .drain1 r addr n =>
      if ok then
        match c.req.toStream with
        | .error _ => s.broken i c r addr n
        | .ok bs =>
          { s with
            conns := s.conns.modify n fun k => { k with sent := k.sent ++ [(i, bs)] }
            writes := s.writes ++ [(i, n)] }.setPc i (.drain2 r addr n)
      else s.broken i c r addr n
    | .drain2 r addr n =>
      if ok then
        match PyDict.get? s.reqs c.req.requestId with
        | none => s.setPc i (.done (.raised .keyError))
        | some ev =>
          if c.req.ptype = .oneway then
            { s with reqs := PyDict.erase s.reqs c.req.requestId }.setPc i (.done .none)
          else s.setPc i (.waiting ev)
      else s.broken i c r addr n
    | _ => s
  | none => s

/-- `event.wait` returns, `response_mapping.pop` (aio_client.py:174-175). -/
def ASt.wake (s : ASt) (i : Nat) : ASt :=
  match s.calls[i]? with
  | some c =>
    match c.pc with
    | .waiting ev =>
      if (s.calls[ev]?.map ACall.set) = some true then
        match PyDict.get? s.resps c.req.requestId with
        | some p => { s with resps := PyDict.erase s.resps c.req.requestId }.setPc i (.done (.resp p))
        | none => s.setPc i (.done (.raised .keyError))
      else s
    | _ => s
  | none => s

/-- A `CancelledError` is raised at the `await` at which the call is (aio_client.py:151, 155, 191, 193, 174). Up to
Python 3.7 the `except Exception` clauses of lines 194 and 209 catch it. Leaving `async with` releases the lock. -/
def ASt.cancel (v : PyVer) (s : ASt) (i : Nat) : ASt :=
  match s.calls[i]? with
  | some c =>
    match c.pc with
    | .new => s.setPc i (.done (.raised .cancelledError))
    | .locking _ _ _ => if v = .upTo37 then s.sendFailed i c else s.setPc i (.done (.raised .cancelledError))
    | .dialing _ _ l =>
      let s := s.setLock l false
      if v = .upTo37 then s.sendFailed i c else s.setPc i (.done (.raised .cancelledError))
    | .drain1 r addr n => if v = .upTo37 then s.broken i c r addr n else s.setPc i (.done (.raised .cancelledError))
    | .drain2 r addr n => if v = .upTo37 then s.broken i c r addr n else s.setPc i (.done (.raised .cancelledError))
    | .waiting _ => s.setPc i (.done (.raised .cancelledError))
    | .done _ => s
  | none => s

/-! ## The reading task -/

/-- the `finally` clause (aio_client.py:256-260) with a package -/
def ASt.notify (s : ASt) (id : PyObj) : ASt :=
  match PyDict.get? s.reqs id with
  | some ev =>
    { s with reqs := PyDict.erase s.reqs id, calls := s.calls.modify ev fun c => { c with set := true } }
  | none => s

/-- aio_client.py:233-260 with a decoded package. `class_name` is a class attribute, the same for all objects of the
class, so that the test of line 233 never succeeds. Every way out (`continue` included) goes through the `finally`
clause. -/
def ASt.onPkg (s : ASt) (p : Pkg) : ASt :=
  if p.cls.className ≠ PkgClass.boltResponse.className then s.notify p.requestId
  else if p.cmdcode = .heartbeat then s.notify p.requestId
  else if p.cmdcode = .request then s.notify p.requestId
  else if p.respstatus ≠ .success then s.notify p.requestId
  else if !PyDict.contains s.reqs p.requestId then s.notify p.requestId
  else { s with resps := PyDict.set s.resps p.requestId p }.notify p.requestId

/-- the state of connection `n` changes (aio_client.py:220-260) -/
def ASt.setConn (s : ASt) (n : Nat) (k : AConn) : ASt := { s with conns := s.conns.set n k }

/-- `_recv_response` (aio_client.py:220-260) from one `readexactly` to the next. A task cancelled before it has run does
nothing at all. An exception of the reader, and the end of the stream, close the writer and end the task. A
`DecodeError` is a `PyboltError`: it is logged, and the loop goes on. -/
def ASt.recv (s : ASt) (n : Nat) : ASt :=
  match s.conns[n]? with
  | none => s
  | some k =>
    match k.pc with
    | .ended => s
    | .new => if k.cancelled then s.setConn n { k with pc := .ended } else s.setConn n { k with pc := .hdr }
    | .hdr =>
      if k.cancelled || k.lost then s.setConn n { k with pc := .ended, closed := true }
      else
        let size := PkgClass.boltResponse.headerSize
        if size ≤ k.buf.length then
          let k' := { k with buf := k.buf.drop size }
          match boltHeaderFromStream .boltResponse (k.buf.take size) with
          | .error _ => s.setConn n k'
          | .ok h => s.setConn n { k' with pc := .body h }
        else if k.eof then s.setConn n { k with pc := .ended, closed := true }
        else s
    | .body h =>
      if k.cancelled || k.lost then s.setConn n { k with pc := .ended, closed := true }
      else match bodySize h with
        | .error _ => s.setConn n { k with pc := .ended, closed := true }
        | .ok size =>
          if size.toNat ≤ k.buf.length then
            let s := s.setConn n { k with buf := k.buf.drop size.toNat, pc := .hdr }
            match boltContentFromStream .boltResponse (k.buf.take size.toNat) h with
            | .error _ => s
            | .ok p => s.onPkg p
          else if k.eof then s.setConn n { k with pc := .ended, closed := true }
          else s

/-! ## Schedules -/

/-- What can happen: a call is made (aio_client.py:77, 84, 100), or goes on from one of its `await`s (148-218), its
task is cancelled, the reading task of connection `n` runs (220-260), or the peer sends, closes or resets. Each piece
between two `await`s is one event: asyncio runs it without interruption. -/
inductive AEv where
  /-- `run_coroutine_threadsafe(self.invoke(pkg))` -/
  | call (req : Pkg)
  | start (i : Nat) (addr : Addr)
  | lock (i : Nat)
  | dialed (i : Nat) (ok : Bool)
  | drained (i : Nat) (ok : Bool)
  | wake (i : Nat)
  | cancel (i : Nat)
  | recv (n : Nat)
  | data (n : Nat) (bs : Bytes)
  | eof (n : Nat)
  | reset (n : Nat)
  deriving DecidableEq, Repr

/-- One event; events that cannot happen change nothing (aio_client.py:145-260). -/
def astep (v : PyVer) (s : ASt) : AEv → ASt
  | .call req => { s with calls := s.calls ++ [({ req := req } : ACall)] }
  | .start i addr => s.start i addr
  | .lock i => s.lockTurn i
  | .dialed i ok => s.dialed i ok
  | .drained i ok => s.drained i ok
  | .wake i => s.wake i
  | .cancel i => s.cancel v i
  | .recv n => s.recv n
  | .data n bs =>
    { s with conns := s.conns.modify n fun k =>
        if k.eof || k.lost then k else { k with buf := k.buf ++ bs, recvd := k.recvd ++ bs } }
  | .eof n => { s with conns := s.conns.modify n fun k => { k with eof := true } }
  | .reset n => { s with conns := s.conns.modify n fun k => { k with lost := true } }

/-- a schedule on a new client (aio_client.py:51-58) -/
def arun (v : PyVer) (evs : List AEv) : ASt := evs.foldl (astep v) {}

/-! ## What the callers make of it -/

/-- `ret.content` (aio_client.py:90): `None` has no such attribute. -/
def syncResult : CallRes → Except PyExc PyObj
  | .none => .error .attributeError
  | .resp p => .ok p.content
  | .raised e => .error e

/-- `callback_wrapper` (aio_client.py:107-119): what the callback is called with, if it is called. -/
def callbackArg : CallRes → Option PyObj
  | .none => none
  | .resp p => some p.content
  | .raised _ => none

/-- `invoke_heartbeat` (aio_client.py:127-143) after `invoke` has ended with `r` -/
def heartbeatResult (req : Pkg) : CallRes → Except PyExc Bool
  | .none => .error .attributeError
  | .raised e => .error e
  | .resp p =>
    if p.requestId ≠ req.requestId then .ok false
    else if p.respstatus ≠ .success then .ok false
    else .ok true

/-- `_heartbeat_timer` (aio_client.py:121-125): the number of heartbeats sent, given how each of them ends; the first
exception ends the loop. -/
def timerRounds : List (Except PyExc Bool) → Nat
  | [] => 0
  | .ok _ :: rs => timerRounds rs + 1
  | .error _ :: _ => 1

/-- The requests built by the three kinds of calls (aio_client.py:75-76, 82-83, 98-99). `timeout_ms` of `invoke_sync` is
an int or float. The arguments besides the context, names, content and timeout are in `a`. -/
inductive AKind where
  | oneway
  | sync
  | async
  deriving DecidableEq, Repr

/-- `SofaHeader.build_header(spanctx, ...)` and `BoltRequest.new_request` with `ptype` left at its default
(aio_client.py:75-76, 82-83, 98-99). -/
def aioRequest (a : CallArgs) (k : AKind) : Except PyExc Pkg :=
  match a.ctx with
  | none => .error .attributeError
  | some b => do
    let h ← buildHeader a.heap b a.interface a.method a.targetApp a.uid a.extra
    let t : PyObj := match k with
      | .oneway => .int (-1)
      | .sync => a.timeout
      | .async => PyObj.or a.timeout (.int (-1))
    newRequest h a.content .request t a.id

end Bolt
