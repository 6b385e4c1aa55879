import Verif.Model.Package
import Verif.Model.Pool
/-!
# Model of `anthunder/client/client.py`, the synchronous client

The network is an environment: what `get_conn` and `send` do in each attempt, how the peer's bytes are cut into
`recv` results, and when `select` times out.
-/
namespace Bolt

/-- What `conn.send(bytes)` does (mysockpool/connection.py:57-59, _wait.py:26-50): `SocketValueError` when the
socket cannot be registered, another exception, no return at all (`wait_for_write` has no timeout), or acceptance of
the first `n` bytes (the return value is ignored by the client). -/
inductive SendRes where
  | socketValue
  | fail (e : PyExc)
  | hang
  | ok (n : Nat)
  deriving DecidableEq, Repr

/-- One connection attempt as the environment decides it; `C` names connections (client.py:74-86). -/
structure Attempt (C : Type) where
  getConn : Except PyExc C
  send : SendRes
  deriving Repr

/-- What the retry loop did: attempts made, what went out, the connection bound to `conn`, and whether it blocked
(client.py:72-88). -/
structure LoopOut (C : Type) where
  attempts : Nat
  wire : List (C × Bytes) := []
  conn : Option C
  hung : Bool := false
  deriving DecidableEq, Repr

/-- The loop of `_raw_invoke` (client.py:72-86) from attempt `i` with `k` rounds left; `conn` is the value bound so
far. `stream` is the result of `p.to_stream()`, evaluated before the bytes are passed to `send`; its exceptions are
no `SocketValueError`, so they end the loop. -/
def attemptLoop {C : Type} (stream : Except PyExc Bytes) (env : Nat → Attempt C) :
    Nat → Nat → Option C → LoopOut C
  | 0, i, conn => { attempts := i, conn := conn }
  | k + 1, i, conn =>
    match (env i).getConn with
    | .error .socketValueError => attemptLoop stream env k (i + 1) conn
    | .error _ => { attempts := i + 1, conn := conn }
    | .ok c =>
      match stream with
      | .error _ => { attempts := i + 1, conn := some c }
      | .ok bs =>
        match (env i).send with
        | .socketValue => attemptLoop stream env k (i + 1) (some c)
        | .fail _ => { attempts := i + 1, conn := some c }
        | .hang => { attempts := i + 1, conn := some c, hung := true }
        | .ok n => { attempts := i + 1, wire := [(c, bs.take n)], conn := some c }

/-- Arguments of a call; `id` is what `next(RequestId)` gives, `extra` are the further headers (`**headers` of the
asyncio client, aio_client.py:74-98; `**sofa_headers_extra` of `_raw_invoke`, client.py:56, to which the public methods of
the synchronous client pass none). -/
structure CallArgs where
  heap : Heap
  ctx : Option Baggage
  interface : PyObj
  method : PyObj
  targetApp : PyObj := .str []
  uid : PyObj := .str []
  extra : PyDict PyStr PyObj := []
  content : PyObj
  timeout : PyObj
  ptype : PType := .request
  id : Int

/-- Lines 68-71 of `_raw_invoke` (client.py): `spanctx.baggage` on `None` is an `AttributeError`; then
`timeout_ms or -1`. -/
def CallArgs.request (a : CallArgs) : Except PyExc Pkg :=
  match a.ctx with
  | none => .error .attributeError
  | some b => do
    let h ← buildHeader a.heap b a.interface a.method a.targetApp a.uid a.extra
    newRequest h a.content a.ptype (PyObj.or a.timeout (.int (-1))) a.id

/-- `_raw_invoke` (client.py:55-88): the result and what the loop did (nothing if the request could not be built).
Returning an unbound `conn` is a `NameError`. -/
def rawInvoke {C : Type} (a : CallArgs) (env : Nat → Attempt C) : Res (Int × C) × LoopOut C :=
  match a.request with
  | .error e => (.raise e, { attempts := 0, conn := none })
  | .ok p =>
    let o := attemptLoop p.toStream env 3 0 none
    (if o.hung then .hang
     else match o.conn with
      | none => .raise .nameError
      | some c => .ok (a.id, c), o)

/-! ## Reading the response -/

/-- One round of the loop: `select` timed out; `recv` raised; or `recv` returned up to `n + 1` bytes of what the peer
has sent (nothing if there is nothing left, which is how a closed connection shows) (client.py:122-133). -/
inductive RecvEv where
  | timeout
  | fail (e : PyExc)
  | recv (n : Nat)
  deriving DecidableEq, Repr

/-- State of `invoke_sync` after `_raw_invoke`. `rest` are the peer's bytes not read yet; `out` is the outcome once
the call has ended; `connClosed`/`connBack` tell what happened to the connection (client.py:117-141). -/
structure RecvSt where
  buf : Bytes := []
  total : Nat := PkgClass.boltResponse.headerSize
  hdr : Option BoltHdr := none
  rest : Bytes
  out : Option (Except PyExc PyObj) := none
  connClosed : Bool := false
  connBack : Bool := false
  deriving DecidableEq, Repr

/-- After the loop (client.py:134-141). -/
def finishSync (reqId : Int) (buf : Bytes) (h : BoltHdr) : Except PyExc PyObj :=
  match boltContentFromStream .boltResponse (buf.drop PkgClass.boltResponse.headerSize) h with
  | .error e => .error e
  | .ok resp =>
    if resp.requestId ≠ .int reqId then .error .serverError
    else if resp.respstatus ≠ .success then .error .serverError
    else .ok resp.content

/-- `header['class_len'] + header['header_len'] + header['content_len']` (client.py:132) -/
def bodySize (h : BoltHdr) : Except PyExc Int := do
  let cl ← BoltHdr.get h .classLen
  let hl ← BoltHdr.get h .headerLen
  let nl ← BoltHdr.get h .contentLen
  pure (cl + hl + nl)

/-- `if not header and len(resp_bytes) >= total_size: ...` (client.py:130-133); `none` if nothing was raised. -/
def parseHdr (s : RecvSt) : RecvSt :=
  if s.hdr.isNone && s.total ≤ s.buf.length then
    match boltHeaderFromStream .boltResponse s.buf with
    | .error e => { s with out := some (.error e) }
    | .ok h =>
      match bodySize h with
      | .error e => { s with out := some (.error e) }
      | .ok n => { s with hdr := some h, total := s.total + n.toNat }
  else s

/-- The loop test (client.py:122) and, when it fails, the rest of the function: the connection goes to a pool (line
134) before the content is decoded. `header` is bound then (see `recvInv`). -/
def loopTest (reqId : Int) (s : RecvSt) : RecvSt :=
  if s.out.isSome then s
  else if s.buf.length < s.total then s
  else match s.hdr with
    | none => { s with connBack := true, out := some (.error .decodeError) }
    | some h => { s with connBack := true, out := some (finishSync reqId s.buf h) }

/-- One round of the receiving loop (client.py:122-133). -/
def recvStep (reqId : Int) (s : RecvSt) (ev : RecvEv) : RecvSt :=
  if s.out.isSome then s
  else match ev with
    | .timeout => { s with connClosed := true, out := some (.error .timeoutError) }
    | .fail e => { s with out := some (.error e) }
    | .recv n =>
      let chunk := s.rest.take (min (n + 1) (s.total - s.buf.length))
      loopTest reqId (parseHdr { s with buf := s.buf ++ chunk, rest := s.rest.drop chunk.length })

/-- any number of rounds on a connection from which the peer's bytes `stream` can be read (client.py:117-141) -/
def recvRun (reqId : Int) (stream : Bytes) (evs : List RecvEv) : RecvSt :=
  evs.foldl (recvStep reqId) { rest := stream }

/-- `timeout_ms` as passed by the caller (client.py:99, 111-114). Simplification: line 113 raises nothing and line 123 gets
a timeout that `select` takes (see `Model/SyncLongWait.lean` for those that it does not); integers too large for a float,
infinities and NaN are left out. -/
inductive TimeoutArg where
  | int (i : Int)
  | float (nonzero : Bool)
  | other (o : PyObj)
  deriving DecidableEq, Repr

/-- the object handed on to `_raw_invoke` (client.py:115) -/
def TimeoutArg.obj : TimeoutArg → PyObj
  | .int i => .int i
  | .float b => .obj b
  | .other o => o

/-- Outcome of a whole call: still waiting, or ended (client.py:99-141). -/
inductive SyncRes where
  | waiting
  | hung
  | ended (r : Except PyExc PyObj)
  deriving DecidableEq, Repr

/-- `invoke_sync` (client.py:99-141): the assertion, `_raw_invoke`, the registration of the connection with the
selector (`registers = false`: it raises `ValueError`, e.g. for a closed socket), then the rounds `evs`. -/
def invokeSync {C : Type} (a : CallArgs) (t : TimeoutArg) (env : Nat → Attempt C) (registers : Bool) (stream : Bytes)
    (evs : List RecvEv) : SyncRes :=
  match t with
  | .other _ => .ended (.error .assertionError)
  | _ =>
    match (rawInvoke { a with timeout := t.obj, ptype := .request } env).1 with
    | .hang => .hung
    | .raise e => .ended (.error e)
    | .ok (reqId, _) =>
      if !registers then .ended (.error .valueError)
      else match (recvRun reqId stream evs).out with
        | none => .waiting
        | some r => .ended r

/-- `invoke_oneway` (client.py:94-97): `_raw_invoke` with PTYPE.ONEWAY and no timeout, then the connection is given
to a pool. -/
def invokeOneway {C : Type} (a : CallArgs) (env : Nat → Attempt C) : Res Unit × LoopOut C :=
  match rawInvoke { a with timeout := .none, ptype := .oneway } env with
  | (.hang, o) => (.hang, o)
  | (.raise e, o) => (.raise e, o)
  | (.ok _, o) => (.ok (), o)

/-! ## Which connection a call uses -/

/-- A connection: the manager and pool it was created by, and its number there
(client.py:91, pool_manager.py:68, connection_pool.py:91). -/
structure ConnId where
  mgr : Nat
  pool : PoolRef
  conn : ConnRef
  deriving DecidableEq, Repr

/-- All `PoolManager` objects made so far (client.py:91). -/
structure CliPools where
  mgrs : List (MgrWorld (PyStr × Int)) := []
  deriving DecidableEq, Repr

/-- `_get_pool` (client.py:90-92): every call makes a new `PoolManager()` (default `max_pools=10`,
pool_manager.py:45) and asks it for the pool of the address. Returns the manager's number and the pool. -/
def getPool (w : CliPools) (addr : PyStr × Int) : CliPools × Nat × Res PoolRef :=
  let r := ({ mgr := PoolMgr.init 10 } : MgrWorld (PyStr × Int)).poolFor {} addr
  ({ mgrs := w.mgrs ++ [r.1] }, w.mgrs.length, r.2)

/-- `self._get_pool(interface).get_conn()` (client.py:75); `readable` as in `CPool.getConn` -/
def poolGetConn (w : CliPools) (addr : PyStr × Int) (readable : Bool) : CliPools × Res ConnId :=
  match getPool w addr with
  | (w1, _, .hang) => (w1, .hang)
  | (w1, _, .raise e) => (w1, .raise e)
  | (w1, i, .ok p) =>
    match w1.mgrs[i]?.bind fun m => m.pools[p]? with
    | none => (w1, .raise .attributeError)
    | some pool =>
      let g := pool.getConn {} false readable
      ({ mgrs := w1.mgrs.modify i fun m => m.upd p fun _ => g.1 },
        match g.2 with
        | .ok c => .ok ⟨i, p, c⟩
        | .raise e => .raise e
        | .hang => .hang)

/-- The pool traffic of one call whose first attempt succeeds: `get_conn` on one pool, then `put_conn` on another
call of `_get_pool` (client.py:75, 97, 134). What lies in that second pool afterwards is not tracked when the
connection is foreign to it. -/
def callPools (w : CliPools) (addr : PyStr × Int) (readable : Bool) : CliPools × Res ConnId :=
  match poolGetConn w addr readable with
  | (w1, .ok c) => ((getPool w1 addr).1, .ok c)
  | (w1, r) => (w1, r)

/-- the connections used by a sequence of calls (client.py:75, 91-92, 97, 134) -/
def callsConns : CliPools → List ((PyStr × Int) × Bool) → List (Res ConnId)
  | _, [] => []
  | w, (a, r) :: rest => (callPools w a r).2 :: callsConns (callPools w a r).1 rest

end Bolt
