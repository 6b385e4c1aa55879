import Verif.Model.Container
/-!
# Sequential model of `mysockpool/connection_pool.py` and of `PoolManager.connection_scope`

Here every call runs to completion before the next one starts; `Model/PoolThreads.lean` has the
interleaving model. Creating a socket object always succeeds (`SocketConnection.__init__`,
connection.py:35-44, swallows connect errors; `Model/PoolSockets.lean` has pools where it fails); the other socket facts a pool can observe are inputs:
whether the popped connection looks readable or broken (`readable`), and whether a blocking `get` has a
timeout. `SocketConnection` and `ConnectionPool` define no truth value, so `if conn`/`conn or ...`
(connection_pool.py:124,130,161,174) only test for `None`.
-/
namespace Bolt

/-- A connection object, named by the order of creation within its pool (connection_pool.py:91). -/
abbrev ConnRef := Nat

/-- Constructor arguments of `ConnectionPool` (connection_pool.py:45-51). -/
structure PoolCfg where
  initial : Nat := 1
  maxConns : Nat := 20
  maxFree : Nat := 5
  minFree : Nat := 1
  block : Bool := false
  deriving DecidableEq, Repr

/-- A `ConnectionPool` object (connection_pool.py:60-65): `free` is the content of the `LifoQueue`, most
recently put first, or `none` once `self.pool is None`; `num` is `num_connections`; `made` counts
`ConnectionCls(...)` calls; `closed` lists the connections on which `close()` was called. -/
structure CPool where
  free : Option (List ConnRef) := some []
  num : Int := 0
  made : Nat := 0
  closed : List ConnRef := []
  deriving DecidableEq, Repr

/-- Result of a call: a value, an exception, or a call that blocks for ever (sequentially)
(connection_pool.py:67, 108). -/
inductive Res (α : Type) where
  | ok (a : α)
  | raise (e : PyExc)
  | hang
  deriving DecidableEq, Repr

namespace CPool

/-- `LifoQueue(maxsize)` is full (queue.Queue: a `maxsize` of zero means unbounded) (connection_pool.py:65, 147). -/
def full (cfg : PoolCfg) (q : List ConnRef) : Bool := 0 < cfg.maxFree && cfg.maxFree ≤ q.length

/-- `conn.close()` (connection.py:51-55, exceptions swallowed) -/
def closeConn (p : CPool) (c : ConnRef) : CPool := { p with closed := c :: p.closed }

/-- `_new_conn` (connection_pool.py:80-92) -/
def newConn (cfg : PoolCfg) (p : CPool) : CPool × Except PyExc ConnRef :=
  if p.num ≥ cfg.maxConns then (p, .error .emptyPool)
  else ({ p with num := p.num + 1, made := p.made + 1 }, .ok p.made)

/-- `put_conn` (connection_pool.py:132-162) -/
def putConn (cfg : PoolCfg) (p : CPool) (c : ConnRef) : CPool :=
  match p.free with
  | none => p.closeConn c
  | some q =>
    if full cfg q then { p with num := p.num - 1 }.closeConn c
    else { p with free := some (c :: q) }

/-- The loop of `__init__` (connection_pool.py:66-67); `self.pool.put` blocks when the queue is full. -/
def fill (cfg : PoolCfg) : Nat → CPool → Res CPool
  | 0, p => .ok p
  | i + 1, p =>
    match newConn cfg p with
    | (_, .error e) => .raise e
    | (p', .ok c) =>
      match p'.free with
      | none => .raise .attributeError
      | some q => if full cfg q then .hang else fill cfg i { p' with free := some (c :: q) }

/-- `ConnectionPool(pool_key, ...)` (connection_pool.py:45-67), `pool_key` being valid. -/
def init (cfg : PoolCfg) : Res CPool := fill cfg cfg.initial {}

/-- `is_connection_dropped` (utils.py:26-45): selecting on a closed socket raises (hence `True`); an open
one is dropped when it is readable (or broken), which the environment decides. -/
def isDropped (p : CPool) (c : ConnRef) (readable : Bool) : Bool := p.closed.contains c || readable

/-- `get_conn` (connection_pool.py:94-130). `timeout` says whether a finite timeout was given (it only
matters when `block` is set). Popping a connection and failing to replenish the queue raises
`EmptyPoolError` and the popped connection is gone. -/
def getConn (cfg : PoolCfg) (p : CPool) (timeout readable : Bool) : CPool × Res ConnRef :=
  match p.free with
  | none => (p, .raise .closedPool)
  | some [] =>
    if cfg.block then (p, if timeout then .raise .emptyPool else .hang)
    else match newConn cfg p with
      | (p', .ok c) => (p', .ok c)
      | (p', .error e) => (p', .raise e)
  | some (c :: q) =>
    let p1 := { p with free := some q }
    let replenished : Except PyExc CPool × CPool :=
      if q.length < cfg.minFree then
        match newConn cfg p1 with
        | (p2, .error e) => (.error e, p2)
        | (p2, .ok n) => (.ok (putConn cfg p2 n), p2)
      else (.ok p1, p1)
    match replenished with
    | (.error e, p2) => (p2, .raise e)
    | (.ok p2, _) =>
      if isDropped p2 c readable then
        let p3 := p2.closeConn c
        ({ p3 with num := p3.num - 1 }, .ok c)
      else (p2, .ok c)

/-- `close` (connection_pool.py:164-178): closing a second time calls `None.get`, an `AttributeError`. -/
def close (p : CPool) : CPool × Except PyExc Unit :=
  match p.free with
  | none => (p, .error .attributeError)
  | some q => ({ p with free := none, closed := q ++ p.closed }, .ok ())

end CPool

/-! ## A pool and its users -/

/-- Ghost events of a pool's history (of connection_pool.py:94-162). -/
inductive PoolEv where
  | back (c : ConnRef)  -- a user (or the constructor) put `c` back and the pool kept it
  | out (c : ConnRef)   -- `c` left the queue
  deriving DecidableEq, Repr

/-- A pool together with what its users hold. `held` are the connections handed out and not put back.
The remaining fields are ghosts: `log` records hand-outs and returns, `lost` the connections popped by a
`get_conn` that then raised (connection_pool.py:45-67). -/
structure PoolSys where
  pool : CPool
  held : List ConnRef := []
  log : List PoolEv := []
  lost : List ConnRef := []
  deriving DecidableEq, Repr

/-- What users can do (each connection is put back only by its holder and once) (connection_pool.py:94-178). -/
inductive PoolOp where
  | get (timeout readable : Bool)
  | put (c : ConnRef)
  | closeConn (c : ConnRef)  -- the holder closes the connection itself
  | closePool
  deriving DecidableEq, Repr

/-- Log entry for a connection the pool may have popped (connection_pool.py:108). -/
def PoolSys.popped (s : PoolSys) : List ConnRef :=
  match s.pool.free with
  | some (c :: _) => [c]
  | _ => []

/-- One user operation; operations on connections not held are ignored (connection_pool.py:94-178). -/
def poolStep (cfg : PoolCfg) (s : PoolSys) : PoolOp → PoolSys
  | .get timeout readable =>
    match s.pool.getConn cfg timeout readable with
    | (p, .ok c) => { s with pool := p, held := c :: s.held, log := s.log ++ s.popped.map .out }
    | (p, _) => { s with pool := p, lost := s.popped ++ s.lost, log := s.log ++ s.popped.map .out }
  | .put c =>
    if c ∈ s.held then
      { s with
        pool := s.pool.putConn cfg c
        held := s.held.erase c
        log := s.log ++ (match s.pool.free with
          | some q => if CPool.full cfg q then [] else [.back c]
          | none => []) }
    else s
  | .closeConn c => if c ∈ s.held then { s with pool := s.pool.closeConn c } else s
  | .closePool => { s with pool := s.pool.close.1 }

/-- The system right after the constructor returned `p` (connection_pool.py:45-67). -/
def poolStart (p : CPool) : PoolSys :=
  { pool := p, log := (p.free.getD []).reverse.map .back }

/-- A history of operations (connection_pool.py:94-178). -/
def poolRun (cfg : PoolCfg) (p : CPool) (ops : List PoolOp) : PoolSys := ops.foldl (poolStep cfg) (poolStart p)

/-! ## PoolManager.connection_scope -/

/-- A manager with its pools: `pools[i]` is the pool named `i` (pool_manager.py:45-48). -/
structure MgrWorld (K : Type) where
  mgr : PoolMgr K
  pools : List CPool := []
  deriving DecidableEq, Repr

namespace MgrWorld
variable {K : Type} [DecidableEq K]

/-- apply `f` to pool `i` (pool_manager.py:48, 68) -/
def upd (w : MgrWorld K) (i : PoolRef) (f : CPool → CPool) : MgrWorld K :=
  { w with pools := w.pools.modify i f }

/-- `connection_pool_from_pool_key` (pool_manager.py:79-98) with the pools' contents: the constructor runs,
and the pools disposed by the container are closed (`lambda p: p.close()`, pool_manager.py:47-48). -/
def poolFor (cfg : PoolCfg) (w : MgrWorld K) (k : K) : MgrWorld K × Res PoolRef :=
  match w.mgr.pools.get k with
  | (ps, some p) => ({ w with mgr := { w.mgr with pools := ps } }, .ok p)
  | (_, none) =>
    match CPool.init cfg with
    | .hang => (w, .hang)
    | .raise e => (w, .raise e)
    | .ok pool =>
      let (mgr', r) := w.mgr.poolFor k (.ok ())
      let fresh := mgr'.pools.disposed.drop w.mgr.pools.disposed.length
      let w' : MgrWorld K := { mgr := mgr', pools := w.pools ++ [pool] }
      match r with
      | .error e => (w', .raise e)
      | .ok p => (fresh.foldl (fun w i => w.upd i fun p => p.close.1) w', .ok p)

/-- `with mgr.connection_scope(key) as conn: body(conn)` (pool_manager.py:100-112). The body is any
function of the world: it may use the manager, open other scopes, close things, and it ends with a value
or an exception. If acquiring failed, `pool.put_conn(conn)` in the `finally` block hits an unbound local
(a `NameError`), which is swallowed. The third component lists the connections put back. -/
def connectionScope {α : Type} (cfg : PoolCfg) (w : MgrWorld K) (k : K) (timeout readable : Bool)
    (body : MgrWorld K → PoolRef → ConnRef → MgrWorld K × Except PyExc α) :
    MgrWorld K × Res α × List (PoolRef × ConnRef) :=
  match w.poolFor cfg k with
  | (w1, .hang) => (w1, .hang, [])
  | (w1, .raise e) => (w1, .raise e, [])
  | (w1, .ok p) =>
    match w1.pools[p]? with
    | none => (w1, .raise .attributeError, [])
    | some pool =>
      match pool.getConn cfg timeout readable with
      | (pool', .hang) => (w1.upd p fun _ => pool', .hang, [])
      | (pool', .raise e) => (w1.upd p fun _ => pool', .raise e, [])
      | (pool', .ok c) =>
        let (w2, r) := body (w1.upd p fun _ => pool') p c
        let w3 := w2.upd p fun pool => pool.putConn cfg c
        match r with
        | .ok a => (w3, .ok a, [(p, c)])
        | .error e => (w3, .raise e, [(p, c)])

end MgrWorld
end Bolt
