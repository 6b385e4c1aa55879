import Verif.Model.Pool
/-!
# A pool manager with its pools, over whole histories

`MgrWorld` (Model/Pool.lean) with the operations its users perform: asking for pools, getting and putting connections, and
`clear`. Users do not call `close` of a managed pool themselves.
-/
namespace Bolt
variable {K : Type} [DecidableEq K]

/-- `PoolManager.clear` (pool_manager.py:70-77, recently_used_container.py:87-95): the container is emptied and every pool it
held is closed (`dispose_func` is `lambda p: p.close()`, pool_manager.py:47-48). -/
def MgrWorld.clear (w : MgrWorld K) : MgrWorld K :=
  let mgr' := w.mgr.clear
  let fresh := mgr'.pools.disposed.drop w.mgr.pools.disposed.length
  fresh.foldl (fun w i => w.upd i fun p => p.close.1) { w with mgr := mgr' }

/-- What users of a manager and of its pools do (pool_manager.py:70-98, connection_pool.py:94-162). A pool may be used after
it has been evicted. -/
inductive WorldOp (K : Type) where
  | ask (k : K)
  | get (p : PoolRef) (timeout readable : Bool)
  | put (p : PoolRef) (c : ConnRef)
  | closeConn (p : PoolRef) (c : ConnRef)  -- a user closes a connection
  | clear
  deriving DecidableEq, Repr

/-- One operation (pool_manager.py:70-98, connection_pool.py:94-178). -/
def worldStep (cfg : PoolCfg) (w : MgrWorld K) : WorldOp K → MgrWorld K
  | .ask k => (w.poolFor cfg k).1
  | .get p t r => w.upd p fun pool => (pool.getConn cfg t r).1
  | .put p c => w.upd p fun pool => pool.putConn cfg c
  | .closeConn p c => w.upd p fun pool => pool.closeConn c
  | .clear => w.clear

/-- A history on a fresh manager (pool_manager.py:45-48). -/
def worldRun (cfg : PoolCfg) (maxPools : Nat) (ops : List (WorldOp K)) : MgrWorld K :=
  ops.foldl (worldStep cfg) { mgr := PoolMgr.init maxPools }

end Bolt
