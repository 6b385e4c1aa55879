import Verif.Model.Pool
/-!
# A pool whose connections cannot always be made

`socket.socket()` (connection.py:38) fails when the process has no file descriptor left, and `SocketConnection.__init__`
does not catch that (only `connect`, lines 41-44, is guarded). `Model/Pool.lean` leaves this out; here every creation can
fail. `_new_conn` has counted the connection by then (connection_pool.py:87 comes before line 91).

Calls run one after the other, as in `Model/Pool.lean`. The exception (an `OSError`) is `PyExc.other`.
-/
namespace Bolt
namespace CPool

/-- `_new_conn` (connection_pool.py:80-92); `sock`: the socket can be created (connection.py:38). -/
def newConnS (cfg : PoolCfg) (p : CPool) (sock : Bool) : CPool × Except PyExc ConnRef :=
  if p.num ≥ cfg.maxConns then (p, .error .emptyPool)
  else
    let p := { p with num := p.num + 1 }
    if sock then ({ p with made := p.made + 1 }, .ok p.made) else (p, .error .other)

/-- `get_conn` (connection_pool.py:94-130), which creates at most one connection: at line 111 or at line 130. An `OSError`
from line 111 passes the handlers of lines 113-121; the connection taken from the queue is gone. -/
def getConnS (cfg : PoolCfg) (p : CPool) (timeout readable sock : Bool) : CPool × Res ConnRef :=
  match p.free with
  | none => (p, .raise .closedPool)
  | some [] =>
    if cfg.block then (p, if timeout then .raise .emptyPool else .hang)
    else match newConnS cfg p sock with
      | (p', .ok c) => (p', .ok c)
      | (p', .error e) => (p', .raise e)
  | some (c :: q) =>
    let p1 := { p with free := some q }
    let replenished : Except PyExc CPool × CPool :=
      if q.length < cfg.minFree then
        match newConnS cfg p1 sock with
        | (p2, .error e) => (.error e, p2)
        | (p2, .ok n) => (.ok (putConn cfg p2 n), p2)
      else (.ok p1, p1)
    match replenished with
    | (.error e, p2) => (p2, .raise e)
    | (.ok p2, _) =>
      if isDropped p2 c readable then
        let p3 := p2.closeConn c
        ({ p3 with num := p3.num - 1 }, .ok c)
      else (p2, .ok c)

end CPool

/-- What users do (connection_pool.py:94-178). `get` says whether a socket can be created, should one be needed. -/
inductive PoolOpS where
  | get (timeout readable sock : Bool)
  | put (c : ConnRef)
  | closeConn (c : ConnRef)
  | closePool
  deriving DecidableEq, Repr

/-- One operation (connection_pool.py:94-178). -/
def poolStepS (cfg : PoolCfg) (s : PoolSys) : PoolOpS → PoolSys
  | .get timeout readable sock =>
    match s.pool.getConnS cfg timeout readable sock with
    | (p, .ok c) => { s with pool := p, held := c :: s.held, log := s.log ++ s.popped.map .out }
    | (p, _) => { s with pool := p, lost := s.popped ++ s.lost, log := s.log ++ s.popped.map .out }
  | .put c => poolStep cfg s (.put c)
  | .closeConn c => poolStep cfg s (.closeConn c)
  | .closePool => poolStep cfg s .closePool

/-- A history of operations (connection_pool.py:94-178). -/
def poolRunS (cfg : PoolCfg) (p : CPool) (ops : List PoolOpS) : PoolSys := ops.foldl (poolStepS cfg) (poolStart p)

end Bolt
