import Verif.Model.SyncClient
/-!
# `anthunder/client/client.py` together with `mysockpool`

A whole call of the synchronous client on real pools, where `Verif.Model.SyncClient` leaves open what `get_conn`
gives. The kernel decides, for each attempt, whether the connection looks readable when `get_conn` tests it
(connection_pool.py:124, utils.py:41-45) and what `send` does with an open connection.
-/
namespace Bolt

/-- what the kernel does in one attempt (connection_pool.py:124, connection.py:58-59) -/
structure NetFacts where
  readable : Bool
  send : SendRes
  deriving DecidableEq, Repr

/-- whether `close` has been called on the connection
(connection.py:51-55, called in connection_pool.py:126, 162, 175 and client.py:126) -/
def CliPools.isClosed (w : CliPools) (c : ConnId) : Bool :=
  match w.mgrs[c.mgr]?.bind fun m => m.pools[c.pool]? with
  | some p => p.closed.contains c.conn
  | none => false

/-- `conn.send` (connection.py:57-59): a closed socket cannot be registered with a selector (_wait.py:44-48). -/
def CliPools.sendOn (w : CliPools) (c : ConnId) (r : SendRes) : SendRes :=
  if w.isClosed c then .socketValue else r

/-- The loop of `_raw_invoke` (client.py:72-86), as `attemptLoop`, with `self._get_pool(interface).get_conn()` made on
the pools. A `get_conn` that blocks for ever does not occur (`block` is off) and is treated like a blocked `send`. -/
def attemptPools (stream : Except PyExc Bytes) (addr : PyStr × Int) (net : Nat → NetFacts) :
    Nat → Nat → CliPools → Option ConnId → CliPools × LoopOut ConnId
  | 0, i, w, conn => (w, { attempts := i, conn := conn })
  | k + 1, i, w, conn =>
    match poolGetConn w addr (net i).readable with
    | (w1, .hang) => (w1, { attempts := i + 1, conn := conn, hung := true })
    | (w1, .raise .socketValueError) => attemptPools stream addr net k (i + 1) w1 conn
    | (w1, .raise _) => (w1, { attempts := i + 1, conn := conn })
    | (w1, .ok c) =>
      match stream with
      | .error _ => (w1, { attempts := i + 1, conn := some c })
      | .ok bs =>
        match w1.sendOn c (net i).send with
        | .socketValue => attemptPools stream addr net k (i + 1) w1 (some c)
        | .fail _ => (w1, { attempts := i + 1, conn := some c })
        | .hang => (w1, { attempts := i + 1, conn := some c, hung := true })
        | .ok n => (w1, { attempts := i + 1, wire := [(c, bs.take n)], conn := some c })

/-- What a call made of the pools: the pools afterwards, the work of the loop, the outcome (client.py:94-141). -/
structure PoolCall (α : Type) where
  pools : CliPools
  loop : LoopOut ConnId
  out : α
  deriving DecidableEq, Repr

/-- `_raw_invoke` (client.py:55-88) on the pools -/
def rawInvokePools (w : CliPools) (a : CallArgs) (addr : PyStr × Int) (net : Nat → NetFacts) :
    PoolCall (Res (Int × ConnId)) :=
  match a.request with
  | .error e => ⟨w, { attempts := 0, conn := none }, .raise e⟩
  | .ok p =>
    let r := attemptPools p.toStream addr net 3 0 w none
    ⟨r.1, r.2, if r.2.hung then .hang
      else match r.2.conn with
        | none => .raise .nameError
        | some c => .ok (a.id, c)⟩

/-- `invoke_oneway` (client.py:94-97). Line 97 puts the connection into the pool of yet another `_get_pool`; see
`callPools`. -/
def onewayPools (w : CliPools) (a : CallArgs) (addr : PyStr × Int) (net : Nat → NetFacts) : PoolCall (Res Unit) :=
  let r := rawInvokePools w { a with timeout := .none, ptype := .oneway } addr net
  match r.out with
  | .hang => ⟨r.pools, r.loop, .hang⟩
  | .raise e => ⟨r.pools, r.loop, .raise e⟩
  | .ok _ => ⟨(getPool r.pools addr).1, r.loop, .ok ()⟩

/-- `invoke_sync` (client.py:99-141): as `invokeSync`; the selector refuses a closed connection (line 116), and line
134 puts the connection into the pool of yet another `_get_pool` when a whole frame has been read. -/
def syncPools (w : CliPools) (a : CallArgs) (t : TimeoutArg) (addr : PyStr × Int) (net : Nat → NetFacts)
    (stream : Bytes) (evs : List RecvEv) : PoolCall SyncRes :=
  match t with
  | .other _ => ⟨w, { attempts := 0, conn := none }, .ended (.error .assertionError)⟩
  | _ =>
    let r := rawInvokePools w { a with timeout := t.obj, ptype := .request } addr net
    match r.out with
    | .hang => ⟨r.pools, r.loop, .hung⟩
    | .raise e => ⟨r.pools, r.loop, .ended (.error e)⟩
    | .ok (reqId, c) =>
      if r.pools.isClosed c then ⟨r.pools, r.loop, .ended (.error .valueError)⟩
      else
        let s := recvRun reqId stream evs
        ⟨if s.connBack then (getPool r.pools addr).1 else r.pools, r.loop,
          match s.out with
          | none => .waiting
          | some o => .ended o⟩

end Bolt
