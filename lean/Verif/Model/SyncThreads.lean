import Verif.Model.SyncPools
/-!
# `anthunder/client/client.py` used by several threads

Any number of calls of one synchronous client run at the same time, each in its own thread (a thread that makes one call
after the other is the special case where they do not overlap). What they share are the sockets and the pools. The
statements that touch these are steps of their own, and the steps of the calls follow each other in any order:
`_get_pool` (line 75), `get_conn` (line 75), `send` (line 76), each round of the loop of lines 122-133, and line 97 or
134. Steps of different calls inside one `PoolManager` or pool do not occur, since each of these objects is known to one
call only; `getPool` and `CPool.getConn` are therefore taken as one step each.

`_get_address` is asked anew for every pool, and what it answers (or raises) is part of the event. As in `invokeSync`,
`peer c` are all bytes the peer ever sends on connection `c`, and a round reads some of them.
-/
namespace Bolt

/-- Where a call is (client.py:72-141). -/
inductive SyPc where
  /-- line 75, before `_get_pool` -/
  | attempt
  /-- line 75, the pool `p` of manager `m` is about to be asked -/
  | pooled (m : Nat) (p : PoolRef)
  /-- line 76 -/
  | got (c : ConnId)
  /-- blocked for ever in line 75 or 76 -/
  | hung
  /-- lines 116-133 -/
  | reading (c : ConnId) (r : RecvSt)
  /-- line 97 or 134; `r` is what the call will end with unless this line raises -/
  | putting (c : ConnId) (r : Except PyExc PyObj)
  | ended (r : Except PyExc PyObj)
  deriving DecidableEq, Repr

/-- A call (client.py:55-141): the arguments and the timeout it was called with (`none`: `invoke_oneway`), the bytes
`p.to_stream()` gives, the rounds of the loop of line 72 that are left, the variable `conn`. `mine` (the managers it has
made), `tried` (what `get_conn` and `send` did in the rounds that are over) and `rounds` (what the rounds of the receiving
loop brought) are ghosts. -/
structure SyCall where
  args : CallArgs
  timeout : Option TimeoutArg
  stream : Except PyExc Bytes
  left : Nat := 3
  conn : Option ConnId := none
  pc : SyPc := .attempt
  mine : List Nat := []
  tried : List (Attempt ConnId) := []
  rounds : List RecvEv := []

/-- All calls, the pools, and what has been written: by which call (a ghost), on which connection, which bytes
(client.py:75-76, 90-92). -/
structure SySt where
  calls : List SyCall := []
  pools : CliPools := {}
  wire : List (Nat × ConnId × Bytes) := []

/-- Events: a call starts; the next step of call `i`, with what `_get_address` answers, what the kernel says about the
connection, or what a round of the receiving loop brings (client.py:75, 76, 94, 97, 99, 122-134). -/
inductive SyEv where
  | call (a : CallArgs) (t : Option TimeoutArg)
  | getPool (i : Nat) (addr : Except PyExc (PyStr × Int))
  | getConn (i : Nat) (readable : Bool)
  | send (i : Nat) (r : SendRes)
  | round (i : Nat) (e : RecvEv)
  | put (i : Nat) (addr : Except PyExc (PyStr × Int))

/-- the arguments as `_raw_invoke` gets them (client.py:95-96, 115) -/
def syArgs (a : CallArgs) : Option TimeoutArg → CallArgs
  | none => { a with timeout := .none, ptype := .oneway }
  | some t => { a with timeout := t.obj, ptype := .request }

/-- A new call: the assertion (line 111) and lines 68-71; what these raise ends it (client.py:68-71, 94-96, 111-115). -/
def syStart (a : CallArgs) (t : Option TimeoutArg) : SyCall :=
  match t with
  | some (.other _) => { args := a, timeout := t, stream := .error .assertionError, pc := .ended (.error .assertionError) }
  | _ =>
    match (syArgs a t).request with
    | .error e => { args := a, timeout := t, stream := .error e, pc := .ended (.error e) }
    | .ok p => { args := a, timeout := t, stream := p.toStream }

/-- After the loop (client.py:88): an unbound `conn` is a `NameError`; `invoke_oneway` goes on with line 97, `invoke_sync`
registers the connection with a selector, which refuses a closed one (line 116), and reads. -/
def syLeave (peer : ConnId → Bytes) (w : CliPools) (c : SyCall) : SyCall :=
  match c.conn with
  | none => { c with pc := .ended (.error .nameError) }
  | some x =>
    match c.timeout with
    | none => { c with pc := .putting x (.ok .none) }
    | some _ =>
      if w.isClosed x then { c with pc := .ended (.error .valueError) }
      else { c with pc := .reading x { rest := peer x } }

/-- `continue` (client.py:80): the next round, or the end of the loop. `at'` is what this round did. -/
def syAgain (peer : ConnId → Bytes) (w : CliPools) (c : SyCall) (at' : Attempt ConnId) : SyCall :=
  let c' := { c with left := c.left - 1, pc := .attempt, tried := c.tried ++ [at'] }
  if c'.left = 0 then syLeave peer w c' else c'

/-- an exception of line 75 or 76 that is no `SocketValueError`, or no exception: `break` (client.py:81-86) -/
def syBreak (peer : ConnId → Bytes) (w : CliPools) (c : SyCall) (at' : Attempt ConnId) : SyCall :=
  syLeave peer w { c with tried := c.tried ++ [at'] }

/-- an exception in line 75 (client.py:77-84); `conn` keeps its value -/
def syRaise (peer : ConnId → Bytes) (w : CliPools) (c : SyCall) (e : PyExc) : SyCall :=
  match e with
  | .socketValueError => syAgain peer w c ⟨.error .socketValueError, .hang⟩
  | e => syBreak peer w c ⟨.error e, .hang⟩

/-- `pool.get_conn()` on pool `p` of manager `m` (client.py:75, connection_pool.py:94-130) -/
def getConnOf (w : CliPools) (m : Nat) (p : PoolRef) (readable : Bool) : CliPools × Res ConnId :=
  match w.mgrs[m]?.bind fun x => x.pools[p]? with
  | none => (w, .raise .attributeError)
  | some pool =>
    let g := pool.getConn {} false readable
    ({ mgrs := w.mgrs.modify m fun x => x.upd p fun _ => g.1 },
      match g.2 with
      | .ok c => .ok ⟨m, p, c⟩
      | .raise e => .raise e
      | .hang => .hang)

/-- `c.close()` (client.py:126) -/
def CliPools.closeConn (w : CliPools) (c : ConnId) : CliPools :=
  { mgrs := w.mgrs.modify c.mgr fun x => x.upd c.pool fun p => p.closeConn c.conn }

/-- replace call `i` (each call changes its own frame only, client.py:55-141) -/
def SySt.setCall (s : SySt) (i : Nat) (c : SyCall) : SySt := { s with calls := s.calls.set i c }

/-- One event; events that cannot happen change nothing (client.py:55-141). -/
def syStep (peer : ConnId → Bytes) (s : SySt) : SyEv → SySt
  | .call a t => { s with calls := s.calls ++ [syStart a t] }
  | .getPool i addr =>
    match s.calls[i]? with
    | none => s
    | some c =>
      match c.pc, addr with
      | .attempt, .error e => s.setCall i (syRaise peer s.pools c e)
      | .attempt, .ok a =>
        let g := getPool s.pools a
        let c := { c with mine := g.2.1 :: c.mine }
        let s := { s with pools := g.1 }
        match g.2.2 with
        | .ok p => s.setCall i { c with pc := .pooled g.2.1 p }
        | .raise e => s.setCall i (syRaise peer s.pools c e)
        | .hang => s.setCall i { c with pc := .hung }
      | _, _ => s
  | .getConn i readable =>
    match s.calls[i]? with
    | none => s
    | some c =>
      match c.pc with
      | .pooled m p =>
        let g := getConnOf s.pools m p readable
        let s := { s with pools := g.1 }
        match g.2 with
        | .ok x => s.setCall i { c with conn := some x, pc := .got x }
        | .raise e => s.setCall i (syRaise peer s.pools c e)
        | .hang => s.setCall i { c with pc := .hung }
      | _ => s
  | .send i r =>
    match s.calls[i]? with
    | none => s
    | some c =>
      match c.pc with
      | .got x =>
        match c.stream with
        | .error _ => s.setCall i (syBreak peer s.pools c ⟨.ok x, .hang⟩)
        | .ok bs =>
          match s.pools.sendOn x r with
          | .socketValue => s.setCall i (syAgain peer s.pools c ⟨.ok x, .socketValue⟩)
          | .fail e => s.setCall i (syBreak peer s.pools c ⟨.ok x, .fail e⟩)
          | .hang => s.setCall i { c with pc := .hung }
          | .ok n =>
            { s with wire := s.wire ++ [(i, x, bs.take n)] }.setCall i (syBreak peer s.pools c ⟨.ok x, .ok n⟩)
      | _ => s
  | .round i e =>
    match s.calls[i]? with
    | none => s
    | some c =>
      match c.pc with
      | .reading x r =>
        let r' := recvStep c.args.id r e
        let c := { c with rounds := c.rounds ++ [e] }
        let s := if r'.connClosed then { s with pools := s.pools.closeConn x } else s
        match r'.out with
        | none => s.setCall i { c with pc := .reading x r' }
        | some o => s.setCall i { c with pc := if r'.connBack then .putting x o else .ended o }
      | _ => s
  | .put i addr =>
    match s.calls[i]? with
    | none => s
    | some c =>
      match c.pc, addr with
      | .putting _ _, .error e => s.setCall i { c with pc := .ended (.error e) }
      | .putting _ o, .ok a =>
        let g := getPool s.pools a
        let s := { s with pools := g.1 }
        match g.2.2 with
        | .ok _ => s.setCall i { c with mine := g.2.1 :: c.mine, pc := .ended o }
        | .raise e => s.setCall i { c with mine := g.2.1 :: c.mine, pc := .ended (.error e) }
        | .hang => s.setCall i { c with mine := g.2.1 :: c.mine, pc := .hung }
      | _, _ => s

/-- a schedule (client.py:55-141) -/
def syRun (peer : ConnId → Bytes) (evs : List SyEv) : SySt := evs.foldl (syStep peer) {}

end Bolt
