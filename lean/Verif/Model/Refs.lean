import Verif.Model.Py
/-!
# Who holds a connection: reference counting

`SocketConnection.__del__` (mysockpool/connection.py:81-82) closes a connection when the object goes away. CPython frees an
object as soon as the number of references to it is zero. The synchronous client relies on that: it makes a `PoolManager`
for every use (anthunder/client/client.py:90-92) and closes none of them.

Objects are connections, pools (with their queue), managers (with their container) and errors of the pools. References are
held by variables (also arguments, values on the interpreter's stack, and variables of frames that a traceback keeps) and
by objects: a queue holds the free connections, a container the pools, an error the pool and itself.

Simplifications. What else refers to objects of the interpreter (locks, keys, strings) is left out: none of it refers to
connections, pools or managers. The cycle collector does not run.
-/
namespace Bolt

/-- `SocketConnection` (connection.py:31), `ConnectionPool` (connection_pool.py:36), `PoolManager` (pool_manager.py:29), an
`EmptyPoolError` or `ClosedPoolError` (mysockpool/exceptions.py:37, 42) -/
inductive RKind where
  | conn
  | pool
  | manager
  | error
  deriving DecidableEq, Repr

/-- An object: what it refers to (one entry for each reference), whether it has been freed, and for a connection whether it
has been closed (connection.py:51-55, 81-82; connection_pool.py:66-68; pool_manager.py:47). -/
structure RObj where
  kind : RKind
  refs : List Nat := []
  freed : Bool := false
  closed : Bool := false
  deriving DecidableEq, Repr

/-- All objects made so far and the references held by variables (client.py:75, 91, 115; connection_pool.py:108). -/
structure RSt where
  objs : List RObj := []
  vars : List Nat := []
  deriving DecidableEq, Repr

/-- the number of references to object `o` (what CPython keeps for connection.py:81) -/
def RSt.count (s : RSt) (o : Nat) : Nat :=
  s.vars.count o + ((s.objs.filter fun x => !x.freed).map fun x => x.refs.count o).sum

/-- object `o` exists and has not been freed (connection.py:81) -/
def RSt.alive (s : RSt) (o : Nat) : Bool :=
  match s.objs[o]? with
  | some x => !x.freed
  | none => false

/-- object `o` is freed; a connection is closed by its `__del__` (connection.py:81-82) -/
def RSt.free (s : RSt) (o : Nat) : RSt :=
  { s with objs := s.objs.modify o fun x => { x with freed := true, closed := x.closed || x.kind == .conn } }

/-- as long as there is an object without references (at most `n` times), it is freed (connection.py:81-82) -/
def RSt.sweep : Nat → RSt → RSt
  | 0, s => s
  | n + 1, s =>
    match (List.range s.objs.length).find? fun o => s.alive o && s.count o == 0 with
    | none => s
    | some o => (s.free o).sweep n

/-- a new object, held by a variable (connection_pool.py:91, pool_manager.py:68, client.py:91, exceptions.py:28-30) -/
def RSt.make (s : RSt) (x : RObj) : RSt := { objs := s.objs ++ [x], vars := s.vars ++ [s.objs.length] }

/-- What the program does with references (client.py:72-97, connection_pool.py:66-178, pool_manager.py:45-98). -/
inductive ROp where
  /-- a connection is opened (connection_pool.py:91) -/
  | opens
  /-- a pool is made (pool_manager.py:68) -/
  | pool
  /-- a manager is made (client.py:91) -/
  | manager
  /-- an error for pool `p` is made; its `args` contain the error itself (exceptions.py:28-30) -/
  | error (p : Nat)
  /-- object `y` is put into the queue or container of `x` (connection_pool.py:68, 147; pool_manager.py:96) -/
  | enter (x y : Nat)
  /-- object `y` is taken out of the queue or container of `x` (connection_pool.py:108, 173;
  recently_used_container.py:68, 75, 91) -/
  | take (x y : Nat)
  /-- a variable gets object `y`, which `x` refers to (pool_manager.py:90) -/
  | look (x y : Nat)
  /-- another variable gets what a variable holds (an argument, a return value, client.py:88, 95, 115) -/
  | copy (o : Nat)
  /-- a variable that holds `o` ends or gets another value (client.py:75, 97, 134) -/
  | drop (o : Nat)
  /-- `c.close()` (client.py:126, connection_pool.py:126, 162, 175) -/
  | close (c : Nat)
  deriving DecidableEq, Repr

/-- rank of the kinds: objects other than errors refer to objects of lower rank (connection_pool.py:68, pool_manager.py:96) -/
def RKind.rank : RKind → Nat
  | .conn => 0
  | .pool => 1
  | .manager => 2
  | .error => 3

/-- connections go into pools, pools into managers (connection_pool.py:68, 147; pool_manager.py:96) -/
def RSt.holds (s : RSt) (x y : Nat) : Bool :=
  match s.objs[x]?, s.objs[y]? with
  | some a, some b => (a.kind == .pool && b.kind == .conn) || (a.kind == .manager && b.kind == .pool)
  | _, _ => false

/-- the effect of an operation before anything is freed; impossible ones (on objects that no variable holds) change nothing
(the lines of `ROp`, connection_pool.py:68-175, pool_manager.py:68-96, exceptions.py:28-30) -/
def RSt.act (s : RSt) : ROp → RSt
  | .opens => s.make { kind := .conn }
  | .pool => s.make { kind := .pool }
  | .manager => s.make { kind := .manager }
  | .error p => if p ∈ s.vars then s.make { kind := .error, refs := [s.objs.length, p] } else s
  | .enter x y =>
    if x ∈ s.vars ∧ y ∈ s.vars ∧ s.holds x y then
      { s with objs := s.objs.modify x fun o => { o with refs := o.refs ++ [y] } }
    else s
  | .take x y =>
    if x ∈ s.vars ∧ y ∈ (s.objs[x]?.map RObj.refs).getD [] ∧ s.holds x y then
      { objs := s.objs.modify x fun o => { o with refs := o.refs.erase y }, vars := s.vars ++ [y] }
    else s
  | .look x y => if x ∈ s.vars ∧ y ∈ (s.objs[x]?.map RObj.refs).getD [] then { s with vars := s.vars ++ [y] } else s
  | .copy o => if o ∈ s.vars then { s with vars := s.vars ++ [o] } else s
  | .drop o => { s with vars := s.vars.erase o }
  | .close c => if c ∈ s.vars then { s with objs := s.objs.modify c fun x => { x with closed := true } } else s

/-- one operation, after which all objects without references are freed (connection.py:81-82) -/
def rStep (s : RSt) (op : ROp) : RSt :=
  let s := s.act op
  s.sweep s.objs.length

/-- a history (client.py:55-141, pool_manager.py:45-112, connection_pool.py:46-178) -/
def rRun (ops : List ROp) : RSt := ops.foldl rStep {}

/-! ## A call of the synchronous client -/

/-- `self._get_pool(interface)` when `n` objects have been made: the manager `n`, the pool `n + 1` with its initial
connection `n + 2`; the pool is returned (client.py:90-92, pool_manager.py:78-98, connection_pool.py:66-68) -/
def getPoolOps (n : Nat) : List ROp :=
  [.manager, .pool, .opens, .enter (n + 1) (n + 2), .drop (n + 2), .enter n (n + 1), .drop n]

/-- `get_conn` on that pool: the connection `n + 2` is taken, another one, `n + 3`, is opened and put into the pool; if the
former is readable it is closed, and returned all the same; then the pool has done its work
(client.py:75, connection_pool.py:94-130) -/
def getConnOps (n : Nat) (readable : Bool) : List ROp :=
  [.take (n + 1) (n + 2), .opens, .enter (n + 1) (n + 3), .drop (n + 3)] ++ (if readable then [.close (n + 2)] else []) ++
  [.drop (n + 1)]

/-- The rounds of `_raw_invoke` (client.py:72-86), given which connections are readable and the connection the variable `conn`
holds, if any: `conn` gets a new value in each round. Returns also the number of objects and the last value of `conn`. -/
def attemptOps : List Bool → Nat → Option Nat → List ROp × Nat × Option Nat
  | [], n, conn => ([], n, conn)
  | r :: rs, n, conn =>
    let rest := attemptOps rs (n + 4) (some (n + 2))
    (getPoolOps n ++ getConnOps n r ++ (match conn with | some c => [.drop c] | none => []) ++ rest.1, rest.2)

/-- How a call ends that has a connection: it is put into the pool of yet another `_get_pool` (client.py:97, 134), closed
(126), or neither (an exception, when the last reference to it is dropped with the exception). -/
inductive REnd where
  | put
  | closes
  | raises
  deriving DecidableEq, Repr

/-- the end of a call whose variable `c` (or `conn`) holds `c` (client.py:97, 126-134) -/
def endOps (n c : Nat) : REnd → List ROp
  | .put => getPoolOps n ++ [.enter (n + 1) c, .drop (n + 1), .drop c]
  | .closes => [.close c, .drop c]
  | .raises => [.drop c]

/-- a call with at least one round, when `n` objects have been made (client.py:55-141) -/
def callOps (rs : List Bool) (e : REnd) (n : Nat) : List ROp :=
  let r := attemptOps rs n none
  r.1 ++ (match r.2.2 with | some c => endOps r.2.1 c e | none => [])

end Bolt
