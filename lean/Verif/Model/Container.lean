import Verif.Model.Py
/-!
# Model of `mysockpool/recently_used_container.py` and `mysockpool/pool_manager.py`

Every method of the container runs its dictionary work under `self.lock` (an `RLock`), so an
operation is one atomic step here. `dispose_func` is a logger: it appends the value to `disposed`
and does not raise (for the pool manager this means nobody but the manager closes a managed pool).
`MutableMapping.pop`, `setdefault` and `update` are sequences of the modelled operations and are not
modelled separately.
-/
namespace Bolt

/-- A `RecentlyUsedContainer` (recently_used_container.py:43-49): `_maxsize`, `_container` (an
`OrderedDict`, oldest first), and the log of the values given to `dispose_func` so far. -/
structure Ru (K V : Type) where
  maxsize : Nat
  container : PyDict K V := []
  disposed : List V := []
  deriving DecidableEq, Repr

namespace Ru
variable {K V : Type} [DecidableEq K]

/-- `__getitem__` (recently_used_container.py:51-56): pop the entry (`KeyError` when absent) and insert
it again at the end. -/
def getitem (s : Ru K V) (k : K) : Ru K V × Except PyExc V :=
  match PyDict.get? s.container k with
  | none => (s, .error .keyError)
  | some v => ({ s with container := PyDict.set (PyDict.erase s.container k) k v }, .ok v)

/-- `get(key)` inherited from `Mapping`: `try: return self[key] except KeyError: return None`
(used at pool_manager.py:90). -/
def get (s : Ru K V) (k : K) : Ru K V × Option V :=
  match getitem s k with
  | (s', .ok v) => (s', some v)
  | (s', .error _) => (s', none)

/-- `key in container` inherited from `Mapping`: `self[key]`, so it reorders as well
(by way of recently_used_container.py:51-56). -/
def contains (s : Ru K V) (k : K) : Ru K V × Bool :=
  match getitem s k with
  | (s', .ok _) => (s', true)
  | (s', .error _) => (s', false)

/-- `__setitem__` (recently_used_container.py:58-71). `evicted` is the replaced value or, if the
container became too large, the value popped from its old end (`popitem(last=False)`). -/
def setitem (s : Ru K V) (k : K) (v : V) : Ru K V :=
  let evicted := PyDict.get? s.container k
  let c := PyDict.set s.container k v
  if c.length > s.maxsize then
    match c with
    | [] => { s with container := [], disposed := s.disposed ++ evicted.toList }
    | (_, w) :: c' => { s with container := c', disposed := s.disposed ++ [w] }
  else
    { s with container := c, disposed := s.disposed ++ evicted.toList }

/-- `__delitem__` (recently_used_container.py:73-78) -/
def delitem (s : Ru K V) (k : K) : Ru K V × Except PyExc Unit :=
  match PyDict.get? s.container k with
  | none => (s, .error .keyError)
  | some v => ({ s with container := PyDict.erase s.container k, disposed := s.disposed ++ [v] }, .ok ())

/-- `clear` (recently_used_container.py:87-95) -/
def clear (s : Ru K V) : Ru K V :=
  { s with container := [], disposed := s.disposed ++ s.container.map Prod.snd }

/-- `__len__` (recently_used_container.py:80-82) -/
def len (s : Ru K V) : Nat := s.container.length

/-- `keys` (recently_used_container.py:97-99) -/
def keys (s : Ru K V) : List K := s.container.map Prod.fst

end Ru

/-- The operations a user of the container can perform (recently_used_container.py:51-99; `__iter__`
always raises `NotImplementedError`, lines 84-85, and is left out). -/
inductive RuOp (K V : Type) where
  | getitem (k : K)
  | get (k : K)
  | contains (k : K)
  | setitem (k : K) (v : V)
  | delitem (k : K)
  | clear
  | len
  | keys
  deriving DecidableEq, Repr

/-- State change of one operation (recently_used_container.py:51-99). -/
def ruStep {K V : Type} [DecidableEq K] (s : Ru K V) : RuOp K V → Ru K V
  | .getitem k => (s.getitem k).1
  | .get k => (s.get k).1
  | .contains k => (s.contains k).1
  | .setitem k v => s.setitem k v
  | .delitem k => (s.delitem k).1
  | .clear => s.clear
  | .len => s
  | .keys => s

/-- A fresh container of the given size after a history of operations (recently_used_container.py:44-49). -/
def ruRun {K V : Type} [DecidableEq K] (maxsize : Nat) (ops : List (RuOp K V)) : Ru K V :=
  ops.foldl ruStep { maxsize := maxsize }

/-! ## PoolManager -/

/-- A pool object is named by the order of its creation (pool_manager.py:68). -/
abbrev PoolRef := Nat

/-- A `PoolManager` (pool_manager.py:45-48): the container of pools (its `disposed` log is the sequence
of `close()` calls: `dispose_func=lambda p: p.close()`), and the number of pools created so far with the
key each was created for. -/
structure PoolMgr (K : Type) where
  pools : Ru K PoolRef
  created : List K := []
  deriving DecidableEq, Repr

namespace PoolMgr
variable {K : Type} [DecidableEq K]

/-- `PoolManager(max_pools)` (pool_manager.py:45-48) -/
def init (maxPools : Nat) : PoolMgr K := { pools := { maxsize := maxPools } }

/-- `connection_pool_from_pool_key` (pool_manager.py:79-98), all of it under `self.pools.lock`.
A `ConnectionPool` defines neither `__len__` nor `__bool__`, so `if pool:` tests for `None`.
`ctor` is the outcome of the `ConnectionPool` constructor (an exception leaves no pool behind). -/
def poolFor (m : PoolMgr K) (k : K) (ctor : Except PyExc Unit) : PoolMgr K × Except PyExc PoolRef :=
  match m.pools.get k with
  | (ps, some p) => ({ m with pools := ps }, .ok p)
  | (ps, none) =>
    match ctor with
    | .error e => ({ m with pools := ps }, .error e)
    | .ok () =>
      let p := m.created.length
      ({ pools := ps.setitem k p, created := m.created ++ [k] }, .ok p)

/-- `clear` (pool_manager.py:70-77) and `__exit__` (53-56) -/
def clear (m : PoolMgr K) : PoolMgr K := { m with pools := m.pools.clear }

end PoolMgr

/-- What can be asked of a manager (pool_manager.py:70, 79, 53-56). -/
inductive MgrOp (K : Type) where
  | ask (k : K) (ctor : Except PyExc Unit)
  | clear

/-- One request (pool_manager.py:53-98). -/
def mgrStep {K : Type} [DecidableEq K] (m : PoolMgr K) : MgrOp K → PoolMgr K
  | .ask k ctor => (m.poolFor k ctor).1
  | .clear => m.clear

/-- A history of requests on a fresh manager (pool_manager.py:45-48). -/
def mgrRun {K : Type} [DecidableEq K] (maxPools : Nat) (ops : List (MgrOp K)) : PoolMgr K :=
  ops.foldl mgrStep (PoolMgr.init maxPools)

end Bolt
