import Verif.Model.Container
/-!
# Interleaving model of `RecentlyUsedContainer` and `PoolManager` shared by threads

Any number of threads; one step of a thread is one access to the `OrderedDict`, one acquisition or release of the lock
(an `RLock`), one call of the constructor of a pool or one call of `dispose_func`. `dispose_func` appends its argument to a
log and does not raise. The outcome of `_new_pool` (pool_manager.py:58-68) is part of the operation.
-/
namespace Bolt

/-- What a thread can call: the methods of the container (recently_used_container.py:51-99, with `get` and `in` inherited
from `Mapping`) and `PoolManager.connection_pool_from_pool_key` (pool_manager.py:79-98; `PoolManager.clear` is `clear`). -/
inductive LOp (K V : Type) where
  | getitem (k : K)
  | get (k : K)
  | contains (k : K)
  | setitem (k : K) (v : V)
  | delitem (k : K)
  | clear
  | len
  | keys
  | ask (k : K) (ctor : Except PyExc V)
  deriving DecidableEq, Repr

/-- What a call returns or raises (recently_used_container.py:51-99, pool_manager.py:79-98). -/
inductive LRes (K V : Type) where
  | unit
  | value (v : Option V)
  | bool (b : Bool)
  | nat (n : Nat)
  | keys (l : List K)
  | exc (e : PyExc)
  deriving DecidableEq, Repr

/-- Where a thread is (between two statements of recently_used_container.py:51-99 or pool_manager.py:87-98). -/
inductive LPc (K V : Type) where
  | idle
  | acq                                      -- takes the lock (53, 60, 74, 81, 88, 98; pool_manager.py:87)
  | enterGet (k : K)                         -- pool_manager.py:90: takes the lock again for `__getitem__`
  | popKey (k : K)                           -- 54
  | reinsert (k : K) (v : V)                 -- 55
  | exitGet (r : Option V)                   -- pool_manager.py:90: `__getitem__` gives the lock back
  | newPool                                  -- pool_manager.py:95
  | enterSet (k : K) (v : V)                 -- pool_manager.py:96: takes the lock again for `__setitem__`
  | old (k : K) (v : V)                      -- 62
  | store (k : K) (v : V) (ev : Option V)    -- 63
  | size (ev : Option V)                     -- 67
  | popitem                                  -- 68
  | delKey (k : K)                           -- 75
  | listAll                                  -- 90
  | wipe (vs : List V)                       -- 91
  | count                                    -- 82
  | listKeys                                 -- 99
  | exit (vs : List V) (r : LRes K V)        -- gives the lock back; `vs` are still to be disposed of
  | disp (vs : List V) (r : LRes K V)        -- 70-71, 77-78, 93-95
  | outerExit (r : LRes K V)                 -- pool_manager.py:92, 96: gives the lock back
  deriving DecidableEq, Repr

/-- A thread: where it is, what it is calling, and (a ghost) the number of its call in the order in which the calls got the
lock (callers of recently_used_container.py:51-99, pool_manager.py:79-98). -/
structure LThr (K V : Type) where
  pc : LPc K V := .idle
  op : LOp K V := .len
  tick : Nat := 0
  deriving DecidableEq, Repr

/-- The container (its `OrderedDict` and what has been disposed of), the lock (its owner and how often the owner holds it)
and the threads. `log` lists the calls in the order in which they got the lock, `done` the results of those that have
returned (ghosts) (recently_used_container.py:44-49). -/
structure LockSt (K V : Type) where
  maxsize : Nat
  cont : PyDict K V := []
  disposed : List V := []
  lock : Option (Nat × Nat) := none
  thr : List (LThr K V)
  log : List (LOp K V) := []
  done : List (Nat × LRes K V) := []
  deriving DecidableEq, Repr

variable {K V : Type} [DecidableEq K]

/-- `RLock.acquire` by thread `i`; `none` if it has to wait
(recently_used_container.py:49, 53, 60, 74, 81, 88, 98; pool_manager.py:87) -/
def rlockAcquire (l : Option (Nat × Nat)) (i : Nat) : Option (Nat × Nat) :=
  match l with
  | none => some (i, 1)
  | some (j, d) => if j = i then some (j, d + 1) else none

/-- `RLock.release` (the end of the `with` statements of recently_used_container.py:53-98 and pool_manager.py:87-96) -/
def rlockRelease (l : Option (Nat × Nat)) : Option (Nat × Nat) :=
  match l with
  | some (j, d + 2) => some (j, d + 1)
  | _ => none

/-- the first thing a call does once it has the lock
(recently_used_container.py:54, 62, 75, 82, 90, 99; pool_manager.py:90) -/
def LOp.first : LOp K V → LPc K V
  | .getitem k => .popKey k
  | .get k => .popKey k
  | .contains k => .popKey k
  | .setitem k v => .old k v
  | .delitem k => .delKey k
  | .clear => .listAll
  | .len => .count
  | .keys => .listKeys
  | .ask k _ => .enterGet k

/-- what `__getitem__` and its callers make of the outcome of `pop` (recently_used_container.py:54-56, `Mapping.get`,
`Mapping.__contains__`, pool_manager.py:90) -/
def LOp.afterGet : LOp K V → Option V → LPc K V
  | .get _, r => .exit [] (.value r)
  | .contains _, r => .exit [] (.bool r.isSome)
  | .ask _ _, r => .exitGet r
  | _, some v => .exit [] (.value (some v))
  | _, none => .exit [] (.exc .keyError)

/-- the result of `__setitem__` for its caller: the manager returns the pool (pool_manager.py:98) -/
def LOp.setRes : LOp K V → LRes K V
  | .ask _ (.ok v) => .value (some v)
  | _ => .unit

/-- `connection_pool_from_pool_key` (pool_manager.py:79-98) -/
def LOp.isAsk : LOp K V → Bool
  | .ask _ _ => true
  | _ => false

/-- put thread `i` at `pc` (a statement of recently_used_container.py:51-99, pool_manager.py:87-98) -/
def LockSt.goto (s : LockSt K V) (i : Nat) (t : LThr K V) (pc : LPc K V) : LockSt K V :=
  { s with thr := s.thr.set i { t with pc := pc } }

/-- the call of thread `i` returns (recently_used_container.py:56, 71, 78, 82, 95, 99; pool_manager.py:92, 98) -/
def LockSt.finish (s : LockSt K V) (i : Nat) (t : LThr K V) (r : LRes K V) : LockSt K V :=
  { s with thr := s.thr.set i { t with pc := .idle }, done := s.done ++ [(t.tick, r)] }

/-- A thread calls a method of recently_used_container.py:51-99 or pool_manager.py:79-98, or executes its next
statement. -/
inductive LockEv (K V : Type) where
  | call (i : Nat) (op : LOp K V)
  | step (i : Nat)
  deriving DecidableEq, Repr

/-- the next step of thread `i`, which is `t` (recently_used_container.py:51-99, pool_manager.py:79-98) -/
def lockAct (s : LockSt K V) (i : Nat) (t : LThr K V) : LockSt K V :=
  match t.pc with
  | .idle => s
  | .acq =>
    match rlockAcquire s.lock i with
    | none => s
    | some l => { s with lock := some l, thr := s.thr.set i { t with pc := t.op.first, tick := s.log.length }, log := s.log ++ [t.op] }
  | .enterGet k =>
    match rlockAcquire s.lock i with
    | none => s
    | some l => { s with lock := some l }.goto i t (.popKey k)
  | .popKey k =>
    match PyDict.get? s.cont k with
    | none => s.goto i t (t.op.afterGet none)
    | some v => { s with cont := PyDict.erase s.cont k }.goto i t (.reinsert k v)
  | .reinsert k v => { s with cont := PyDict.set s.cont k v }.goto i t (t.op.afterGet (some v))
  | .exitGet r =>
    let s := { s with lock := rlockRelease s.lock }
    match r with
    | some v => s.goto i t (.outerExit (.value (some v)))
    | none => s.goto i t .newPool
  | .newPool =>
    match t.op with
    | .ask k (.ok v) => s.goto i t (.enterSet k v)
    | .ask _ (.error e) => s.goto i t (.outerExit (.exc e))
    | _ => s
  | .enterSet k v =>
    match rlockAcquire s.lock i with
    | none => s
    | some l => { s with lock := some l }.goto i t (.old k v)
  | .old k v => s.goto i t (.store k v (PyDict.get? s.cont k))
  | .store k v ev => { s with cont := PyDict.set s.cont k v }.goto i t (.size ev)
  | .size ev => if s.cont.length > s.maxsize then s.goto i t .popitem else s.goto i t (.exit ev.toList t.op.setRes)
  | .popitem =>
    match s.cont with
    | [] => s
    | (_, w) :: c => { s with cont := c }.goto i t (.exit [w] t.op.setRes)
  | .delKey k =>
    match PyDict.get? s.cont k with
    | none => s.goto i t (.exit [] (.exc .keyError))
    | some v => { s with cont := PyDict.erase s.cont k }.goto i t (.exit [v] .unit)
  | .listAll => s.goto i t (.wipe (s.cont.map Prod.snd))
  | .wipe vs => { s with cont := [] }.goto i t (.exit vs .unit)
  | .count => s.goto i t (.exit [] (.nat s.cont.length))
  | .listKeys => s.goto i t (.exit [] (.keys (s.cont.map Prod.fst)))
  | .exit vs r => { s with lock := rlockRelease s.lock }.goto i t (.disp vs r)
  | .disp vs r =>
    match vs with
    | v :: vs => { s with disposed := s.disposed ++ [v] }.goto i t (.disp vs r)
    | [] => if t.op.isAsk then s.goto i t (.outerExit r) else s.finish i t r
  | .outerExit r => { s with lock := rlockRelease s.lock }.finish i t r

/-- one scheduler event (recently_used_container.py:51-99, pool_manager.py:79-98) -/
def lockStep (s : LockSt K V) : LockEv K V → LockSt K V
  | .call i op =>
    match s.thr[i]? with
    | some t =>
      match t.pc with
      | .idle => { s with thr := s.thr.set i { pc := .acq, op := op } }
      | _ => s
    | none => s
  | .step i =>
    match s.thr[i]? with
    | some t => lockAct s i t
    | none => s

/-- a history of a fresh container of size `m` shared by `n` threads
(recently_used_container.py:44-49, pool_manager.py:45-48) -/
def lockRun (m n : Nat) (evs : List (LockEv K V)) : LockSt K V :=
  evs.foldl lockStep { maxsize := m, thr := List.replicate n {} }

end Bolt
