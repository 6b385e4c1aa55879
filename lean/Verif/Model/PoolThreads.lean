import Verif.Model.Pool
/-!
# Interleaving model of `mysockpool/connection_pool.py`

Any number of threads call `get_conn`, `put_conn` and `close` on one pool. One step of a thread is one
access to shared state (`self.pool`, the queue object, `self.num_connections`, a socket); between two steps
any other thread may run. `self.num_connections += 1` (line 87) is outside the lock and is a read followed by
a write; the decrements (lines 127-128, 157-158) are a read and a write while holding `self._lock`; the check
of line 82 is a read that needs the lock to be free. `queue.LifoQueue` operations are atomic (the queue has its
own mutex). After `close` replaced `self.pool` by `None`, threads that had already loaded the queue object still
operate on it.
-/
namespace Bolt

/-- Who called `_new_conn`: `get_conn` line 111 (with the connection already popped) or line 130
(of connection_pool.py). -/
inductive NewFor where
  | refill (c : Nat)
  | fresh
  deriving DecidableEq, Repr

/-- Who called `put_conn`: `get_conn` line 111 or a user (of connection_pool.py). -/
inductive PutFor where
  | refill (c : Nat)
  | user
  deriving DecidableEq, Repr

/-- Program counter of a thread; the comment gives the next line executed (connection_pool.py). -/
inductive PoolPC where
  | idle
  | getLoad                          -- 108: evaluate `self.pool`
  | getPop                           -- 108: `.get(block, timeout)` on the loaded queue
  | getSize (c : Nat)                -- 110: evaluate `self.pool`
  | getQsize (c : Nat)               -- 110: `.qsize() < min_free` on the loaded queue
  | newChk (k : NewFor)              -- 81-85
  | newRead (k : NewFor)             -- 87, read
  | newWrite (k : NewFor) (r : Int)  -- 87, write
  | newMake (k : NewFor)             -- 91
  | putLoad (k : PutFor) (n : Nat)   -- 147: evaluate `self.pool`
  | putPut (k : PutFor) (n : Nat)    -- 147: `.put(conn, block=False)` on the loaded queue
  | putDecR (k : PutFor) (n : Nat)   -- 157-158: acquire the lock, read
  | putDecW (k : PutFor) (n : Nat) (r : Int)  -- 158: write, release the lock
  | putClose (k : PutFor) (n : Nat)  -- 162
  | dropChk (c : Nat)                -- 124
  | dropClose (c : Nat)              -- 126
  | dropDecR (c : Nat)               -- 127-128: acquire the lock, read
  | dropDecW (c : Nat) (r : Int)     -- 128: write, release the lock
  | closeLoad                        -- 169: evaluate `self.pool`
  | closeStore (some : Bool)         -- 169: `self.pool = None`; `some`: the loaded value was a queue
  | closeDrain                       -- 173
  | closeOne (c : Nat)               -- 175
  deriving DecidableEq, Repr

/-- A thread: where it is and which connections it holds (got and not put back) (connection_pool.py:80-178). -/
structure PoolThr where
  pc : PoolPC := .idle
  held : List Nat := []
  deriving DecidableEq, Repr

/-- The shared state and the threads. `isOpen` is `self.pool is not None`; `queue` is the queue object
(connection_pool.py:61-65, 169). -/
structure TPool where
  queue : List Nat
  isOpen : Bool := true
  num : Int
  made : Nat
  closed : List Nat := []
  lock : Option Nat := none
  thr : List PoolThr
  deriving DecidableEq, Repr

/-- Scheduler events. `step i b` lets thread `i` execute its next action; `b` resolves what the environment
decides there (a blocking `get` on an empty queue times out; the popped connection looks readable)
(connection_pool.py:108, 124). -/
inductive PoolTEv where
  | callGet (i : Nat)
  | callPut (i : Nat) (c : Nat)   -- only what thread `i` holds
  | callClose (i : Nat)
  | userClose (i : Nat) (c : Nat) -- the holder closes a connection it holds
  | step (i : Nat) (b : Bool)
  deriving DecidableEq, Repr

namespace TPool

/-- replace thread `i` (at a statement of connection_pool.py:80-178) -/
def goto (s : TPool) (i : Nat) (t : PoolThr) : TPool := { s with thr := s.thr.set i t }

/-- return from `put_conn` (line 148 or the end of the method) to its caller (of connection_pool.py) -/
def afterPut (s : TPool) (i : Nat) (t : PoolThr) : PutFor → TPool
  | .refill c => s.goto i { t with pc := .dropChk c }
  | .user => s.goto i { t with pc := .idle }

/-- the next action of thread `i`, which is `t` (connection_pool.py:80-178) -/
def act (cfg : PoolCfg) (s : TPool) (i : Nat) (t : PoolThr) (b : Bool) : TPool :=
  match t.pc with
  | .idle => s
  | .getLoad => -- 108; `None.get` is an AttributeError, i.e. ClosedPoolError (113-114)
    if s.isOpen then s.goto i { t with pc := .getPop } else s.goto i { t with pc := .idle }
  | .getPop =>
    match s.queue with
    | c :: q => { s with queue := q }.goto i { t with pc := .getSize c }
    | [] =>
      if cfg.block then (if b then s.goto i { t with pc := .idle } else s)  -- 116-120
      else s.goto i { t with pc := .newChk .fresh }                         -- 121, 130
  | .getSize c =>
    if s.isOpen then s.goto i { t with pc := .getQsize c }
    else s.goto i { t with pc := .idle } -- AttributeError: ClosedPoolError, `c` is lost
  | .getQsize c =>
    if s.queue.length < cfg.minFree then s.goto i { t with pc := .newChk (.refill c) }
    else s.goto i { t with pc := .dropChk c }
  | .newChk k =>
    if s.lock.isSome then s
    else if s.num ≥ cfg.maxConns then s.goto i { t with pc := .idle } -- EmptyPoolError
    else s.goto i { t with pc := .newRead k }
  | .newRead k => s.goto i { t with pc := .newWrite k s.num }
  | .newWrite k r => { s with num := r + 1 }.goto i { t with pc := .newMake k }
  | .newMake (.refill c) => { s with made := s.made + 1 }.goto i { t with pc := .putLoad (.refill c) s.made }
  | .newMake .fresh => { s with made := s.made + 1 }.goto i { pc := .idle, held := s.made :: t.held }
  | .putLoad k n =>
    if s.isOpen then s.goto i { t with pc := .putPut k n } else s.goto i { t with pc := .putClose k n }
  | .putPut k n =>
    if CPool.full cfg s.queue then s.goto i { t with pc := .putDecR k n }
    else { s with queue := n :: s.queue }.afterPut i t k
  | .putDecR k n =>
    if s.lock.isSome then s else { s with lock := some i }.goto i { t with pc := .putDecW k n s.num }
  | .putDecW k n r => { s with num := r - 1, lock := none }.goto i { t with pc := .putClose k n }
  | .putClose k n => { s with closed := n :: s.closed }.afterPut i t k
  | .dropChk c =>
    if s.closed.contains c || b then s.goto i { t with pc := .dropClose c }
    else s.goto i { pc := .idle, held := c :: t.held }
  | .dropClose c => { s with closed := c :: s.closed }.goto i { t with pc := .dropDecR c }
  | .dropDecR c =>
    if s.lock.isSome then s else { s with lock := some i }.goto i { t with pc := .dropDecW c s.num }
  | .dropDecW c r => { s with num := r - 1, lock := none }.goto i { pc := .idle, held := c :: t.held }
  | .closeLoad => s.goto i { t with pc := .closeStore s.isOpen }
  | .closeStore o => -- `None.get` is an AttributeError
    { s with isOpen := false }.goto i { t with pc := if o then .closeDrain else .idle }
  | .closeDrain =>
    match s.queue with
    | c :: q => { s with queue := q }.goto i { t with pc := .closeOne c }
    | [] => s.goto i { t with pc := .idle }
  | .closeOne c => { s with closed := c :: s.closed }.goto i { t with pc := .closeDrain }

/-- one scheduler event; events naming no thread, or not allowed in its state, change nothing
(connection_pool.py:80-178) -/
def tev (cfg : PoolCfg) (s : TPool) : PoolTEv → TPool
  | .callGet i =>
    match s.thr[i]? with
    | some t => if t.pc = .idle then s.goto i { t with pc := .getLoad } else s
    | none => s
  | .callPut i c =>
    match s.thr[i]? with
    | some t =>
      if t.pc = .idle ∧ c ∈ t.held then s.goto i { pc := .putLoad .user c, held := t.held.erase c } else s
    | none => s
  | .callClose i =>
    match s.thr[i]? with
    | some t => if t.pc = .idle then s.goto i { t with pc := .closeLoad } else s
    | none => s
  | .userClose i c =>
    match s.thr[i]? with
    | some t => if t.pc = .idle ∧ c ∈ t.held then { s with closed := c :: s.closed } else s
    | none => s
  | .step i b =>
    match s.thr[i]? with
    | some t => s.act cfg i t b
    | none => s

end TPool

/-- `n` idle threads around a freshly constructed pool (connection_pool.py:45-67). -/
def tpStart (p : CPool) (n : Nat) : TPool :=
  { queue := p.free.getD [], num := p.num, made := p.made, closed := p.closed, thr := List.replicate n {} }

/-- any interleaving (of connection_pool.py:80-178) -/
def tpRun (cfg : PoolCfg) (p : CPool) (n : Nat) (evs : List PoolTEv) : TPool :=
  evs.foldl (TPool.tev cfg) (tpStart p n)

end Bolt
