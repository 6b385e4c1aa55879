import Verif.Model.Mesh
/-!
# Interleaving models of two small pieces of shared state

Any number of threads; one step of a thread is one access to shared state.
-/
namespace Bolt

/-! ## Children of one `RpcId` (mytracer/_rpc_id.py:62-66) -/

/-- Program counter of a thread in `_new_child_of`. `self._child_count += 1` (line 63) is a read and a write; line 64 reads
the attribute again (of _rpc_id.py). -/
inductive ChildPC where
  | idle
  | read               -- 63, read
  | write (r : Nat)    -- 63, write
  | extend             -- 64: read `self._child_count` and make the child
  deriving DecidableEq, Repr

/-- One `RpcId` with the ids `segs`, its `_child_count`, the threads, and the last segments of the children made so far
with the thread that made each (_rpc_id.py:26-48). -/
structure ChildSt where
  count : Nat := 0
  thr : List ChildPC
  made : List (Nat × Nat) := []
  deriving DecidableEq, Repr

/-- A thread calls `_new_child_of` (_rpc_id.py:62), or executes its next statement. -/
inductive ChildEv where
  | call (i : Nat)
  | step (i : Nat)
  deriving DecidableEq, Repr

/-- one scheduler event; a child of the object with segments `segs` has the segments `segs ++ [k]` (`newChildOf`)
(_rpc_id.py:62-66) -/
def childStep (s : ChildSt) : ChildEv → ChildSt
  | .call i => if s.thr[i]? = some .idle then { s with thr := s.thr.set i .read } else s
  | .step i =>
    match s.thr[i]? with
    | some .read => { s with thr := s.thr.set i (.write s.count) }
    | some (.write r) => { s with count := r + 1, thr := s.thr.set i .extend }
    | some .extend => { s with thr := s.thr.set i .idle, made := s.made ++ [(i, s.count)] }
    | _ => s

/-- `n` threads and a new object (_rpc_id.py:47) -/
def childRun (n : Nat) (evs : List ChildEv) : ChildSt := evs.foldl childStep { thr := List.replicate n .idle }

/-! ## `MeshClient.startup` (mesh/mesh_client.py:84-89) -/

/-- Program counter of a thread in `startup` (mesh_client.py:84-89). -/
inductive StartPC where
  | idle
  | enter                             -- 85: acquire the lock
  | check                             -- 86
  | post                              -- 87
  | set                               -- 88
  | leave (r : Except PyExc Bool)     -- release the lock, with this result (89, or an exception of 87)
  deriving DecidableEq, Repr

/-- `_started` and the owner of `_rlock` (mesh_client.py:81-82), the posts sent (a ghost) and the threads. -/
structure StartSt where
  started : Bool := false
  lock : Option Nat := none
  log : List Post := []
  thr : List StartPC
  done : List (Nat × Except PyExc Bool) := []
  deriving DecidableEq, Repr

/-- one scheduler event: thread `i` calls `startup` if it is idle, or else takes its next step (mesh_client.py:84-89) -/
def startStep (mesh : Mesh) (a : AppInfo) (s : StartSt) (i : Nat) : StartSt :=
  match s.thr[i]? with
  | none => s
  | some .idle => { s with thr := s.thr.set i .enter }
  | some .enter => if s.lock.isSome then s else { s with lock := some i, thr := s.thr.set i .check }
  | some .check => { s with thr := s.thr.set i (if s.started then .leave (.ok true) else .post) }
  | some .post =>
    match meshPost mesh s.log (py "configs/application") a.payload with
    | (log', .error e) => { s with log := log', thr := s.thr.set i (.leave (.error e)) }
    | (log', .ok _) => { s with log := log', thr := s.thr.set i .set }
  | some .set => { s with started := true, thr := s.thr.set i (.leave (.ok true)) }
  | some (.leave r) => { s with lock := none, thr := s.thr.set i .idle, done := s.done ++ [(i, r)] }

/-- `n` threads and a new mesh client (mesh_client.py:79-82) -/
def startRun (mesh : Mesh) (a : AppInfo) (n : Nat) (evs : List Nat) : StartSt :=
  evs.foldl (startStep mesh a) { thr := List.replicate n .idle }

end Bolt
