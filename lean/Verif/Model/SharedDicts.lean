import Verif.Model.Mesh
/-!
# Interleaving models of the two dictionaries that threads share

Any number of threads; one step of a thread is one access to a dictionary or one request to the mesh.
-/
namespace Bolt

/-! ## `publish` and `unpublish` while interfaces are registered (listener/base_listener.py:83-103) -/

/-- How a call of `publish` ended. `changed`: the iterator raised `RuntimeError` because the dictionary has another size
than when it was made (base_listener.py:88, 102). -/
inductive PubEnd where
  | returned
  | changed
  | raised (e : PyExc)
  deriving DecidableEq, Repr

/-- Program counter of a thread in `publish` (`unpublish`). The iterator of line 88 (102) holds its position and the size
of the dictionary when it was made (of base_listener.py). -/
inductive PubPC where
  | idle
  | next (pos size : Nat)                   -- 88 (102): the iterator's `__next__`
  | post (pos size : Nat) (name : PyStr)    -- 89-95 (103)
  | over (r : PubEnd)
  deriving DecidableEq, Repr

/-- `names`: the keys of `interface_mapping`, in the order of a Python dict (nothing removes any); `posts`: who has sent
a request for which interface (base_listener.py:45, 88-95, 102-103). -/
structure PubSt where
  names : List PyStr := []
  thr : List PubPC
  posts : List (Nat × PyStr) := []
  log : List Post := []

/-- `register`: some thread assigns to `interface_mapping` (aio_listener.py:94, sock_listener.py:77), for this listener or
another one (the dictionary is a class attribute, base_listener.py:45). -/
inductive PubEv where
  | register (name : PyStr)
  | call (i : Nat)
  | step (i : Nat)
  deriving DecidableEq, Repr

/-- One scheduler event. CPython's dict iterator compares the sizes first, also where nothing is left. Simplification:
a thread calls `publish` once; the listener has a mesh client (without one `publish` does nothing)
(base_listener.py:83-103, aio_listener.py:94, sock_listener.py:77). -/
def pubStep (mesh : Mesh) (ep : PyStr) (json : PyStr → PyDict PyStr PayVal) (s : PubSt) : PubEv → PubSt
  | .register x => if x ∈ s.names then s else { s with names := s.names ++ [x] }
  | .call i => if s.thr[i]? = some .idle then { s with thr := s.thr.set i (.next 0 s.names.length) } else s
  | .step i =>
    match s.thr[i]? with
    | some (.next pos size) =>
      if s.names.length ≠ size then { s with thr := s.thr.set i (.over .changed) }
      else match s.names[pos]? with
        | none => { s with thr := s.thr.set i (.over .returned) }
        | some x => { s with thr := s.thr.set i (.post pos size x) }
    | some (.post pos size x) =>
      match meshPost mesh s.log ep (json x) with
      | (log', .error e) => { s with thr := s.thr.set i (.over (.raised e)), posts := s.posts ++ [(i, x)], log := log' }
      | (log', .ok _) => { s with thr := s.thr.set i (.next (pos + 1) size), posts := s.posts ++ [(i, x)], log := log' }
    | _ => s

/-- `n` threads from a registry with nothing in it (base_listener.py:45) -/
def pubRun (mesh : Mesh) (ep : PyStr) (json : PyStr → PyDict PyStr PayVal) (n : Nat) (evs : List PubEv) : PubSt :=
  evs.foldl (pubStep mesh ep json) { thr := List.replicate n .idle }

/-! ## `SERVICE_MAP` (helpers/immutable_dict.py:25-29, client/base.py:43, 56-87) -/

/-- Program counter of a thread that assigns to `SERVICE_MAP` (immutable_dict.py:26-29). -/
inductive AssignPC where
  | idle
  | check (k : PyStr) (v : SvcAddr)    -- 27
  | store (k : PyStr) (v : SvcAddr)    -- 29
  deriving DecidableEq, Repr

/-- the map, the threads, and the assignments that have returned (`true`) or raised `KeyError` (`false`)
(immutable_dict.py:25-29) -/
structure AssignSt where
  svc : PyDict PyStr SvcAddr := []
  thr : List AssignPC
  ends : List (Nat × PyStr × SvcAddr × Bool) := []
  deriving DecidableEq, Repr

/-- `pop`: some thread's `unsubscribe` removes an entry (base.py:85) -/
inductive AssignEv where
  | call (i : Nat) (k : PyStr) (v : SvcAddr)
  | step (i : Nat)
  | pop (k : PyStr)
  deriving DecidableEq, Repr

/-- one scheduler event (immutable_dict.py:26-29) -/
def assignStep (s : AssignSt) : AssignEv → AssignSt
  | .call i k v => if s.thr[i]? = some .idle then { s with thr := s.thr.set i (.check k v) } else s
  | .step i =>
    match s.thr[i]? with
    | some (.check k v) =>
      if PyDict.contains s.svc k then { s with thr := s.thr.set i .idle, ends := s.ends ++ [(i, k, v, false)] }
      else { s with thr := s.thr.set i (.store k v) }
    | some (.store k v) =>
      { s with svc := PyDict.set s.svc k v, thr := s.thr.set i .idle, ends := s.ends ++ [(i, k, v, true)] }
    | _ => s
  | .pop k => { s with svc := (svcPop s.svc k).1 }

/-- `n` threads from an empty map (immutable_dict.py:25) -/
def assignRun (n : Nat) (evs : List AssignEv) : AssignSt := evs.foldl assignStep { thr := List.replicate n .idle }

end Bolt
