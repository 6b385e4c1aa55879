import Verif.Model.Py
/-!
# The metaclass `Singleton` (anthunder/helpers/singleton.py)

Simplifications: constructor arguments are opaque, a constructor either returns or raises, and constructors do not construct
objects of the classes considered.
-/
namespace Bolt

/-- A class statement: whether its head says `metaclass=Singleton`, and whether its body assigns
`__metaclass__ = Singleton` (client.py:44-45, aio_client.py:47-48, mesh_client.py:70-71). -/
structure ClassDef where
  id : Nat
  metaKeyword : Bool := false
  metaAttribute : Bool := false
  deriving DecidableEq, Repr

/-- `Client` (client.py:44-45) -/
def clientClass : ClassDef := { id := 0, metaAttribute := true }

/-- `AioClient` (aio_client.py:47-48) -/
def aioClientClass : ClassDef := { id := 1, metaAttribute := true }

/-- `MeshClient` (mesh_client.py:70-71) -/
def meshClientClass : ClassDef := { id := 2, metaAttribute := true }

/-- Whether the metaclass of the class is `Singleton` (singleton.py:26). In Python 3 only the keyword counts (the base classes
of the three classes, base.py:32 and `object`, have the metaclass `type`); aio_client.py uses `async def`, so this is Python 3. -/
def ClassDef.isSingleton (c : ClassDef) : Bool := c.metaKeyword

/-- `Singleton._instances` (singleton.py:27) by class, and all objects made: class and arguments. Objects are numbered. -/
structure SgSt where
  instances : PyDict Nat Nat := []
  objs : List (Nat × Nat) := []
  deriving DecidableEq, Repr

/-- `type.__call__`: a new object, unless the constructor raises (singleton.py:31) -/
def SgSt.new (s : SgSt) (c : ClassDef) (args : Nat) (raises : Bool) : SgSt × Option Nat :=
  if raises then (s, none) else ({ s with objs := s.objs ++ [(c.id, args)] }, some s.objs.length)

/-- `C(args)` in one thread: `Singleton.__call__` (singleton.py:29-32) if that is the metaclass, `type.__call__` otherwise -/
def SgSt.call (s : SgSt) (c : ClassDef) (args : Nat) (raises : Bool) : SgSt × Option Nat :=
  if c.isSingleton then
    match s.instances.get? c.id with
    | some o => (s, some o)
    | none =>
      match s.new c args raises with
      | (s, some o) => ({ s with instances := s.instances.set c.id o }, some o)
      | (s, none) => (s, none)
  else s.new c args raises

/-- a history of constructions: class, arguments, whether its constructor raises (if it runs); the results in order
(singleton.py:29-32) -/
def sgRun : SgSt → List (ClassDef × Nat × Bool) → SgSt × List (Option Nat)
  | s, [] => (s, [])
  | s, (c, a, r) :: ops =>
    let (s, o) := s.call c a r
    let (s, os) := sgRun s ops
    (s, o :: os)

/-! ## Threads that construct objects of one class whose metaclass is `Singleton` -/

/-- where a call of `Singleton.__call__` is: before line 30, between 30 and 31 with no instance found, before the assignment
of 31 with a new object, before 32, returned (singleton.py:29-32) -/
inductive SgPc where
  | start
  | making
  | storing (o : Nat)
  | reading
  | done (o : Nat)
  deriving DecidableEq, Repr

/-- the stored instance, the number of objects made, and the calls (singleton.py:27-32) -/
structure SgThreads where
  inst : Option Nat := none
  made : Nat := 0
  calls : List SgPc := []
  deriving DecidableEq, Repr

/-- A new call begins, or call `i` makes its next step: one access to the shared dictionary or one construction at a time
(singleton.py:29-32; constructors that raise are left out). -/
inductive SgEv where
  | call
  | step (i : Nat)
  deriving DecidableEq, Repr

/-- one step (singleton.py:29-32) -/
def SgThreads.step (s : SgThreads) : SgEv → SgThreads
  | .call => { s with calls := s.calls ++ [.start] }
  | .step i =>
    match s.calls[i]? with
    | some .start => { s with calls := s.calls.set i (if s.inst.isSome then .reading else .making) }
    | some .making => { s with made := s.made + 1, calls := s.calls.set i (.storing s.made) }
    | some (.storing o) => { s with inst := some o, calls := s.calls.set i .reading }
    | some .reading => match s.inst with | some o => { s with calls := s.calls.set i (.done o) } | none => s
    | _ => s

/-- a history of calls in any number of threads (singleton.py:29-32) -/
def sgThreads (evs : List SgEv) : SgThreads := evs.foldl SgThreads.step {}

end Bolt
