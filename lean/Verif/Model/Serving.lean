import Verif.Model.Process
/-!
# The listeners of a process: which of them serve

`run_forever` and `shutdown` next to the calls of `Model/Process.lean`. Neither of them uses `self._mesh_client`.

Simplifications: a call of `run_forever` counts from the moment the listener serves, a call of `shutdown` from the moment
it does not serve any more (how they get there is the subject of `Model/Lifecycle.lean`); calls that raise or never get
there leave everything as it is and are left out.
-/
namespace Bolt

/-- a call in the process (as in `POp`), or one of a listener's `run_forever` and `shutdown`
(aio_listener.py:108-121, sock_listener.py:152-156) -/
inductive ServOp where
  | op (o : POp)
  | run (j : Nat)
  | shutdown (j : Nat)
  deriving DecidableEq, Repr

/-- the process, and the listeners that serve (aio_listener.py:108-121, sock_listener.py:152-156) -/
structure ServProc where
  proc : Proc := {}
  up : List Nat := []
  deriving DecidableEq, Repr

/-- One call (base_listener.py:60-103, aio_listener.py:108-121, sock_listener.py:152-156). -/
def servStep (mesh : Mesh) (p : ServProc) : ServOp → ServProc
  | .op o => { p with proc := pstep mesh p.proc o }
  | .run j =>
    match p.proc.listeners[j]? with
    | none => p
    | some _ => { p with up := j :: p.up }
  | .shutdown j => { p with up := p.up.filter (· != j) }

/-- what a new process has become after these calls (base_listener.py:60-103, aio_listener.py:108-121,
sock_listener.py:152-156) -/
def servRun (mesh : Mesh) (ops : List ServOp) : ServProc := ops.foldl (servStep mesh) {}

end Bolt
