import Verif.Model.Process
/-!
# A process whose mesh may not answer, and which may be interrupted while it waits

`_sess.post(addr, json=json)` (mesh_client.py:110) is called without a timeout: where the mesh takes the request and never
answers, it does not return. While it waits a signal may make it raise KeyboardInterrupt (or SystemExit, from a handler of the
program), which are no `Exception`: the clauses `except Exception` of `subscribe` and `unsubscribe` (base.py:69, 86) let them
pass, the clauses `except:` of the constructors (base.py:45, base_listener.py:76) do not. `Model/Process.lean` has a mesh that
always answers or fails.

Simplification: interrupts at other moments are left out; one thread makes all the calls.
-/
namespace Bolt

/-- what comes of a POST: an answer or an exception of the HTTP library, nothing ever, or an interrupt while waiting
(mesh_client.py:110) -/
inductive MeshAns where
  | res (r : HttpRes)
  | silent
  | interrupt
  deriving DecidableEq, Repr

/-- the mesh and the user: they see all earlier requests and the current one (mesh_client.py:110) -/
abbrev MeshU := List Post → Post → MeshAns

/-- how a call ends: with a value, an `Exception`, an interrupt, or never (mesh_client.py:108-117) -/
inductive Ends (α : Type) where
  | val (a : α)
  | exc (e : PyExc)
  | interrupted
  | hangs
  deriving DecidableEq, Repr

/-- `MeshClient._post` (mesh_client.py:108-117) -/
def postU (mesh : MeshU) (log : List Post) (endpoint : PyStr) (json : PyDict PyStr PayVal) :
    List Post × Ends (PyDict PyStr JVal) :=
  match mesh log ⟨endpoint, json⟩ with
  | .res r =>
    match meshPost (fun _ _ => r) log endpoint json with
    | (log', .ok d) => (log', .val d)
    | (log', .error e) => (log', .exc e)
  | .silent => (log ++ [⟨endpoint, json⟩], .hangs)
  | .interrupt => (log ++ [⟨endpoint, json⟩], .interrupted)

/-- `MeshClient.startup` of a new object in the constructors of clients and listeners (base.py:40-47,
base_listener.py:72-78, mesh_client.py:84-89): whatever is raised leaves `None`. -/
def newMeshCliU (mesh : MeshU) (log : List Post) (a : AppInfo) : List Post × Ends (Option MeshCli) :=
  match postU mesh log (py "configs/application") a.payload with
  | (log', .val _) => (log', .val (some { appinfo := a, started := true }))
  | (log', .exc _) => (log', .val none)
  | (log', .interrupted) => (log', .val none)
  | (log', .hangs) => (log', .hangs)

/-- The loops of `subscribe` and `unsubscribe` (base.py:64-70, 81-87); `eff` is what is done to `SERVICE_MAP`. -/
def nameLoopU (mesh : MeshU) (endpoint : PyStr) (eff : PyDict PyStr SvcAddr → PyStr → PyDict PyStr SvcAddr) :
    List Post → PyDict PyStr SvcAddr → List PyStr → List Post × PyDict PyStr SvcAddr × Ends Unit
  | log, svc, [] => (log, svc, .val ())
  | log, svc, inf :: infs =>
    match postU mesh log endpoint (serviceNameJson inf) with
    | (log', .val _) => nameLoopU mesh endpoint eff log' (eff svc inf) infs
    | (log', .exc _) => nameLoopU mesh endpoint eff log' svc infs
    | (log', .interrupted) => (log', svc, .interrupted)
    | (log', .hangs) => (log', svc, .hangs)

/-- The loops of `publish` and `unpublish` (base_listener.py:88-95, 102-103): any exception ends them. -/
def postEachU (mesh : MeshU) (endpoint : PyStr) (json : PyStr → PyDict PyStr PayVal) :
    List Post → List PyStr → List Post × Ends Unit
  | log, [] => (log, .val ())
  | log, s :: ss =>
    match postU mesh log endpoint (json s) with
    | (log', .val _) => postEachU mesh endpoint json log' ss
    | (log', .exc e) => (log', .exc e)
    | (log', .interrupted) => (log', .interrupted)
    | (log', .hangs) => (log', .hangs)

/-- One call, and how it ends (client/base.py:35-87, base_listener.py:60-103). An object whose constructor does not return is
never there. An assignment and a registration need no mesh. -/
def pstepU (mesh : MeshU) (p : Proc) : POp → Proc × Ends Unit
  | .newClient a =>
    match newMeshCliU mesh p.log a with
    | (log', .val m) => ({ p with log := log', clients := p.clients ++ [m] }, .val ())
    | (log', .exc e) => ({ p with log := log' }, .exc e)
    | (log', .interrupted) => ({ p with log := log' }, .interrupted)
    | (log', .hangs) => ({ p with log := log' }, .hangs)
  | .newListener a port =>
    match newMeshCliU mesh p.log a with
    | (log', .val m) => ({ p with log := log', listeners := p.listeners ++ [⟨m, port, a.appName⟩] }, .val ())
    | (log', .exc e) => ({ p with log := log' }, .exc e)
    | (log', .interrupted) => ({ p with log := log' }, .interrupted)
    | (log', .hangs) => ({ p with log := log' }, .hangs)
  | .assign k a =>
    match svcSet p.svc k a with
    | (svc, .ok _) => ({ p with svc := svc }, .val ())
    | (svc, .error e) => ({ p with svc := svc }, .exc e)
  | .subscribe i infs =>
    match p.clients[i]? with
    | some (some _) =>
      let r := nameLoopU mesh (py "services/subscribe") (fun svc k => (svcSet svc k meshAddress).1) p.log p.svc infs
      ({ p with log := r.1, svc := r.2.1 }, r.2.2)
    | _ => (p, .val ())
  | .unsubscribe i infs =>
    match p.clients[i]? with
    | some (some _) =>
      let r := nameLoopU mesh (py "services/unsubscribe") (fun svc k => (svcPop svc k).1) p.log p.svc infs
      ({ p with log := r.1, svc := r.2.1 }, r.2.2)
    | _ => (p, .val ())
  | .register j r =>
    match p.listeners[j]? with
    | none => (p, .val ())
    | some _ => ({ p with reg := registerInterface p.reg r }, .val ())
  | .publish j =>
    match p.listeners[j]? with
    | some ⟨some _, port, app⟩ =>
      let r := postEachU mesh (py "services/publish") (fun s => publishJson s port app) p.log (p.reg.map Prod.fst)
      ({ p with log := r.1 }, r.2)
    | _ => (p, .val ())
  | .unpublish j =>
    match p.listeners[j]? with
    | some ⟨some _, _, _⟩ =>
      let r := postEachU mesh (py "services/unpublish") serviceNameJson p.log (p.reg.map Prod.fst)
      ({ p with log := r.1 }, r.2)
    | _ => (p, .val ())

/-- What a new process has become after these calls, and whether it hangs in one of them: then the rest of the calls is
not made (client/base.py:35-87, base_listener.py:60-103). -/
def prunU (mesh : MeshU) (ops : List POp) : Proc × Bool :=
  ops.foldl (fun s op => if s.2 then s else ((pstepU mesh s.1 op).1, decide ((pstepU mesh s.1 op).2 = .hangs))) ({}, false)

end Bolt
