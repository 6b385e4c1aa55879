import Verif.Model.Mesh
import Verif.Model.Handler
/-!
# A Python process with any number of clients and listeners

What they share: `SERVICE_MAP` (anthunder/__init__.py), `BaseHandler.interface_mapping` (base_listener.py:45, a class
attribute that no code rebinds) and the mesh. They do not share a `MeshClient`: `__metaclass__ = Singleton`
(mesh_client.py:71, client.py:45, aio_client.py:47) is a plain class attribute in Python 3, so every construction makes
a new object.

Simplification: the calls of different threads do not overlap here.
-/
namespace Bolt

/-- A listener object, as far as the mesh sees it (base_listener.py:60-78). -/
structure ListenerObj where
  mesh : Option MeshCli
  port : Int
  app : PyObj
  deriving DecidableEq, Repr

/-- The state of a process: the clients and listeners made so far (client/base.py:35-47, base_listener.py:60-78),
`SERVICE_MAP` (client/base.py:50, 68, 85), `BaseHandler.interface_mapping` (base_listener.py:45), and the posts sent
so far (mesh_client.py:110; a ghost). -/
structure Proc where
  clients : List (Option MeshCli) := []
  listeners : List ListenerObj := []
  svc : PyDict PyStr SvcAddr := []
  reg : Registry := []
  log : List Post := []
  deriving DecidableEq, Repr

/-- what the code of a process can do
(client/base.py:35, 56, 72; base_listener.py:60, 83, 97; aio_listener.py:78; sock_listener.py:62) -/
inductive POp where
  | newClient (a : AppInfo)                          -- Client(...) or AioClient(...)
  | newListener (a : AppInfo) (port : Int)           -- AioListener(...) or SockListener(...)
  | assign (k : PyStr) (a : SvcAddr)                 -- SERVICE_MAP[k] = a
  | subscribe (i : Nat) (infs : List PyStr)          -- clients[i].subscribe(*infs)
  | unsubscribe (i : Nat) (infs : List PyStr)
  | register (j : Nat) (r : Registration)            -- listeners[j].handler.register_interface(...)
  | publish (j : Nat)
  | unpublish (j : Nat)
  deriving DecidableEq, Repr

/-- `MeshClient(ApplicationInfo(...)).startup()` in the constructors (base.py:40-47, base_listener.py:72-78): a new
object; any failure leaves `None`. -/
def newMeshCli (mesh : Mesh) (log : List Post) (a : AppInfo) : List Post × Option MeshCli :=
  match MeshCli.startup mesh log { appinfo := a } with
  | (log', m, .ok _) => (log', some m)
  | (log', _, .error _) => (log', none)

/-- One call. `subscribe` and `unsubscribe` are those of `Model/Mesh.lean` on the shared map. An exception of `publish`
or of an assignment is the caller's; what it leaves behind is all that counts here
(client/base.py:35-87, base_listener.py:60-103). -/
def pstep (mesh : Mesh) (p : Proc) : POp → Proc
  | .newClient a =>
    let r := newMeshCli mesh p.log a
    { p with log := r.1, clients := p.clients ++ [r.2] }
  | .newListener a port =>
    let r := newMeshCli mesh p.log a
    { p with log := r.1, listeners := p.listeners ++ [⟨r.2, port, a.appName⟩] }
  | .assign k a => { p with svc := (svcSet p.svc k a).1 }
  | .subscribe i infs =>
    match p.clients[i]? with
    | none => p
    | some m =>
      let w := subscribe mesh { mesh := m, log := p.log, svc := p.svc } infs
      { p with log := w.log, svc := w.svc }
  | .unsubscribe i infs =>
    match p.clients[i]? with
    | none => p
    | some m =>
      let w := unsubscribe mesh { mesh := m, log := p.log, svc := p.svc } infs
      { p with log := w.log, svc := w.svc }
  | .register j r =>
    match p.listeners[j]? with
    | none => p
    | some _ => { p with reg := registerInterface p.reg r }
  | .publish j =>
    match p.listeners[j]? with
    | none => p
    | some l => { p with log := (publish mesh p.log l.mesh (p.reg.map Prod.fst) l.port l.app).1 }
  | .unpublish j =>
    match p.listeners[j]? with
    | none => p
    | some l => { p with log := (unpublish mesh p.log l.mesh (p.reg.map Prod.fst)).1 }

/-- what a new process has become after these calls (client/base.py:35-87, base_listener.py:60-103) -/
def prun (mesh : Mesh) (ops : List POp) : Proc := ops.foldl (pstep mesh) {}

end Bolt
