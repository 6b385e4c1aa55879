import Verif.Model.Mesh
/-!
# Where a client with a mesh sends things: `mesh_service_address` that is assigned

`Verif/Model/Mesh.lean` has `mesh_service_address` with its default. Here it is an attribute of the client object that the program
may assign at any time, as performance_aio.py:102, 115 and tests do, together with the start of `AioClient` (aio_client.py:51-73)
and its heartbeat timer (aio_client.py:121-125).

Simplifications: the mesh's answers are given by the events. `SERVICE_MAP` may have the key `None` as well.
-/
namespace Bolt

/-- `SERVICE_MAP`, the attribute `mesh_service_address`, whether there is a mesh client, and the address that the
heartbeat timer was started with (base.py:32, 40-47, aio_client.py:67-70) -/
structure MaWorld where
  svc : PyDict (Option PyStr) SvcAddr := []
  attr : SvcAddr := meshAddress
  mesh : Bool := false
  timer : Option (PyStr × Int) := none
  deriving DecidableEq, Repr

/-- `_get_address(interface)` (base.py:49-54) -/
def MaWorld.address (w : MaWorld) (interface : Option PyStr) : PyStr × Int :=
  match (PyDict.get? w.svc interface).getD w.attr with
  | .host h => (h, 12200)
  | .pair h p => (h, p)

/-- `AioClient(...)` in a world without this client, where `attr` is the attribute of the class: `up` tells whether the mesh client started; if it did, the timer is started with the address of `None`
(base.py:32, 40-47, aio_client.py:51-73) -/
def MaWorld.construct (w : MaWorld) (up : Bool) : MaWorld :=
  let w := { w with mesh := up, timer := none }
  if w.mesh then { w with timer := some (w.address none) } else w

/-- What happens afterwards (base.py:56-87, aio_client.py:121-125, 167). -/
inductive MaEv where
  /-- `client.mesh_service_address = a` (performance_aio.py:102) -/
  | assign (a : SvcAddr)
  /-- `SERVICE_MAP[k] = a` by the program (sync_call_demo.py:41) -/
  | mapSet (k : Option PyStr) (a : SvcAddr)
  /-- `client.subscribe(k)`; `ok`: the mesh agrees (base.py:62-70) -/
  | subscribe (k : PyStr) (ok : Bool)
  /-- `client.unsubscribe(k)` (base.py:79-87) -/
  | unsubscribe (k : PyStr) (ok : Bool)
  /-- the timer sends a heartbeat (aio_client.py:124-125) -/
  | beat
  /-- a call of an interface (aio_client.py:167, client.py:88) -/
  | call (k : PyStr)
  deriving DecidableEq, Repr

/-- What is sent, and where to: a heartbeat, or a call of an interface (aio_client.py:125, 167). -/
inductive MaMsg where
  | heartbeat (to : PyStr × Int)
  | call (k : PyStr) (to : PyStr × Int)
  deriving DecidableEq, Repr

/-- `SERVICE_MAP[k] = a`: a KeyError if there is an entry (immutable_dict.py:26-29) -/
def MaWorld.mapSet (w : MaWorld) (k : Option PyStr) (a : SvcAddr) : MaWorld :=
  if PyDict.contains w.svc k then w else { w with svc := PyDict.set w.svc k a }

/-- one event; exceptions of `subscribe` and `unsubscribe` are logged, one of the program's own assignments is the program's
(base.py:56-87, aio_client.py:121-125, 167) -/
def MaWorld.step (w : MaWorld) : MaEv → MaWorld × List MaMsg
  | .assign a => ({ w with attr := a }, [])
  | .mapSet k a => (w.mapSet k a, [])
  | .subscribe k ok => (if w.mesh && ok then w.mapSet (some k) w.attr else w, [])
  | .unsubscribe k ok => (if w.mesh && ok then { w with svc := PyDict.erase w.svc (some k) } else w, [])
  | .beat => (w, match w.timer with | some a => [.heartbeat a] | none => [])
  | .call k => (w, [.call k (w.address (some k))])

/-- a history of one client: the state at its end and everything sent (base.py:56-87, aio_client.py:121-125, 167) -/
def maRun (w : MaWorld) : List MaEv → MaWorld × List MaMsg
  | [] => (w, [])
  | e :: es =>
    let (w1, out) := w.step e
    let (w2, outs) := maRun w1 es
    (w2, out ++ outs)

end Bolt
