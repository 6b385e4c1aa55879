import Verif.Model.Tracer
/-!
# Model of the mesh client, the service map and publish/subscribe

`anthunder/mesh/mesh_client.py`, `anthunder/client/base.py`, `anthunder/helpers/immutable_dict.py`,
`anthunder/listener/base_listener.py:83-103`. The HTTP peer (`requests`) is an oracle that answers every POST
given everything posted before; each POST is recorded in a log. The metaclass `Singleton` is only assigned to
`__metaclass__`, which Python 3 ignores, so every `MeshClient(...)` call makes a fresh object.
-/
namespace Bolt

/-- A JSON value, as far as `_post` looks at it (mesh_client.py:114-115). -/
inductive JVal where
  | null
  | bool (b : Bool)
  | num (n : Int)
  | str (s : PyStr)
  | compound
  deriving DecidableEq, Repr

/-- The body of an HTTP answer: not JSON (`r.json()` raises a `ValueError`), JSON but not an object
(`.get` is an `AttributeError`), or an object (mesh_client.py:113-114). -/
inductive HttpBody where
  | invalid
  | nonObject
  | object (d : PyDict PyStr JVal)
  deriving DecidableEq, Repr

/-- What the HTTP library does with a POST: raise, or give a status code and a body (mesh_client.py:110-113). -/
inductive HttpRes where
  | raise (e : PyExc)
  | resp (status : Int) (body : HttpBody)
  deriving DecidableEq, Repr

/-- values of a payload: plain, or one nested dictionary (mesh_client.py:87, 92, 95, 103, 106) -/
inductive PayVal where
  | v (o : PyObj)
  | sub (d : PyDict PyStr PyObj)
  deriving DecidableEq, Repr

/-- One POST request (mesh_client.py:109-110). -/
structure Post where
  endpoint : PyStr
  json : PyDict PyStr PayVal
  deriving DecidableEq, Repr

/-- The mesh side: it sees all earlier requests and the current one (what answers mesh_client.py:110). -/
abbrev Mesh := List Post → Post → HttpRes

/-- `MeshClient._post` (mesh_client.py:108-117). The request is on the wire (logged) whatever happens then. Simplification:
payloads are values that JSON has; with an application name or another piece of application information that is a `bytes`
object, `requests` raises before it sends anything. -/
def meshPost (mesh : Mesh) (log : List Post) (endpoint : PyStr) (json : PyDict PyStr PayVal) :
    List Post × Except PyExc (PyDict PyStr JVal) :=
  let req : Post := ⟨endpoint, json⟩
  (log ++ [req],
    match mesh log req with
    | .raise e => .error e
    | .resp status body =>
      if status ≠ 200 then .error .connectionError
      else match body with
        | .invalid => .error .valueError
        | .nonObject => .error .attributeError
        | .object d =>
          if PyDict.get? d (py "success") ≠ some (.bool true) then .error .connectionError else .ok d)

/-- `ApplicationInfo` (mesh_client.py:46-67) -/
structure AppInfo where
  appName : PyObj
  dataCenter : PyObj := .str []
  zone : PyObj := .str []
  registryEndPoint : PyObj := .str []
  accessKey : PyObj := .str []
  secretKey : PyObj := .str []
  antShareCloud : PyObj := .int 0
  deriving DecidableEq, Repr

/-- all attributes in definition order (mesh_client.py:61-67) -/
def AppInfo.attrs (a : AppInfo) : PyDict PyStr PyObj :=
  [(py "appName", a.appName), (py "dataCenter", a.dataCenter), (py "zone", a.zone),
   (py "registryEndPoint", a.registryEndPoint), (py "accessKey", a.accessKey), (py "secretKey", a.secretKey),
   (py "antShareCloud", a.antShareCloud)]

/-- `attr.asdict(self.appinfo, filter=lambda a, v: v)` (mesh_client.py:87) -/
def AppInfo.payload (a : AppInfo) : PyDict PyStr PayVal :=
  (a.attrs.filter fun kv => kv.2.truthy).map fun kv => (kv.1, .v kv.2)

/-- A `MeshClient` object (mesh_client.py:74-82). -/
structure MeshCli where
  appinfo : AppInfo
  started : Bool := false
  deriving DecidableEq, Repr

/-- `MeshClient.startup` (mesh_client.py:84-89); the `RLock` serialises concurrent calls. -/
def MeshCli.startup (mesh : Mesh) (log : List Post) (m : MeshCli) : List Post × MeshCli × Except PyExc Bool :=
  if m.started then (log, m, .ok true)
  else match meshPost mesh log (py "configs/application") m.appinfo.payload with
    | (log', .error e) => (log', m, .error e)
    | (log', .ok _) => (log', { m with started := true }, .ok true)

/-- `dict(serviceName=service_str)` (mesh_client.py:92, 95, 106) -/
def serviceNameJson (s : PyStr) : PyDict PyStr PayVal := [(py "serviceName", .v (.str s))]

/-- `attr.asdict(PublishServiceRequest(...))` as built at base_listener.py:89-95 (mesh_client.py:29-43):
attributes in definition order. -/
def publishJson (service : PyStr) (port : Int) (app : PyObj) : PyDict PyStr PayVal :=
  [(py "serviceName", .v (.str service)),
   (py "providerMetaInfo", .sub [(py "protocol", .str (py "1")), (py "version", .str (py "4.0")),
      (py "serializeType", .str (py "protobuf")), (py "appName", app)]),
   (py "port", .v (.str (intStr port))),
   (py "protocolType", .v (.str (py "DEFAULT"))),
   (py "onlyPublishInCloud", .v (.int 0))]

/-! ## Service map and client base class -/

/-- A value of `SERVICE_MAP`: a bare host name or a `(host, port)` tuple (client/base.py:50-54). -/
inductive SvcAddr where
  | host (h : PyStr)
  | pair (h : PyStr) (port : Int)
  deriving DecidableEq, Repr

/-- `_BaseClient.mesh_service_address` (base.py:32) -/
def meshAddress : SvcAddr := .pair (py "127.0.0.1") 12220

/-- `ImmutableValueDict.__setitem__` (immutable_dict.py:26-29) -/
def svcSet (m : PyDict PyStr SvcAddr) (k : PyStr) (a : SvcAddr) : PyDict PyStr SvcAddr × Except PyExc Unit :=
  if PyDict.contains m k then (m, .error .keyError) else (PyDict.set m k a, .ok ())

/-- `dict.pop(k)` (base.py:85) -/
def svcPop (m : PyDict PyStr SvcAddr) (k : PyStr) : PyDict PyStr SvcAddr × Except PyExc Unit :=
  if PyDict.contains m k then (PyDict.erase m k, .ok ()) else (m, .error .keyError)

/-- `_get_address` (base.py:49-54); `sofa_default_port` is 12200 -/
def getAddress (m : PyDict PyStr SvcAddr) (interface : PyStr) : PyStr × Int :=
  match (PyDict.get? m interface).getD meshAddress with
  | .host h => (h, 12200)
  | .pair h p => (h, p)

/-- A client's view of the world: its mesh client (or `None`), the log of posts and `SERVICE_MAP`
(client/base.py:40-47, 68, 85). -/
structure CliWorld where
  mesh : Option MeshCli
  log : List Post := []
  svc : PyDict PyStr SvcAddr := []
  deriving DecidableEq, Repr

/-- one round of the loop of `subscribe` (base.py:64-70): every exception is logged and swallowed -/
def subscribeOne (mesh : Mesh) (w : CliWorld) (inf : PyStr) : CliWorld :=
  match meshPost mesh w.log (py "services/subscribe") (serviceNameJson inf) with
  | (log', .error _) => { w with log := log' }
  | (log', .ok _) => { w with log := log', svc := (svcSet w.svc inf meshAddress).1 }

/-- `subscribe(*interface)` (base.py:56-70) -/
def subscribe (mesh : Mesh) (w : CliWorld) (infs : List PyStr) : CliWorld :=
  if w.mesh.isNone then w else infs.foldl (subscribeOne mesh) w

/-- one round of the loop of `unsubscribe` (base.py:81-87) -/
def unsubscribeOne (mesh : Mesh) (w : CliWorld) (inf : PyStr) : CliWorld :=
  match meshPost mesh w.log (py "services/unsubscribe") (serviceNameJson inf) with
  | (log', .error _) => { w with log := log' }
  | (log', .ok _) => { w with log := log', svc := (svcPop w.svc inf).1 }

/-- `unsubscribe(*interface)` (base.py:72-87) -/
def unsubscribe (mesh : Mesh) (w : CliWorld) (infs : List PyStr) : CliWorld :=
  if w.mesh.isNone then w else infs.foldl (unsubscribeOne mesh) w

/-! ## Listener side -/

/-- The loop of `publish` / `unpublish` (base_listener.py:88-95, 102-103): an exception stops it. -/
def postEach (mesh : Mesh) (endpoint : PyStr) (json : PyStr → PyDict PyStr PayVal) :
    List Post → List PyStr → List Post × Except PyExc Unit
  | log, [] => (log, .ok ())
  | log, s :: ss =>
    match meshPost mesh log endpoint (json s) with
    | (log', .error e) => (log', .error e)
    | (log', .ok _) => postEach mesh endpoint json log' ss

/-- `BaseListener.publish` (base_listener.py:83-95); `names` are the keys of `interface_mapping`. -/
def publish (mesh : Mesh) (log : List Post) (cli : Option MeshCli) (names : List PyStr) (port : Int) (app : PyObj) :
    List Post × Except PyExc Unit :=
  match cli with
  | none => (log, .ok ())
  | some _ => postEach mesh (py "services/publish") (fun s => publishJson s port app) log names

/-- `BaseListener.unpublish` (base_listener.py:97-103) -/
def unpublish (mesh : Mesh) (log : List Post) (cli : Option MeshCli) (names : List PyStr) :
    List Post × Except PyExc Unit :=
  match cli with
  | none => (log, .ok ())
  | some _ => postEach mesh (py "services/unpublish") serviceNameJson log names

end Bolt
