import Verif.Model.Mesh
/-! What the mesh properties talk about, independent of the client code. -/
namespace Bolt.Spec
open Bolt

/-- The mesh accepts a request: HTTP 200 and a JSON object whose `success` is the boolean true. -/
def Accepts (mesh : Mesh) (log : List Post) (r : Post) : Prop :=
  ∃ d, mesh log r = .resp 200 (.object d) ∧ PyDict.get? d (py "success") = some (.bool true)

/-- a request naming one service -/
def serviceReq (ep : PyStr) (s : PyStr) : Post := ⟨ep, [(py "serviceName", .v (.str s))]⟩

/-- the request that announces one service of a listener -/
def publishReq (port : Int) (app : PyObj) (s : PyStr) : Post :=
  ⟨py "services/publish",
   [(py "serviceName", .v (.str s)),
    (py "providerMetaInfo", .sub [(py "protocol", .str (py "1")), (py "version", .str (py "4.0")),
      (py "serializeType", .str (py "protobuf")), (py "appName", app)]),
    (py "port", .v (.str (intStr port))), (py "protocolType", .v (.str (py "DEFAULT"))),
    (py "onlyPublishInCloud", .v (.int 0))]⟩

/-- The `i`-th of the requests `rs`, posted one after the other after `log`, is accepted. -/
def AcceptsNth (mesh : Mesh) (log : List Post) (rs : List Post) (i : Nat) : Prop :=
  ∃ r, rs[i]? = some r ∧ Accepts mesh (log ++ rs.take i) r

end Bolt.Spec
