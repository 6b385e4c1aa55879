import Verif.Spec.Wire
import Verif.Model.AioListener
/-!
# Specifications for the listeners: the frames a server may send, and what it owes for a request
-/
namespace Bolt.Spec

/-- the class name of responses -/
def respClass : Bytes := pyb "com.alipay.sofa.rpc.core.response.SofaResponse"
/-- the class name of requests -/
def reqClass : Bytes := pyb "com.alipay.sofa.rpc.core.request.SofaRequest"

/-- a response frame with the given id, status and content -/
def reply (id : Int) (status : Int) (content : Bytes) : Bytes :=
  frame false ⟨1, 0, 2, 1, id, 11, status⟩ respClass [] content

/-- a heartbeat acknowledgement -/
def heartbeatAck (id : Int) : Bytes := frame false ⟨1, 0, 0, 1, id, 11, 0⟩ [] [] []

/-- a request id that fits its field -/
def IdOk (i : Int) : Prop := -2147483648 ≤ i ∧ i < 2147483648

/-- What the caller is sent, given how the call went; `none`: nothing. -/
def owed (id : Int) : Fate → Option Bytes
  | .badName => some (reply id 0x08 [])
  | .badCarrier => none
  | .notFound => some (reply id 0x06 [])
  | .failed _ => some (reply id 0x02 [])
  | .accepted => none
  | .expired => some (reply id 0x07 [])
  | .answered (.raised .timeoutError) => some (reply id 0x07 [])
  | .answered (.raised .cancelledError) => some (reply id 0x07 [])
  | .answered (.raised _) => some (reply id 0x03 [])
  | .answered (.ret (.bytes c)) => if c ≠ [] ∧ c.length < 4294967296 then some (reply id 0x00 c) else none
  | .answered (.ret _) => none

/-- What a task sends. -/
def taskReply (t : Task) : Option Bytes :=
  match t.kind with
  | .heartbeat id => some (heartbeatAck id)
  | .dispatch r => t.fate.bind (owed r.id)

/-- What the reader itself sends. -/
def actReply : Act → Option Bytes
  | .reject id st => some (reply id st.code [])
  | .close (some id) st => some (reply id st.code [])
  | _ => none

/-- The request id in a reader action. -/
def actId : Act → Option Int
  | .dispatch r => some r.id
  | .heartbeat id => some id
  | .reject id _ => some id
  | .close id _ => id
  | .crash => none

/-- The task a reader action starts. -/
def actTask : Act → Option TaskKind
  | .dispatch r => some (.dispatch r)
  | .heartbeat id => some (.heartbeat id)
  | _ => none

/-- The bytes a schedule delivers: all chunks before the end of the stream. -/
def received : List LEv → Bytes
  | [] => []
  | .data bs :: evs => bs ++ received evs
  | .eof :: _ => []
  | _ :: evs => received evs

/-- the peer has closed its side -/
def sawEof (evs : List LEv) : Bool := evs.contains .eof

/-- A request frame as a client sends it. -/
structure ReqFrame where
  f : Fields
  hdr : Bytes
  header : PyDict PyStr PyStr
  content : Bytes

def ReqFrame.bytes (q : ReqFrame) : Bytes := frame true q.f reqClass q.hdr q.content

/-- fits the layout, decodable header, neither a heartbeat nor a response -/
structure ReqFrame.Ok (q : ReqFrame) : Prop where
  fit : Fields.Fit true q.f
  body : BodyFit reqClass q.hdr q.content
  decodes : headerFromBytes q.hdr = .ok q.header
  cmd : q.f.cmdcode ≠ 0 ∧ q.f.cmdcode ≠ 2

def ReqFrame.req (q : ReqFrame) : Req := ⟨q.f.ptype, q.f.requestId, q.header, q.content, q.f.seventh⟩

end Bolt.Spec

namespace Bolt.Spec

/-- Any frame of the request layout, with a decodable header: heartbeats, requests, frames to be refused. -/
structure AnyFrame where
  f : Fields
  cls : Bytes
  hdr : Bytes
  header : PyDict PyStr PyStr
  content : Bytes

def AnyFrame.bytes (q : AnyFrame) : Bytes := frame true q.f q.cls q.hdr q.content

structure AnyFrame.Ok (q : AnyFrame) : Prop where
  fit : Fields.Fit true q.f
  body : BodyFit q.cls q.hdr q.content
  decodes : headerFromBytes q.hdr = .ok q.header

/-- to be refused: a response, or not a SofaRequest (heartbeats excepted) -/
def AnyFrame.Refused (q : AnyFrame) : Prop := q.f.cmdcode ≠ 0 ∧ (q.f.cmdcode = 2 ∨ q.cls ≠ reqClass)

instance (q : AnyFrame) : Decidable q.Refused := by unfold AnyFrame.Refused; infer_instance

/-- what the server has to do with a frame -/
def AnyFrame.verdict (q : AnyFrame) : Act :=
  if q.f.cmdcode = 0 then .heartbeat q.f.requestId
  else if q.Refused then .reject q.f.requestId .clientSendError
  else .dispatch ⟨q.f.ptype, q.f.requestId, q.header, q.content, q.f.seventh⟩

/-- the bytes of several frames -/
def framesBytes (qs : List AnyFrame) : Bytes := (qs.map AnyFrame.bytes).flatten

/-- a request frame is such a frame -/
def ReqFrame.any (q : ReqFrame) : AnyFrame := ⟨q.f, reqClass, q.hdr, q.header, q.content⟩

end Bolt.Spec
