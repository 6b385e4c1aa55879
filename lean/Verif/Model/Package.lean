import Verif.Model.Header
/-!
# anthunder/protocol: constants, packages, request ids; anthunder/command
-/
namespace Bolt

/-! ## anthunder/protocol/constants.py -/

/-- `PROTO` (anthunder/protocol/constants.py:27-28) -/
inductive Proto where
  | bolt
  deriving DecidableEq, Repr
/-- constants.py:28 -/
def Proto.code : Proto → Int
  | .bolt => 1
/-- `PROTO(i)`; `none` is ValueError (_package_base.py:62) -/
def Proto.of (i : Int) : Option Proto := if i = 1 then some .bolt else none

/-- `PTYPE` (anthunder/protocol/constants.py:31-34) -/
inductive PType where
  | response | request | oneway
  deriving DecidableEq, Repr
/-- constants.py:32-34 -/
def PType.code : PType → Int
  | .response => 0
  | .request => 1
  | .oneway => 2
/-- `PTYPE(i)` (_package_base.py:63); `none` is ValueError -/
def PType.of (i : Int) : Option PType :=
  if i = 0 then some .response else if i = 1 then some .request else if i = 2 then some .oneway else none

/-- `CMDCODE` (anthunder/protocol/constants.py:37-40) -/
inductive CmdCode where
  | heartbeat | request | response
  deriving DecidableEq, Repr
/-- constants.py:38-40 -/
def CmdCode.code : CmdCode → Int
  | .heartbeat => 0
  | .request => 1
  | .response => 2
/-- `CMDCODE(i)` (_package_base.py:64); `none` is ValueError -/
def CmdCode.of (i : Int) : Option CmdCode :=
  if i = 0 then some .heartbeat else if i = 1 then some .request else if i = 2 then some .response else none

/-- `VER2` (anthunder/protocol/constants.py:43-44) -/
inductive Ver2 where
  | remoting
  deriving DecidableEq, Repr
/-- constants.py:44 -/
def Ver2.code : Ver2 → Int
  | .remoting => 1
/-- `VER2(i)` (_package_base.py:65); `none` is ValueError -/
def Ver2.of (i : Int) : Option Ver2 := if i = 1 then some .remoting else none

/-- `CODEC` (anthunder/protocol/constants.py:47-50) -/
inductive Codec where
  | hessian | protobuf | java
  deriving DecidableEq, Repr
/-- constants.py:48-50 -/
def Codec.code : Codec → Int
  | .hessian => 1
  | .protobuf => 11
  | .java => 2
/-- `CODEC(i)` (_package_base.py:67); `none` is ValueError -/
def Codec.of (i : Int) : Option Codec :=
  if i = 1 then some .hessian else if i = 11 then some .protobuf else if i = 2 then some .java else none

/-- `RESPSTATUS` (anthunder/protocol/constants.py:53-66) -/
inductive RespStatus where
  | success | error | serverException | unknown | serverThreadpoolBusy | errorComm | noProcessor
  | timeout | clientSendError | codecException | connectionClosed | serverSerialException
  | serverDeserialException
  deriving DecidableEq, Repr
/-- constants.py:54-66 -/
def RespStatus.code : RespStatus → Int
  | .success => 0x0000
  | .error => 0x0001
  | .serverException => 0x0002
  | .unknown => 0x0003
  | .serverThreadpoolBusy => 0x0004
  | .errorComm => 0x0005
  | .noProcessor => 0x0006
  | .timeout => 0x0007
  | .clientSendError => 0x0008
  | .codecException => 0x0009
  | .connectionClosed => 0x0010
  | .serverSerialException => 0x0011
  | .serverDeserialException => 0x0012
/-- `RESPSTATUS(i)` (_package_base.py:69); `none` is ValueError -/
def RespStatus.of (i : Int) : Option RespStatus :=
  if i = 0x0000 then some .success
  else if i = 0x0001 then some .error
  else if i = 0x0002 then some .serverException
  else if i = 0x0003 then some .unknown
  else if i = 0x0004 then some .serverThreadpoolBusy
  else if i = 0x0005 then some .errorComm
  else if i = 0x0006 then some .noProcessor
  else if i = 0x0007 then some .timeout
  else if i = 0x0008 then some .clientSendError
  else if i = 0x0009 then some .codecException
  else if i = 0x0010 then some .connectionClosed
  else if i = 0x0011 then some .serverSerialException
  else if i = 0x0012 then some .serverDeserialException
  else none

/-! ## BoltPackage and its subclasses -/

/-- The classes: `BoltRequest` (_request_pkg.py:31), `BoltResponse` (_response_pkg.py:32), `HeartbeatRequest` and
`HeartbeatResponse` (anthunder/command/heartbeat.py:30-43), `FailResponse` (anthunder/command/fail_response.py:29). -/
inductive PkgClass where
  | boltRequest | boltResponse | heartbeatRequest | heartbeatResponse | failResponse
  deriving DecidableEq, Repr

/-- subclass of BoltRequest? (decides `fmt`, `bolt_headers`, `to_stream`)
(_request_pkg.py:31, heartbeat.py:30; not so _response_pkg.py:32, heartbeat.py:38, fail_response.py:29) -/
def PkgClass.isRequest : PkgClass → Bool
  | .boltRequest | .heartbeatRequest => true
  | _ => false

/-- class attribute `class_name`: _request_pkg.py:33, _response_pkg.py:34, heartbeat.py:31, heartbeat.py:39;
FailResponse inherits BoltResponse's. -/
def PkgClass.className : PkgClass → Bytes
  | .boltRequest => pyb "com.alipay.sofa.rpc.core.request.SofaRequest"
  | .boltResponse => pyb "com.alipay.sofa.rpc.core.response.SofaResponse"
  | .heartbeatRequest => []
  | .heartbeatResponse => []
  | .failResponse => pyb "com.alipay.sofa.rpc.core.response.SofaResponse"

/-- class attribute `fmt`: `"!bbhblblHHL"` (_request_pkg.py:32) / `"!bbhblbhHHL"` (_response_pkg.py:33) -/
def PkgClass.fmt (c : PkgClass) : List Fmt :=
  if c.isRequest then [.b, .b, .h, .b, .l, .b, .l, .H, .H, .L]
  else [.b, .b, .h, .b, .l, .b, .h, .H, .H, .L]

/-- names used in `bolt_headers` (_request_pkg.py:34-35, _response_pkg.py:35-36) -/
inductive FName where
  | proto | ptype | cmdcode | ver2 | requestId | codec | timeout | respstatus
  | classLen | headerLen | contentLen
  deriving DecidableEq, Repr

/-- class attribute `bolt_headers` (_request_pkg.py:34-35, _response_pkg.py:35-36) -/
def PkgClass.boltHeaders (c : PkgClass) : List FName :=
  if c.isRequest then
    [.proto, .ptype, .cmdcode, .ver2, .requestId, .codec, .timeout, .classLen, .headerLen, .contentLen]
  else
    [.proto, .ptype, .cmdcode, .ver2, .requestId, .codec, .respstatus, .classLen, .headerLen, .contentLen]

/-- `bolt_header_size` (_package_base.py:135-137) -/
def PkgClass.headerSize (c : PkgClass) : Nat := calcsize c.fmt

/-- A package object (attributes set in BoltPackage.__init__, _package_base.py:58-69). -/
structure Pkg where
  cls : PkgClass
  header : SofaHeader
  headerBytes : Bytes
  content : PyObj
  proto : Proto
  ptype : PType
  cmdcode : CmdCode
  ver2 : Ver2
  requestId : PyObj
  codec : Codec
  timeout : PyObj
  respstatus : RespStatus
  deriving DecidableEq, Repr

/-- Keyword arguments of `BoltPackage.__init__` after `header` and `content`
(_package_base.py:36-38) with their defaults. Enum-valued arguments are ints or None. -/
structure PkgArgs where
  proto : Option Int := some 1
  ptype : Option Int := none
  cmdcode : Option Int := none
  ver2 : Option Int := some 1
  requestId : PyObj := .none
  codec : Option Int := some 11
  timeout : PyObj := .none
  respstatus : Option Int := some 0

/-- `EnumClass(x)` : ValueError if `x` is None or not a member value (_package_base.py:62-69) -/
def enumOf {α : Type} (f : Int → Option α) (x : Option Int) : Except PyExc α :=
  match x.bind f with
  | some a => .ok a
  | none => .error .valueError

/-- `BoltPackage.__init__` (_package_base.py:36-69). `header.to_bytes()` is evaluated first and its exception
propagates; then the enum conversions in order. Simplification: `header` is always a SofaHeader. -/
def mkPkg (cls : PkgClass) (header : SofaHeader) (content : PyObj) (a : PkgArgs) : Except PyExc Pkg := do
  let hb ← headerToBytes header
  let proto ← enumOf Proto.of a.proto
  let ptype ← enumOf PType.of a.ptype
  let cmdcode ← enumOf CmdCode.of a.cmdcode
  let ver2 ← enumOf Ver2.of a.ver2
  let codec ← enumOf Codec.of a.codec
  let respstatus ← enumOf RespStatus.of a.respstatus
  pure { cls := cls, header := header, headerBytes := hb, content := content, proto := proto, ptype := ptype,
         cmdcode := cmdcode, ver2 := ver2, requestId := a.requestId, codec := codec,
         timeout := PyObj.or a.timeout (.int 0), respstatus := respstatus }

/-- `validate` (_package_base.py:93-106): the enum attributes, class_name and header always have the right type in
the model; `request_id` must be an int and `content` bytes, else ParamTypeError. -/
def Pkg.validate (p : Pkg) : Except PyExc Unit :=
  match p.requestId with
  | .int _ => match p.content with
    | .bytes _ => .ok ()
    | _ => .error .paramTypeError
  | _ => .error .paramTypeError

/-- `content_len` = `len(self.content)` (_package_base.py:84-86): only reached with bytes content. -/
def Pkg.contentBytes (p : Pkg) : Bytes :=
  match p.content with
  | .bytes b => b
  | _ => []

/-- `to_stream` (_request_pkg.py:37-46 and _response_pkg.py:38-47): validate, then pack the fixed header, class name,
header bytes and content; any exception of pack becomes EncodeError. -/
def Pkg.toStream (p : Pkg) : Except PyExc Bytes := do
  p.validate
  let classLen := p.cls.className.length
  let headerLen := p.headerBytes.length
  let contentLen := p.contentBytes.length
  let bodyfmt := [Fmt.s classLen, Fmt.s headerLen, Fmt.s contentLen]
  let seventh := if p.cls.isRequest then p.timeout else .int p.respstatus.code
  match structPack (p.cls.fmt ++ bodyfmt)
      [.int p.proto.code, .int p.ptype.code, .int p.cmdcode.code, .int p.ver2.code, p.requestId,
       .int p.codec.code, seventh, .int classLen, .int headerLen, .int contentLen,
       .bytes p.cls.className, .bytes p.headerBytes, p.content] with
  | some bs => .ok bs
  | none => .error .encodeError

/-- an int out of an unpacked item (fixed header items are always ints) (_package_base.py:124) -/
def PyObj.toInt : PyObj → Int
  | .int i => i
  | _ => 0

/-- the dict produced by `bolt_header_from_stream` (_package_base.py:124-125) -/
abbrev BoltHdr := PyDict FName Int

/-- `bolt_header_from_stream` (_package_base.py:121-128): unpack the first bytes, zip with the names; any exception
becomes DecodeError. -/
def boltHeaderFromStream (cls : PkgClass) (stream : Bytes) : Except PyExc BoltHdr :=
  match structUnpack cls.fmt (stream.take cls.headerSize) with
  | some vals => .ok (PyDict.ofPairs (cls.boltHeaders.zip (vals.map PyObj.toInt)))
  | none => .error .decodeError

/-- `bolt_headers['...']`: KeyError if absent (always present)
(_package_base.py:114; aio_listener.py:191-211; sock_listener.py:95-103; client.py:132) -/
def BoltHdr.get (h : BoltHdr) (n : FName) : Except PyExc Int :=
  match PyDict.get? h n with
  | some i => .ok i
  | none => .error .keyError

/-- `cls(header, content, **bolt_headers)` (_package_base.py:117): present names override the defaults, the three
lengths are swallowed by `**kwargs`. -/
def argsOfHdr (h : BoltHdr) : PkgArgs :=
  let d : PkgArgs := {}
  { proto := (PyDict.get? h .proto).orElse (fun _ => d.proto)
    ptype := (PyDict.get? h .ptype).orElse (fun _ => d.ptype)
    cmdcode := (PyDict.get? h .cmdcode).orElse (fun _ => d.cmdcode)
    ver2 := (PyDict.get? h .ver2).orElse (fun _ => d.ver2)
    requestId := ((PyDict.get? h .requestId).map PyObj.int).getD d.requestId
    codec := (PyDict.get? h .codec).orElse (fun _ => d.codec)
    timeout := ((PyDict.get? h .timeout).map PyObj.int).getD d.timeout
    respstatus := (PyDict.get? h .respstatus).orElse (fun _ => d.respstatus) }

/-- the body of the `try` in `bolt_content_from_stream` (_package_base.py:114-117). `%d` of a length that is not
negative is its decimal form (the lengths are unpacked with `H`/`L`, never negative). -/
def boltContentRaw (cls : PkgClass) (stream : Bytes) (h : BoltHdr) : Except PyExc Pkg := do
  let cl ← BoltHdr.get h .classLen
  let hl ← BoltHdr.get h .headerLen
  let nl ← BoltHdr.get h .contentLen
  match structUnpack [.s cl.toNat, .s hl.toNat, .s nl.toNat] stream with
  | some [.bytes _className, .bytes header, .bytes content] => do
    let d ← headerFromBytes header
    mkPkg cls (strHeader d) (.bytes content) (argsOfHdr h)
  | _ => .error .structError

/-- `bolt_content_from_stream` (_package_base.py:111-119): any exception becomes DecodeError. -/
def boltContentFromStream (cls : PkgClass) (stream : Bytes) (h : BoltHdr) : Except PyExc Pkg :=
  match boltContentRaw cls stream h with
  | .ok p => .ok p
  | .error _ => .error .decodeError

/-- `from_stream` (_package_base.py:130-133) -/
def fromStream (cls : PkgClass) (stream : Bytes) : Except PyExc Pkg := do
  let bh ← boltHeaderFromStream cls stream
  boltContentFromStream cls (stream.drop cls.headerSize) bh

/-! ## Constructors -/

/-- `BoltRequest.new_request` (_request_pkg.py:48-51); `id` is `next(RequestId)`. -/
def newRequest (header : SofaHeader) (content : PyObj) (ptype : PType) (timeoutMs : PyObj) (id : Int) :
    Except PyExc Pkg :=
  mkPkg .boltRequest header content
    { ptype := some ptype.code, cmdcode := some CmdCode.request.code, requestId := .int id,
      timeout := PyObj.or timeoutMs (.int (-1)) }

/-- `BoltResponse.response_to` (_response_pkg.py:49-51), with `empty_header` (_sofa_header.py:142). -/
def boltResponseTo (content : PyObj) (id : PyObj) : Except PyExc Pkg :=
  mkPkg .boltResponse [] content
    { requestId := id, ptype := some PType.response.code, cmdcode := some CmdCode.response.code }

/-- `HeartbeatRequest.new_request` (anthunder/command/heartbeat.py:33-35) -/
def heartbeatRequest (id : Int) : Except PyExc Pkg :=
  mkPkg .heartbeatRequest [] (.bytes [])
    { ptype := some PType.request.code, cmdcode := some CmdCode.heartbeat.code, requestId := .int id }

/-- `HeartbeatResponse.response_to` (anthunder/command/heartbeat.py:41-43) -/
def heartbeatResponseTo (id : PyObj) : Except PyExc Pkg :=
  mkPkg .heartbeatResponse [] (.bytes [])
    { ptype := some PType.response.code, cmdcode := some CmdCode.heartbeat.code, requestId := id }

/-- `FailResponse.response_to` (anthunder/command/fail_response.py:30-33) -/
def failResponseTo (id : PyObj) (status : RespStatus) : Except PyExc Pkg :=
  mkPkg .failResponse [] (.bytes [])
    { respstatus := some status.code, ptype := some PType.response.code,
      cmdcode := some CmdCode.response.code, requestId := id }

/-! ## anthunder/helpers/request_id.py -/

/-- `_max` (anthunder/helpers/request_id.py:26) -/
def maxRequestId : Nat := 0x7fffffff

/-- `chain(range(_start, _max + 1), range(0, _start))` (anthunder/helpers/request_id.py:28) as a list -/
def requestIdChain (start : Nat) : List Nat :=
  List.range' start (maxRequestId + 1 - start) ++ List.range start

/-- the `n`-th element (from 0) drawn from `cycle(chain(...))` (anthunder/helpers/request_id.py:28) -/
def requestIdAt (start n : Nat) : Nat :=
  let c := requestIdChain start
  c.getD (n % c.length) 0

end Bolt
