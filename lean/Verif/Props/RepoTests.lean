import Verif.Model.Package
import Verif.Model.SpanApi
import Verif.Model.PoolWorld
import Verif.Model.Mesh
/-!
# The project's own tests, replayed on the model

Nothing here is a claim about all inputs. The repository's unit tests say what the code does on certain inputs; the
model must do the same. Each `example` replays the assertions of one test (file and lines are given); inputs and expected
values are copied from the test. Tests that need a running server or an HTTP mock of the mesh are replayed as far as
the functions they reach are sequential; the others are instances of the end-to-end theorems (C86, C87, C109, C112).
-/
namespace Bolt

/-! ## tests/test_bolt_package.py -/

/-- test_str_to_bytes_with_len (34-38) -/
example : strToBytesWithLen (.str (py "abcdefg")) = .ok ([0, 0, 0, 7] ++ pyb "abcdefg") := by decide +kernel

/-- `SofaHeader(a='1', b='2')` -/
def testHdr : SofaHeader := [(py "a", .str (py "1")), (py "b", .str (py "2"))]

/-- what the assertions of test_repr compare: header, content, cmdcode, request_id -/
def testView (p : Pkg) : SofaHeader × PyObj × CmdCode × PyObj := (p.header, p.content, p.cmdcode, p.requestId)

/-- what a package looks like before and after a round trip -/
def testTrip (cls : PkgClass) (content : String) (a : PkgArgs) : Except PyExc (Bool × (SofaHeader × PyObj × CmdCode × PyObj)) := do
  let p ← mkPkg cls testHdr (.bytes (pyb content)) a
  let s ← p.toStream
  let pr ← fromStream cls s
  pure (decide (testView p = testView pr), testView pr)

/-- test_repr (40-51), the response -/
example : testTrip .boltResponse "cdefgab"
      { ptype := some 2, requestId := .int 0, cmdcode := some 0, respstatus := some 1 } =
    .ok (true, testHdr, .bytes (pyb "cdefgab"), .heartbeat, .int 0) := by decide +kernel

/-- test_repr (54-64), the request -/
example : testTrip .boltRequest "jklmnhi"
      { ptype := some 2, requestId := .int 0, cmdcode := some 0, timeout := .int (-1) } =
    .ok (true, testHdr, .bytes (pyb "jklmnhi"), .heartbeat, .int 0) := by decide +kernel

/-- test_header (67-74) -/
example : (do
      let h : SofaHeader := [(py "keya", .str (py "key1")), (py "keyabcxcs", .str (py "key2"))]
      let b ← headerToBytes h
      let n ← headerLen h
      let r ← headerFromBytes b
      pure (decide (n = b.length) && decide (strHeader r = h)) : Except PyExc Bool) = .ok true := by decide +kernel

/-- the response of test_from_stream (77), 69 bytes -/
def testRespBytes : Bytes :=
  [1, 0, 0, 2, 1, 0, 0, 0, 132, 11, 0, 0, 0, 46, 0, 0, 0, 0, 0, 3, 99, 111, 109, 46, 97, 108, 105, 112, 97, 121,
   46, 115, 111, 102, 97, 46, 114, 112, 99, 46, 99, 111, 114, 101, 46, 114, 101, 115, 112, 111, 110, 115, 101,
   46, 83, 111, 102, 97, 82, 101, 115, 112, 111, 110, 115, 101, 10, 1, 97]

/-- test_from_stream (78-85): the body is all that follows the fixed header, and the content is the serialised message
with the string `a` in field 1 -/
example : (fromStream .boltResponse testRespBytes).map
      (fun p => (decide (p.cls.className.length + p.headerBytes.length + p.contentBytes.length =
        testRespBytes.length - PkgClass.boltResponse.headerSize), p.content, p.requestId, p.respstatus)) =
    .ok (true, .bytes [10, 1, 97], .int 132, .success) := by decide +kernel

/-- the request of test_from_stream (87), 811 bytes -/
def testReqBytes : Bytes :=
  [1, 1, 0, 1, 1, 0, 0, 0, 109, 11, 0, 0, 0, 100, 0, 44, 2, 230, 0, 0, 0, 3, 99, 111, 109, 46, 97, 108, 105, 112,
   97, 121, 46, 115, 111, 102, 97, 46, 114, 112, 99, 46, 99, 111, 114, 101, 46, 114, 101, 113, 117, 101, 115,
   116, 46, 83, 111, 102, 97, 82, 101, 113, 117, 101, 115, 116, 0, 0, 0, 24, 115, 111, 102, 97, 95, 104, 101, 97,
   100, 95, 116, 97, 114, 103, 101, 116, 95, 115, 101, 114, 118, 105, 99, 101, 0, 0, 0, 59, 99, 111, 109, 46, 97,
   108, 105, 112, 97, 121, 46, 114, 112, 99, 46, 99, 111, 109, 109, 111, 110, 46, 115, 101, 114, 118, 105, 99,
   101, 46, 102, 97, 99, 97, 100, 101, 46, 112, 98, 46, 83, 97, 109, 112, 108, 101, 83, 101, 114, 118, 105, 99,
   101, 80, 98, 58, 49, 46, 48, 0, 0, 0, 27, 114, 112, 99, 95, 116, 114, 97, 99, 101, 95, 99, 111, 110, 116, 101,
   120, 116, 46, 115, 111, 102, 97, 82, 112, 99, 73, 100, 0, 0, 0, 1, 48, 0, 0, 0, 31, 114, 112, 99, 95, 116,
   114, 97, 99, 101, 95, 99, 111, 110, 116, 101, 120, 116, 46, 122, 112, 114, 111, 120, 121, 84, 105, 109, 101,
   111, 117, 116, 0, 0, 0, 3, 49, 48, 48, 0, 0, 0, 29, 114, 112, 99, 95, 116, 114, 97, 99, 101, 95, 99, 111, 110,
   116, 101, 120, 116, 46, 115, 111, 102, 97, 84, 114, 97, 99, 101, 73, 100, 0, 0, 0, 30, 48, 98, 97, 54, 49, 54,
   97, 49, 49, 53, 50, 51, 50, 53, 49, 56, 49, 57, 49, 49, 52, 49, 48, 48, 50, 49, 56, 55, 51, 56, 0, 0, 0, 31,
   114, 112, 99, 95, 116, 114, 97, 99, 101, 95, 99, 111, 110, 116, 101, 120, 116, 46, 115, 111, 102, 97, 67, 97,
   108, 108, 101, 114, 73, 100, 99, 0, 0, 0, 3, 100, 101, 118, 0, 0, 0, 30, 114, 112, 99, 95, 116, 114, 97, 99,
   101, 95, 99, 111, 110, 116, 101, 120, 116, 46, 115, 111, 102, 97, 67, 97, 108, 108, 101, 114, 73, 112, 0, 0,
   0, 13, 49, 49, 46, 49, 54, 54, 46, 50, 50, 46, 49, 54, 49, 0, 0, 0, 30, 114, 112, 99, 95, 116, 114, 97, 99,
   101, 95, 99, 111, 110, 116, 101, 120, 116, 46, 115, 111, 102, 97, 80, 101, 110, 65, 116, 116, 114, 115, 0, 0,
   0, 0, 0, 0, 0, 27, 114, 112, 99, 95, 116, 114, 97, 99, 101, 95, 99, 111, 110, 116, 101, 120, 116, 46, 122,
   112, 114, 111, 120, 121, 85, 73, 68, 0, 0, 0, 0, 0, 0, 0, 32, 114, 112, 99, 95, 116, 114, 97, 99, 101, 95, 99,
   111, 110, 116, 101, 120, 116, 46, 115, 111, 102, 97, 67, 97, 108, 108, 101, 114, 90, 111, 110, 101, 0, 0, 0,
   5, 71, 90, 48, 48, 66, 0, 0, 0, 20, 115, 111, 102, 97, 95, 104, 101, 97, 100, 95, 116, 97, 114, 103, 101, 116,
   95, 97, 112, 112, 0, 0, 0, 4, 98, 97, 114, 49, 0, 0, 0, 7, 115, 101, 114, 118, 105, 99, 101, 0, 0, 0, 59, 99,
   111, 109, 46, 97, 108, 105, 112, 97, 121, 46, 114, 112, 99, 46, 99, 111, 109, 109, 111, 110, 46, 115, 101,
   114, 118, 105, 99, 101, 46, 102, 97, 99, 97, 100, 101, 46, 112, 98, 46, 83, 97, 109, 112, 108, 101, 83, 101,
   114, 118, 105, 99, 101, 80, 98, 58, 49, 46, 48, 0, 0, 0, 25, 114, 112, 99, 95, 116, 114, 97, 99, 101, 95, 99,
   111, 110, 116, 101, 120, 116, 46, 69, 108, 97, 115, 116, 105, 99, 0, 0, 0, 1, 70, 0, 0, 0, 29, 114, 112, 99,
   95, 116, 114, 97, 99, 101, 95, 99, 111, 110, 116, 101, 120, 116, 46, 115, 121, 115, 80, 101, 110, 65, 116,
   116, 114, 115, 0, 0, 0, 0, 0, 0, 0, 34, 114, 112, 99, 95, 116, 114, 97, 99, 101, 95, 99, 111, 110, 116, 101,
   120, 116, 46, 122, 112, 114, 111, 120, 121, 84, 97, 114, 103, 101, 116, 90, 111, 110, 101, 0, 0, 0, 0, 0, 0,
   0, 31, 114, 112, 99, 95, 116, 114, 97, 99, 101, 95, 99, 111, 110, 116, 101, 120, 116, 46, 115, 111, 102, 97,
   67, 97, 108, 108, 101, 114, 65, 112, 112, 0, 0, 0, 3, 102, 111, 111, 0, 0, 0, 21, 115, 111, 102, 97, 95, 104,
   101, 97, 100, 95, 109, 101, 116, 104, 111, 100, 95, 110, 97, 109, 101, 0, 0, 0, 5, 104, 101, 108, 108, 111,
   10, 1, 97]

/-- test_from_stream (88-93): the content -/
example : (fromStream .boltRequest testReqBytes).map (fun p => (p.content, p.header.length)) =
    .ok (.bytes [10, 1, 97], 16) := by decide +kernel

/-- some items of the header that it prints -/
example : (fromStream .boltRequest testReqBytes).map (fun p => [py "sofa_head_target_app", py "sofa_head_method_name",
      py "rpc_trace_context.sofaPenAttrs", py "service", py "uid"].map (PyDict.get? p.header)) =
    .ok [some (.str (py "bar1")), some (.str (py "hello")), some (.str []),
      some (.str (py "com.alipay.rpc.common.service.facade.pb.SampleServicePb:1.0")), none] := by decide +kernel

/-- test_heartbeat (95-113): for every id the request can get -/
example (id : Int) : ∃ p r, heartbeatRequest id = .ok p ∧ heartbeatResponseTo p.requestId = .ok r ∧
    p.cls.className.length = 0 ∧ p.headerBytes.length = 0 ∧ p.contentBytes.length = 0 ∧ p.cmdcode = .heartbeat ∧
    r.cls.className.length = 0 ∧ r.headerBytes.length = 0 ∧ r.contentBytes.length = 0 ∧ r.cmdcode = .heartbeat ∧
    r.respstatus = .success ∧ p.requestId = r.requestId :=
  ⟨_, _, rfl, rfl, rfl, rfl, rfl, rfl, rfl, rfl, rfl, rfl, rfl, rfl⟩

/-! ## tests/test_helpers.py, tests/test_sock_client.py -/

/-- test_immutabledict (test_helpers.py:36-44) -/
example : (svcSet [] (py "a") (.host (py "b"))) = ([(py "a", .host (py "b"))], .ok ()) ∧
    svcSet [(py "a", .host (py "b"))] (py "a") (.host (py "a")) = ([(py "a", .host (py "b"))], .error .keyError) ∧
    svcSet [(py "a", .host (py "b"))] (py "b") (.host (py "a")) =
      ([(py "a", .host (py "b")), (py "b", .host (py "a"))], .ok ()) := by decide +kernel

/-- test_client_get_address (test_sock_client.py:28-32) -/
example : getAddress [] (py "com.alipay.rpc.no_such_service") = (py "127.0.0.1", 12220) := by decide +kernel

/-! ## tests/mytracer_test -/

/-- the string of the rpc id of object `i`, and its operation name -/
def testRpc (s : ApiSt) (i : Nat) : Option (PyStr × Option PyStr) := do
  let o ← s.objs[i]?
  let v ← PyDict.get? o.ctx kRpcId
  pure (v.toStr s.heap, o.body.bind SpanBody.name)

/-- test_new_span (test_helpers.py:33-59): ids 1, 1.1, 1.2, 2, 1.3 and the operation names -/
example :
    let s := apiRun [
      .newSpan (some (py "new_span")) [] 10 (py "T"), .enter 0 11,
      .childSpanOf 0 none [] 12, .enter 1 13,
      .followsSpanFrom 1 (some (py "follow_span")) [] 14, .enter 2 15, .exit 2 16, .exit 1 17,
      .followsSpanFrom 0 (some (py "follow_span")) [] 18, .enter 3 19, .exit 3 20,
      .childSpanOf 0 (some (py "child_span")) [] 21, .enter 4 22, .exit 4 23, .exit 0 24]
    (List.range 5).map (testRpc s) =
      [some (py "1", some (py "new_span")), some (py "1.1", some (py "new_span")),
       some (py "1.2", some (py "follow_span")), some (py "2", some (py "follow_span")),
       some (py "1.3", some (py "child_span"))] := by decide +kernel

/-- test_start_span (test_tracer.py:31-46): ids 1, 1.1, 1.2, one trace id -/
example :
    let s := apiRun [
      .startSpan (some (py "test_ops")) .none [] [] (some 5) 10 (py "T"),
      .startSpan (some (py "test_ops")) (.obj 0) [] [] none 11 (py "U"),
      .startSpan (some (py "test_ops")) .none [(.followsFrom, 1)] [] none 12 (py "V")]
    (List.range 3).map (fun i => (testRpc s i).map Prod.fst) = [some (py "1"), some (py "1.1"), some (py "1.2")] ∧
    s.objs.map (fun o => PyDict.get? o.ctx kTraceId) = List.replicate 3 (some (.trace (py "T"))) := by decide +kernel

/-- the carrier of test_extract_inject (test_tracer.py:49-53) -/
def testCarrier : PyDict PyStr PyStr :=
  [(py "rpc_trace_context.test", py "value1"), (py "rpc_trace_context.sofaTraceId", py "testTId"),
   (py "rpc_trace_context.sofaRpcId", py "1.1"), (py "pc_trace_context.sofaRpcId", py "testRId")]

/-- test_extract_inject (test_tracer.py:48-63): what is extracted, and what a child injects into an empty carrier -/
example :
    let s := trun [.extract (py "fresh") testCarrier, .child 0 []]
    (s.ctxs[0]?.map fun b => b.map fun kv => (kv.1, kv.2.toStr s.heap)) =
      some [(py "test", py "value1"), (kTraceId, py "testTId"), (kRpcId, py "1.1")] ∧
    (s.ctxs[1]?.map fun b => inject s.heap b []) =
      some [(py "rpc_trace_context.sofaRpcId", py "1.1.1"), (py "rpc_trace_context.test", py "value1"),
        (py "rpc_trace_context.sofaTraceId", py "testTId")] := by decide +kernel

/-- test_trace_id (test_trace_id.py:31-34): two trace ids in one millisecond -/
example : traceIdOf none 2130706433 1700000000000 0 7 ≠ traceIdOf none 2130706433 1700000000000 1 7 ∧
    traceIdOf none 2130706433 1700000000000 0 7 = py "7f000001170000000000010007" := by decide +kernel

/-- test_rpc_id (test_trace_id.py:36-48): `RpcId()`, its follow-up and the child of that; the inequalities -/
example :
    (do
      let (h, a) ← newRpc [] []
      let (h, b) ← newFollowsFrom h a
      let (h, c) ← newChildOf h b
      pure (h.map fun o => rpcStr o.segs, a, b, c) : Except PyExc _) =
      .ok ([py "1", py "2", py "2.1"], 0, 1, 2) ∧
    rpcInit [] = rpcInit [.int 1] ∧
    rpcEq [.int 1, .int 1] [.int 1, .int 1, .int 1] = false ∧
    rpcEq [.int 1, .int 1, .int 2] [.int 1, .int 1, .int 1] = false ∧
    rpcEq [.int 1] [.int 1] = true := by decide +kernel

/-! ## tests/mysockpool_test/test_poolman.py -/

/-- test_pool_man (34-57): two pools are kept; 8081 is found again, 8080 has been closed and is made anew -/
example :
    let ask (w : MgrWorld Nat) (k : Nat) := w.poolFor {} k
    let w0 : MgrWorld Nat := { mgr := PoolMgr.init 2 }
    let r0 := ask w0 8080
    let r1 := ask r0.1 8081
    let r2 := ask r1.1 8082
    let r11 := ask r2.1 8081
    let r01 := ask r11.1 8080
    [r0.1.mgr.pools.len, r1.1.mgr.pools.len, r2.1.mgr.pools.len] = [1, 2, 2] ∧
    r0.2 = .ok 0 ∧ r1.2 = .ok 1 ∧ r11.2 = .ok 1 ∧ r01.2 = .ok 3 ∧
    r01.1.pools[3]?.map (fun p => p.free.isSome) = some true ∧
    r01.1.pools[0]?.map (fun p => p.free.isSome) = some false := by decide +kernel

/-- test_pool_conn_scope (59-67), whether or not the connection looks dropped: one connection less in the queue inside
the block, as many as before after it -/
example (readable : Bool) :
    let cfg : PoolCfg := { initial := 2 }
    let w0 := ((({ mgr := PoolMgr.init 2 } : MgrWorld Nat)).poolFor cfg 8080).1
    let size (w : MgrWorld Nat) := (w.pools[0]?.bind CPool.free).map List.length
    let r := w0.connectionScope cfg 8080 false readable (fun w _ _ => (w, (.ok (size w) : Except PyExc _)))
    w0.pools[0]?.map CPool.num = some 2 ∧ r.2.1 = .ok (some 1) ∧ size r.1 = some 2 := by
  cases readable <;> decide +kernel

set_option synthInstance.maxSize 1000 in
set_option synthInstance.maxHeartbeats 200000 in
/-- test_pool (69-93): ten connections at most, four free ones, never fewer than two if that can be helped -/
example :
    let cfg : PoolCfg := { initial := 3, maxConns := 10, maxFree := 4, minFree := 2 }
    let get (x : CPool × Res ConnRef) := x.1.getConn cfg false false
    let view (p : CPool) := (p.num, p.free.map List.length)
    (match CPool.init cfg with
    | .ok p =>
      let g0 := p.getConn cfg false false
      let g1 := get g0
      let gs := [get g1, get (get g1), get (get (get g1)), get (get (get (get g1))),
        get (get (get (get (get g1)))), get (get (get (get (get (get g1)))))]
      let last := get (get (get (get (get (get g1)))))
      let held := gs.filterMap (fun x => match x.2 with | .ok c => some c | _ => none)
      some (view p, view g0.1, view g1.1, held.length, (get last).2, (get last).1.num,
        (held.foldl (fun p c => p.putConn cfg c) (get last).1).num)
    | _ => none) =
      some ((3, some 3), (3, some 2), (4, some 2), 6, .raise .emptyPool, 10, 7) := by decide +kernel

/-! ## tests/test_mesh_client.py -/

/-- the mock: status 200 and `{"success": true}` -/
def testMesh : Mesh := fun _ _ => .resp 200 (.object [(py "success", .bool true)])

/-- test_start (29-33): only the name is posted -/
example : (MeshCli.startup testMesh [] ⟨{ appName := .str (py "pybolt_test_app") }, false⟩) =
    ([⟨py "configs/application", [(py "appName", .v (.str (py "pybolt_test_app")))]⟩],
     ⟨{ appName := .str (py "pybolt_test_app") }, true⟩, .ok true) := by decide +kernel

/-- test_pub (35-46): the request as `publish` of a listener would build it -/
example : meshPost testMesh [] (py "services/publish")
      (publishJson (py "com.alipay.pybolt.test:1.0") 12200 (.str (py "pybolt_test_app"))) =
    ([⟨py "services/publish",
       [(py "serviceName", .v (.str (py "com.alipay.pybolt.test:1.0"))),
        (py "providerMetaInfo", .sub [(py "protocol", .str (py "1")), (py "version", .str (py "4.0")),
          (py "serializeType", .str (py "protobuf")), (py "appName", .str (py "pybolt_test_app"))]),
        (py "port", .v (.str (py "12200"))), (py "protocolType", .v (.str (py "DEFAULT"))),
        (py "onlyPublishInCloud", .v (.int 0))]⟩],
     .ok [(py "success", .bool true)]) := by decide +kernel

end Bolt
