import Verif.Model.Py
/-!
# mytracer: rpc ids, trace ids, span contexts, the tracer

`RpcId` objects are mutable (`_child_count`) and linked (`_parent`), so they live on a heap and are
referred to by index.
-/
namespace Bolt

/-! ## mytracer/_rpc_id.py -/

/-- One segment of an rpc id: `int` or `str` (mytracer/_rpc_id.py:31-32). -/
inductive Seg where
  | int (i : Int)
  | str (s : PyStr)
  deriving DecidableEq, Repr

/-- `_innertrans` (mytracer/_rpc_id.py:37-41): `int(s)`, or `s` itself on ValueError. -/
def Seg.trans : Seg → Seg
  | .int i => .int i
  | .str s => match pyInt s with
    | some i => .int i
    | none => .str s

/-- `RpcId.__init__` (mytracer/_rpc_id.py:27-45), the segment list part: no arguments gives `[1]`; otherwise
every argument is passed through `_innertrans` and the last one must be an int, else TypeError. -/
def rpcInit (args : List Seg) : Except PyExc (List Seg) :=
  match args with
  | [] => .ok [.int 1]
  | _ =>
    let segs := args.map Seg.trans
    match segs.getLast? with
    | some (.int _) => .ok segs
    | _ => .error .typeError

/-- `str(seg)` (_rpc_id.py:51) -/
def Seg.toStr : Seg → PyStr
  | .int i => intStr i
  | .str s => s

/-- `RpcId.__str__` (mytracer/_rpc_id.py:50-51): segments joined by `.` -/
def rpcStr (segs : List Seg) : PyStr := pyJoin 46 (segs.map Seg.toStr)

/-- An `RpcId` object: attributes `rpcids`, `_child_count`, `_parent` (mytracer/_rpc_id.py:35-48). -/
structure RpcObj where
  segs : List Seg
  childCount : Nat
  parent : Option Nat
  deriving DecidableEq, Repr

/-- All RpcId objects ever created; an object is identified by its index (_rpc_id.py:26-48). -/
abbrev Heap := List RpcObj

/-- `RpcId(*args)` (mytracer/_rpc_id.py:27-48): allocate a fresh object. -/
def newRpc (h : Heap) (args : List Seg) : Except PyExc (Heap × Nat) := do
  let segs ← rpcInit args
  pure (h ++ [⟨segs, 0, none⟩], h.length)

/-- `obj._child_count += 1` on the object with index `r` (mytracer/_rpc_id.py:63, 72). -/
def bumpChild (h : Heap) (r : Nat) : Heap :=
  h.modify r (fun o => { o with childCount := o.childCount + 1 })

/-- `obj._parent = p` (mytracer/_rpc_id.py:65, 73) -/
def setParent (h : Heap) (r : Nat) (p : Nat) : Heap :=
  h.modify r (fun o => { o with parent := some p })

/-- `_new_child_of` (mytracer/_rpc_id.py:62-66): bump the counter, extend the ids by the new count
(`extend_id`, lines 55-60, goes through the constructor again), link to the parent. -/
def newChildOf (h : Heap) (r : Nat) : Except PyExc (Heap × Nat) := do
  let h1 := bumpChild h r
  match h1[r]? with
  | none => .error .attributeError        -- unreachable: references are valid
  | some o =>
    let (h2, n) ← newRpc h1 (o.segs ++ [.int o.childCount])
    pure (setParent h2 n r, n)

/-- `self.rpcids[-1] + 1`: TypeError on a str segment, IndexError never (never empty) (_rpc_id.py:69). -/
def lastPlusOne (segs : List Seg) : Except PyExc Seg :=
  match segs.getLast? with
  | some (.int i) => .ok (.int (i + 1))
  | _ => .error .typeError

/-- `_new_follows_from` (mytracer/_rpc_id.py:68-74). -/
def newFollowsFrom (h : Heap) (r : Nat) : Except PyExc (Heap × Nat) := do
  match h[r]? with
  | none => .error .attributeError        -- unreachable: references are valid
  | some o =>
    let lst ← lastPlusOne o.segs
    let (h1, n) ← newRpc h (o.segs.dropLast ++ [lst])
    match o.parent with
    | none => pure (h1, n)
    | some p => pure (setParent (bumpChild h1 p) n p, n)

/-- `opentracing.ReferenceType` values 'child_of' and 'follows_from' (used in _rpc_id.py:77, helpers.py:38). -/
inductive RefType where
  | childOf
  | followsFrom
  deriving DecidableEq, Repr

/-- `new_by_reference_type` (mytracer/_rpc_id.py:76-77) -/
def newByRef (h : Heap) (t : RefType) (r : Nat) : Except PyExc (Heap × Nat) :=
  match t with
  | .childOf => newChildOf h r
  | .followsFrom => newFollowsFrom h r

/-- `RpcId.__eq__` (mytracer/_rpc_id.py:79-84) on two RpcId objects: same length and equal segments. -/
def rpcEq (a b : List Seg) : Bool :=
  if a.length != b.length then false
  else (a.zip b).all (fun x => x.1 == x.2)

/-! ## mytracer/_trace_id.py -/

/-- one lower-case hexadecimal digit (for _trace_id.py:42) -/
def hexDigit (d : Nat) : Nat := if d < 10 then 48 + d else 87 + d

/-- hexadecimal digits, most significant first; `fuel > n` is enough (for _trace_id.py:42) -/
def hexStrAux : Nat → Nat → PyStr
  | 0, n => [hexDigit (n % 16)]      -- unreachable from `hexStr`
  | fuel + 1, n => if n < 16 then [hexDigit n] else hexStrAux fuel (n / 16) ++ [hexDigit (n % 16)]

/-- `'{:x}'.format(n)` (_trace_id.py:42) -/
def hexStr (n : Nat) : PyStr := hexStrAux (n + 1) n

/-- `'{:0>8x}'.format(n)`: right aligned, filled with `0` up to width 8 (_trace_id.py:42) -/
def hex8 (n : Nat) : PyStr :=
  let s := hexStr n
  List.replicate (8 - s.length) 48 ++ s

/-- `TraceId._sequence = itertools.cycle(range(1000, 9001))` (mytracer/_trace_id.py:34): the `n`-th draw. -/
def traceSeq (n : Nat) : Nat :=
  let r := List.range' 1000 8001
  r.getD (n % r.length) 0

/-- `"{:0>8x}{:}{}{}".format(_ip, _ts, _sq, _pid)` (mytracer/_trace_id.py:42). -/
def traceFormat (ip ts sq pid : Nat) : PyStr :=
  hex8 ip ++ natStr ts ++ natStr sq ++ natStr pid

/-- `TraceId(trace)` (mytracer/_trace_id.py:36-44): a given string is kept; otherwise one is generated from the
host address, the millisecond clock, the draw number and the process id. -/
def traceIdOf (given : Option PyStr) (ip ts draw pid : Nat) : PyStr :=
  match given with
  | some s => s
  | none => traceFormat ip ts (traceSeq draw) pid

/-! ## mytracer/span_context.py -/

/-- A baggage value: an RpcId object, a TraceId (immutable, its string), or a string.
Simplification: other baggage values are strings (all `extract` produces, _sofa_header only carries strings)
(span_context.py:44-57). -/
inductive BagVal where
  | rpc (r : Nat)
  | trace (s : PyStr)
  | str (s : PyStr)
  deriving DecidableEq, Repr

/-- `SpanContext`: its `_baggage` (mytracer/span_context.py:57), an `_ImmutableDict`. -/
abbrev Baggage := PyDict PyStr BagVal

/-- the key of span_context.py:51, 55-56 -/
def kRpcId : PyStr := py "sofaRpcId"
/-- the key of span_context.py:54 -/
def kTraceId : PyStr := py "sofaTraceId"

/-- `SpanContext(None, **kwargs)` (mytracer/span_context.py:44-48, 53-57), kwargs of strings.
A kwarg called `reference` or `self` clashes with the parameters (TypeError at call). `fresh` is the string of
the TraceId that would be generated. -/
def spanCtxFromKwargs (h : Heap) (fresh : PyStr) (kwargs : PyDict PyStr PyStr) :
    Except PyExc (Heap × Baggage) := do
  if PyDict.contains kwargs (py "reference") || PyDict.contains kwargs (py "self") then
    .error .typeError
  else
    let trace : PyStr := (PyDict.get? kwargs kTraceId).getD fresh
    let ids : PyStr := (PyDict.get? kwargs kRpcId).getD (py "1")
    let (h1, r) ← newRpc h ((pySplit 46 ids).map Seg.str)
    let rest : Baggage :=
      (PyDict.erase (PyDict.erase kwargs kTraceId) kRpcId).map (fun kv => (kv.1, BagVal.str kv.2))
    pure (h1, rest ++ [(kTraceId, .trace trace), (kRpcId, .rpc r)])

/-- `SpanContext(reference)` (mytracer/span_context.py:49-52, 57): the referenced baggage is copied, its rpc id
replaced by a new one. -/
def spanCtxFromRef (h : Heap) (t : RefType) (b : Baggage) : Except PyExc (Heap × Baggage) := do
  match PyDict.get? b kRpcId with
  | some (.rpc r) =>
    let (h1, n) ← newByRef h t r
    pure (h1, PyDict.update [(kRpcId, BagVal.rpc n)] (PyDict.erase b kRpcId))
  | some _ => .error .attributeError
  | none => .error .keyError

/-- `span.set_baggage_item(k, v)` (mytracer/span.py:48-49) on an `_ImmutableDict`
(mytracer/span_context.py:28-30): always TypeError. -/
def setBaggageItem (_b : Baggage) (_k : PyStr) (_v : BagVal) : Except PyExc Baggage :=
  .error .typeError

/-! ## mytracer/tracer.py -/

/-- `MyTracer._prefix` (mytracer/tracer.py:43) -/
def tracerPrefix : PyStr := py "rpc_trace_context."

/-- `k.split('.', 1)[1]`: what follows the first dot (only used on keys with the prefix, so a dot exists)
(tracer.py:117) -/
def afterDot : PyStr → PyStr
  | [] => []
  | c :: s => if c = 46 then s else afterDot s

/-- The dict comprehension of `extract` (mytracer/tracer.py:117). -/
def extractItems (carrier : PyDict PyStr PyStr) : PyDict PyStr PyStr :=
  PyDict.ofPairs ((carrier.filter (fun kv => pyStartsWith kv.1 tracerPrefix)).map
    (fun kv => (afterDot kv.1, kv.2)))

/-- `MyTracer.extract(TEXT_MAP, carrier)` (mytracer/tracer.py:106-120): any exception becomes
InvalidCarrierException. -/
def extract (h : Heap) (fresh : PyStr) (carrier : PyDict PyStr PyStr) :
    Except PyExc (Heap × Baggage) :=
  match spanCtxFromKwargs h fresh (extractItems carrier) with
  | .ok r => .ok r
  | .error _ => .error .invalidCarrier

/-- `str(v)` for a baggage value (tracer.py:134, _rpc_trace_context.py:37) -/
def BagVal.toStr (h : Heap) : BagVal → PyStr
  | .rpc r => rpcStr ((h[r]?.map RpcObj.segs).getD [])
  | .trace s => s
  | .str s => s

/-- `MyTracer.inject(span_context, TEXT_MAP, carrier)` (mytracer/tracer.py:122-135), plain dict carrier. -/
def inject (h : Heap) (b : Baggage) (carrier : PyDict PyStr PyStr) : PyDict PyStr PyStr :=
  b.foldl (fun c kv => PyDict.set c (tracerPrefix ++ kv.1) (kv.2.toStr h)) carrier

/-- `for k, v in _tags: span.set_tag(k, v)` (mytracer/tracer.py:98-100): iterating a dict yields its *keys*, each
of which is unpacked into two items; a str of length 2 unpacks into its two characters, any other raises
ValueError. Simplification: keys are strings. -/
def tagLoop {V : Type} : List (PyStr × V) → PyDict PyStr PyStr → Except PyExc (PyDict PyStr PyStr)
  | [], acc => .ok acc
  | (k, _) :: rest, acc =>
    match k with
    | [a, b] => tagLoop rest (PyDict.set acc [a] [b])
    | _ => .error .valueError

/-- the choice of reference in `start_span` (mytracer/tracer.py:84-91): `child_of` first, then the first of
`references`, else none. -/
def chooseRef (childOf : Option Baggage) (references : List (RefType × Baggage)) :
    Option (RefType × Baggage) :=
  match childOf with
  | some b => some (.childOf, b)
  | none => references.head?

/-- A started span: its context and tags (mytracer/span.py:27-35); operation name and times are in `Model/SpanApi.lean`. -/
structure SpanObj where
  ctx : Baggage
  tags : PyDict PyStr PyStr

/-- `MyTracer.start_span` (mytracer/tracer.py:45-104). The context is created (line 94) before the tags are applied
(lines 98-100), so the heap effects stay even if the tag loop raises. A failing context creation leaves the heap as it
was (the only failure of `new_by_reference_type` is raised before anything is changed). -/
def startSpan {V : Type} (h : Heap) (fresh : PyStr) (childOf : Option Baggage)
    (references : List (RefType × Baggage)) (tags : PyDict PyStr V) : Heap × Except PyExc SpanObj :=
  let created := match chooseRef childOf references with
    | some (t, b) => spanCtxFromRef h t b
    | none => spanCtxFromKwargs h fresh []
  match created with
  | .error e => (h, .error e)
  | .ok (h1, ctx) =>
    match tagLoop tags [] with
    | .error e => (h1, .error e)
    | .ok tg => (h1, .ok ⟨ctx, tg⟩)

/-! ## Histories of API calls -/

/-- One call of the tracing API by a user who keeps every context obtained so far (contexts are referred to by their
position). `fresh` is the string of the TraceId generated in that call, if any (tracer.py:45-135, span.py:48-49). -/
inductive TOp where
  | root (fresh : PyStr)                                        -- tracer.start_span(name)
  | extract (fresh : PyStr) (carrier : PyDict PyStr PyStr)      -- tracer.extract(TEXT_MAP, carrier)
  | child (i : Nat) (tags : PyDict PyStr PyStr)                 -- tracer.start_span(name, child_of=ctx, tags=tags)
  | ref (t : RefType) (i : Nat) (tags : PyDict PyStr PyStr)     -- tracer.start_span(name, references=[Reference(t, ctx)], tags=tags)
  | inject (i : Nat) (carrier : PyDict PyStr PyStr)             -- tracer.inject(ctx, TEXT_MAP, carrier)
  | setBaggage (i : Nat) (k : PyStr) (v : BagVal)               -- span.set_baggage_item(k, v)

/-- The RpcId objects (_rpc_id.py:26-48) and the contexts obtained so far (span_context.py:44-57). -/
structure TState where
  heap : Heap
  ctxs : List Baggage

/-- keep the context of a successfully started span (tracer.py:93-104) -/
def TState.keep (s : TState) (r : Heap × Except PyExc SpanObj) : TState :=
  match r.2 with
  | .ok sp => ⟨r.1, s.ctxs ++ [sp.ctx]⟩
  | .error _ => ⟨r.1, s.ctxs⟩

/-- effect of one call (tracer.py:45-135, span.py:48-49) -/
def tstep (s : TState) : TOp → TState
  | .root fresh => s.keep (startSpan (V := PyStr) s.heap fresh none [] [])
  | .extract fresh carrier =>
    match extract s.heap fresh carrier with
    | .ok (h1, b) => ⟨h1, s.ctxs ++ [b]⟩
    | .error _ => s
  | .child i tags =>
    match s.ctxs[i]? with
    | some b => s.keep (startSpan s.heap [] (some b) [] tags)
    | none => s
  | .ref t i tags =>
    match s.ctxs[i]? with
    | some b => s.keep (startSpan s.heap [] none [(t, b)] tags)
    | none => s
  | .inject _ _ => s                    -- writes into the carrier only (mytracer/tracer.py:133-134)
  | .setBaggage i k v =>
    match s.ctxs[i]? with
    | some b => match setBaggageItem b k v with
      | .ok b' => ⟨s.heap, s.ctxs.set i b'⟩
      | .error _ => s
    | none => s

/-- state after a history, from scratch (helpers.py:24) -/
def trun (ops : List TOp) : TState := ops.foldl tstep ⟨[], []⟩

end Bolt
