import Verif.Model.AioListener
/-!
# Trace ids on a host whose name cannot be resolved

`TraceId()` resolves the name of the host (`socket.gethostbyname`, _trace_id.py:38), which raises `socket.gaierror` where the
name is not known, or a name server does not answer. `Model/Tracer.lean` takes the generated id as given; here there may be
none. The exception is `PyExc.other`.
-/
namespace Bolt

/-- `TraceId(trace)` (_trace_id.py:36-44); `fresh`: the id that would be generated, none if the name of the host cannot be
resolved (line 38). -/
def traceIdN (given fresh : Option PyStr) : Except PyExc PyStr :=
  match given with
  | some s => .ok s
  | none => match fresh with
    | some s => .ok s
    | none => .error .other

/-- `SpanContext(None, **kwargs)` (span_context.py:44-48, 53-57); the trace id comes first (line 54). -/
def spanCtxFromKwargsN (h : Heap) (fresh : Option PyStr) (kwargs : PyDict PyStr PyStr) : Except PyExc (Heap × Baggage) := do
  if PyDict.contains kwargs (py "reference") || PyDict.contains kwargs (py "self") then
    .error .typeError
  else
    let trace ← traceIdN (PyDict.get? kwargs kTraceId) fresh
    let ids : PyStr := (PyDict.get? kwargs kRpcId).getD (py "1")
    let (h1, r) ← newRpc h ((pySplit 46 ids).map Seg.str)
    let rest : Baggage :=
      (PyDict.erase (PyDict.erase kwargs kTraceId) kRpcId).map (fun kv => (kv.1, BagVal.str kv.2))
    pure (h1, rest ++ [(kTraceId, .trace trace), (kRpcId, .rpc r)])

/-- `MyTracer.extract(TEXT_MAP, carrier)` (tracer.py:106-120): any exception becomes InvalidCarrierException. -/
def extractN (h : Heap) (fresh : Option PyStr) (carrier : PyDict PyStr PyStr) : Except PyExc (Heap × Baggage) :=
  match spanCtxFromKwargsN h fresh (extractItems carrier) with
  | .ok r => .ok r
  | .error _ => .error .invalidCarrier

/-- `tracer.start_span(name)` without a reference (tracer.py:90-94): the exception is not caught. -/
def rootSpanN (h : Heap) (fresh : Option PyStr) : Except PyExc (Heap × Baggage) := spanCtxFromKwargsN h fresh []

/-- `_dispatch` from its start to its first suspension or its end (aio_listener.py:125-156), as `LSt.dispatch`, except that
`extract` (line 138) may fail for want of a trace id. -/
def LSt.dispatchN (svc : Services) (s : LSt) (i : Nat) (t : Task) (r : Req) (fresh : Option PyStr) : LSt :=
  match serviceOf r.header with
  | none =>
    s.setTask i { t with st := toWrite (failMsg r.id .clientSendError), fate := some .badName }
  | some service =>
    match methodOf r.header with
    | none =>
      s.setTask i { t with st := toWrite (failMsg r.id .clientSendError), fate := some .badName }
    | some method =>
      match extractN s.heap fresh r.header with
      | .error _ => s.setTask i { t with st := .ended, fate := some .badCarrier }
      | .ok (heap, ctx) =>
        let s := { s with heap := heap }
        match findMethod svc s.reg heap ctx service method with
        | .error .noProcessor =>
          s.setTask i { t with st := toWrite (failMsg r.id .noProcessor), fate := some .notFound, ran := some s.reg }
        | .error e =>
          s.setTask i { t with st := toWrite (failMsg r.id .serverException), fate := some (.failed e),
                               ran := some s.reg }
        | .ok func =>
          let k := s.futs.length
          let s := { s with futs := s.futs ++ [({ func := func, body := r.body, ctx := ctx, heap := heap } : Fut)] }
          if PType.oneway.code = r.callType then
            s.setTask i { t with st := .ended, fut := some k, fate := some .accepted, ran := some s.reg,
                                 started := some s.now }
          else
            s.setTask i { t with st := .waiting (if r.timeout > 0 then some (s.now + r.timeout) else none),
                                 fut := some k, ran := some s.reg, started := some s.now }

/-- Events of a connection: those of `LEv`, and a task that starts while the name of the host cannot be resolved
(aio_listener.py:123-138). -/
inductive NEv where
  | ev (e : LEv)
  | runNameless (i : Nat)
  deriving DecidableEq, Repr

/-- One event (aio_listener.py:123-271). -/
def nstep (svc : Services) (s : LSt) : NEv → LSt
  | .ev e => lstep svc s e
  | .runNameless i =>
    match s.tasks[i]? with
    | some t =>
      match t.st, t.kind with
      | .new, .dispatch r => s.dispatchN svc i t r none
      | _, _ => s
    | none => s

/-- a schedule on a new connection (aio_listener.py:111, 180-187) -/
def nrun (svc : Services) (reg : Registry) (evs : List NEv) : LSt := evs.foldl (nstep svc) ({ reg := reg } : LSt)

end Bolt
