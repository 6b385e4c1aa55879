import Verif.Model.Tracer
/-!
# Model of span objects and the helpers that make them (mytracer/span.py, mytracer/helpers.py, mytracer/tracer.py)

`Model/Tracer.lean` has the contexts of spans only. Here a span has its operation name, tags and times as well.

Simplifications. Times are integers (of whatever unit); what `time.time()` returns is part of the operation, and nothing
is assumed about it. Operation names are `None` or strings, tag values strings. `_tracer` and `_logs` of a span are never
used. A `with` block is the call of `__enter__`, the operations of its body, and the call of `__exit__`; `__exit__`
returns None, so an exception of the body goes on after it (span.py:67-68).
-/
namespace Bolt

/-- What `MySpan` keeps besides its context (mytracer/span.py:28-35); `name = none` is `None`. -/
structure SpanBody where
  name : Option PyStr
  tags : PyDict PyStr PyStr
  start : Int
  fin : Option Int
  deriving DecidableEq, Repr

/-- Something with a context: a span, or a bare `SpanContext` (`body = none`) as `extract` returns it
(span.py:28-39, tracer.py:118). -/
structure TObj where
  ctx : Baggage
  body : Option SpanBody
  deriving DecidableEq, Repr

/-- The argument `child_of` of `start_span`: a `SpanContext` or `MySpan`, by its number; nothing; or an object of any
other type, which lines 84-87 pass over (of tracer.py). -/
inductive ParentArg where
  | none
  | obj (i : Nat)
  | other
  deriving DecidableEq, Repr

/-- The RpcId objects (_rpc_id.py:26-48) and the spans and contexts obtained so far (tracer.py:93-94, 118). -/
structure ApiSt where
  heap : Heap := []
  objs : List TObj := []
  deriving DecidableEq, Repr

/-- the context of an object (`child_of.context` for a span, 87) (of tracer.py; span.py:37-39) -/
def ApiSt.ctx (s : ApiSt) (i : Nat) : Option Baggage := s.objs[i]?.map TObj.ctx

/-- `child_of` as lines 84-87 take it (of tracer.py) -/
def ApiSt.parent (s : ApiSt) : ParentArg → Option Baggage
  | .obj i => s.ctx i
  | _ => .none

/-- the objects given as arguments exist (tracer.py:84-89) -/
def ApiSt.knows (s : ApiSt) (childOf : ParentArg) (refs : List (RefType × Nat)) : Prop :=
  (∀ i, childOf = .obj i → i < s.objs.length) ∧ ∀ x ∈ refs, x.2 < s.objs.length

instance (s : ApiSt) (childOf : ParentArg) (refs : List (RefType × Nat)) : Decidable (s.knows childOf refs) :=
  match childOf with
  | .obj i => decidable_of_iff (i < s.objs.length ∧ ∀ x ∈ refs, x.2 < s.objs.length) (by simp [ApiSt.knows])
  | .none => decidable_of_iff (∀ x ∈ refs, x.2 < s.objs.length) (by simp [ApiSt.knows])
  | .other => decidable_of_iff (∀ x ∈ refs, x.2 < s.objs.length) (by simp [ApiSt.knows])

/-- `if start_time: span.set_start_time(start_time)` (mytracer/tracer.py:101-102) -/
def givenStart (now : Int) : Option Int → Int
  | some t => if t ≠ 0 then t else now
  | none => now

/-- `MyTracer.start_span` (mytracer/tracer.py:45-104): the span is made at time `now` (mytracer/span.py:33). References
are pairs of a type and an object. -/
def ApiSt.startSpan (s : ApiSt) (name : Option PyStr) (childOf : ParentArg) (refs : List (RefType × Nat))
    (tags : PyDict PyStr PyStr) (startTime : Option Int) (now : Int) (fresh : PyStr) : ApiSt :=
  let r := Bolt.startSpan s.heap fresh (s.parent childOf) (refs.filterMap fun x => (s.ctx x.2).map (x.1, ·)) tags
  match r.2 with
  | .error _ => { s with heap := r.1 }
  | .ok sp => ⟨r.1, s.objs ++ [⟨sp.ctx, some ⟨name, sp.tags, givenStart now startTime, none⟩⟩]⟩

/-- `operation_name or span.operation_name` (mytracer/helpers.py:32, 37) -/
def orSpanName (given inherited : Option PyStr) : Option PyStr :=
  match given with
  | some n => if n = [] then inherited else some n
  | none => inherited

/-- change a span (span.py:45-68) -/
def ApiSt.onSpan (s : ApiSt) (i : Nat) (f : SpanBody → SpanBody) : ApiSt :=
  { s with objs := s.objs.modify i fun o => { o with body := o.body.map f } }

/-- One call of the API. Numbers name the objects obtained so far; a call on a number that is no span, or no object,
is none and changes nothing (tracer.py:45, 106; helpers.py:27-39; span.py:45-68). -/
inductive ApiOp where
  | startSpan (name : Option PyStr) (childOf : ParentArg) (refs : List (RefType × Nat)) (tags : PyDict PyStr PyStr)
      (startTime : Option Int) (now : Int) (fresh : PyStr)
  | newSpan (name : Option PyStr) (tags : PyDict PyStr PyStr) (now : Int) (fresh : PyStr)
  | childSpanOf (i : Nat) (name : Option PyStr) (tags : PyDict PyStr PyStr) (now : Int)
  | followsSpanFrom (i : Nat) (name : Option PyStr) (tags : PyDict PyStr PyStr) (now : Int)
  | extract (fresh : PyStr) (carrier : PyDict PyStr PyStr)
  | setName (i : Nat) (name : Option PyStr)
  | setTag (i : Nat) (k v : PyStr)
  | setStart (i : Nat) (t : Int)
  | finish (i : Nat) (now : Int)
  | enter (i : Nat) (now : Int)
  | exit (i : Nat) (now : Int)
  | setBaggage (i : Nat) (k : PyStr) (v : BagVal)
  deriving DecidableEq, Repr

/-- effect of one call (tracer.py:45-120, helpers.py:27-39, span.py:45-68) -/
def apiStep (s : ApiSt) : ApiOp → ApiSt
  | .startSpan name childOf refs tags startTime now fresh =>
    if s.knows childOf refs then s.startSpan name childOf refs tags startTime now fresh else s
  -- mytracer/helpers.py:27-28
  | .newSpan name tags now fresh => s.startSpan name .none [] tags none now fresh
  -- mytracer/helpers.py:31-33
  | .childSpanOf i name tags now =>
    match s.objs[i]?.bind TObj.body with
    | some b => s.startSpan (orSpanName name b.name) (.obj i) [] tags none now []
    | none => s
  -- mytracer/helpers.py:36-39
  | .followsSpanFrom i name tags now =>
    match s.objs[i]?.bind TObj.body with
    | some b => s.startSpan (orSpanName name b.name) .none [(.followsFrom, i)] tags none now []
    | none => s
  -- mytracer/tracer.py:106-120
  | .extract fresh carrier =>
    match Bolt.extract s.heap fresh carrier with
    | .ok (h1, b) => ⟨h1, s.objs ++ [⟨b, none⟩]⟩
    | .error _ => s
  -- mytracer/span.py:45-46
  | .setName i name => s.onSpan i fun b => { b with name := name }
  -- mytracer/span.py:54-55
  | .setTag i k v => s.onSpan i fun b => { b with tags := PyDict.set b.tags k v }
  -- mytracer/span.py:57-58
  | .setStart i t => s.onSpan i fun b => { b with start := t }
  -- mytracer/span.py:60-61
  | .finish i now => s.onSpan i fun b => { b with fin := some now }
  -- mytracer/span.py:63-65
  | .enter i now => s.onSpan i fun b => { b with start := now }
  -- mytracer/span.py:67-68
  | .exit i now => s.onSpan i fun b => { b with fin := some now }
  -- mytracer/span.py:48-49
  | .setBaggage i k v =>
    match s.ctx i with
    | some b => match setBaggageItem b k v with
      | .ok b' => { s with objs := s.objs.modify i fun o => { o with ctx := b' } }
      | .error _ => s
    | none => s

/-- a program, from scratch (helpers.py:24) -/
def apiRun (ops : List ApiOp) : ApiSt := ops.foldl apiStep {}

end Bolt
