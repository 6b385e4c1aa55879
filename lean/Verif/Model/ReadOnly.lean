import Verif.Model.Tracer
/-!
# Model of the dictionaries that are meant to be read-only

Three subclasses of `dict` override `__setitem__` and no other method that changes the dictionary: `SofaHeader`
(anthunder/protocol/_sofa_header.py:89-95), the baggage of span contexts (mytracer/span_context.py:28-30) and the service
map (anthunder/helpers/immutable_dict.py:25-29). The methods of `dict` change the dictionary directly, without calling
`__setitem__`.

Simplification. Keys are strings. Operators and methods that amount to one of the operations here (`|=` for `update`,
`__init__` for `update`) are left out, as are methods that change nothing.
-/
namespace Bolt

/-- the class of a dictionary: `dict` itself, `SofaHeader` (_sofa_header.py:89), `_ImmutableDict` (span_context.py:28),
`ImmutableValueDict` (immutable_dict.py:25) -/
inductive DictClass where
  | plain
  | sofaHeader
  | baggage
  | service
  deriving DecidableEq, Repr

/-- `d[k] = v` for a dictionary of each class (_sofa_header.py:94-95, span_context.py:29-30, immutable_dict.py:26-29) -/
def dictSet {V : Type} (cls : DictClass) (d : PyDict PyStr V) (k : PyStr) (v : V) : PyDict PyStr V × Except PyExc Unit :=
  match cls with
  | .plain => (PyDict.set d k v, .ok ())
  | .sofaHeader => (d, .ok ())
  | .baggage => (d, .error .typeError)
  | .service => if PyDict.contains d k then (d, .error .keyError) else (PyDict.set d k v, .ok ())

/-- What can be done to a dictionary: the methods of `dict` that change it (those that _sofa_header.py:89-95,
span_context.py:28-30 and immutable_dict.py:25-29 inherit or, for the first, override). -/
inductive DictOp (V : Type) where
  | set (k : PyStr) (v : V)
  | update (kvs : List (PyStr × V))
  | setdefault (k : PyStr) (v : V)
  /-- `del d[k]` and `d.pop(k)` -/
  | remove (k : PyStr)
  /-- `d.pop(k, default)` -/
  | discard (k : PyStr)
  | popitem
  | clear
  deriving DecidableEq, Repr

/-- effect of one operation, and the exception if there is one (methods of `dict`, and `dictSet` for
_sofa_header.py:94-95, span_context.py:29-30, immutable_dict.py:26-29) -/
def dictStep {V : Type} (cls : DictClass) (d : PyDict PyStr V) : DictOp V → PyDict PyStr V × Except PyExc Unit
  | .set k v => dictSet cls d k v
  | .update kvs => (PyDict.update d kvs, .ok ())
  | .setdefault k v => (if PyDict.contains d k then d else PyDict.set d k v, .ok ())
  | .remove k => if PyDict.contains d k then (PyDict.erase d k, .ok ()) else (d, .error .keyError)
  | .discard k => (PyDict.erase d k, .ok ())
  | .popitem => if d = [] then (d, .error .keyError) else (d.dropLast, .ok ())
  | .clear => ([], .ok ())

/-- operations one after the other, each exception being caught (_sofa_header.py:89, span_context.py:28,
immutable_dict.py:25) -/
def dictRun {V : Type} (cls : DictClass) (d : PyDict PyStr V) (ops : List (DictOp V)) : PyDict PyStr V :=
  ops.foldl (fun d op => (dictStep cls d op).1) d

/-- the loop of `inject` (mytracer/tracer.py:133-134) on the remaining items `b`, for a carrier of any of the classes: an
exception of the assignment ends it -/
def injectLoop (cls : DictClass) (h : Heap) : Baggage → PyDict PyStr PyStr → PyDict PyStr PyStr × Except PyExc Unit
  | [], c => (c, .ok ())
  | (k, v) :: b, c =>
    match dictSet cls c (tracerPrefix ++ k) (v.toStr h) with
    | (c, .ok _) => injectLoop cls h b c
    | (c, .error e) => (c, .error e)

end Bolt
