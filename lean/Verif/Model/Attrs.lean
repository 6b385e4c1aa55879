import Verif.Model.AioListener
/-!
# Model of the attribute lookup by which a request names what is called

Both handlers take what they call from `getattr(svc_obj, method)` (anthunder/listener/aio_listener.py:69,
anthunder/listener/sock_listener.py:55), where `method` comes from the header of the request. `Services.getattr` leaves
open what that gives. Here it is what Python's `object.__getattribute__` does: the classes of the object are searched in
method resolution order, `object` last; a property decides alone; otherwise an attribute of the object itself goes first;
a function becomes a method bound to the object.

Simplifications. No class of a service defines `__getattr__`, `__getattribute__`, `__slots__` or descriptors of its own
other than functions, static methods, class methods and properties. Values are numbered; functions, objects and bound
methods are values. Functions that a class defines under the names of `objectNames` (its `__init__`, say) are in the
dictionary of that class like all the others.
-/
namespace Bolt

/-- What the dictionary of a class can hold under a name (looked up by aio_listener.py:69, sock_listener.py:55). -/
inductive ClsAttr where
  | func (f : Nat)
  | static (f : Nat)
  | classm (f : Nat)
  | prop (g : Nat)
  | value (v : Nat)
  deriving DecidableEq, Repr

/-- The user's code, with the objects that it makes (`ServiceCls(spanctx)`, aio_listener.py:68, sock_listener.py:54).
`dict o` is `o.__dict__`; `mro o` are the dictionaries of the classes of `type(o).__mro__`, without that of `object`;
`method f o` and `clsMethod f o` are the function `f` bound to `o` and to its class; `getter g o` is what the property
function `g` returns or raises; `builtin o n` is what `object` and `type` give for the name `n`. -/
structure PyProg where
  construct : Nat → Heap → Baggage → List PyObj → PyDict PyStr PyObj → Except PyExc Nat
  dict : Nat → PyDict PyStr Nat
  mro : Nat → List (PyDict PyStr ClsAttr)
  method : Nat → Nat → Nat
  clsMethod : Nat → Nat → Nat
  getter : Nat → Nat → Except PyExc Nat
  builtin : Nat → PyStr → Nat

/-- Names that are data descriptors of `object` or of every class made by a `class` statement: they go before the
attributes of the object itself (`getattr` in aio_listener.py:69, sock_listener.py:55). -/
def dataNames : List PyStr := [py "__class__", py "__dict__", py "__weakref__"]

/-- Names that every object of a class made by a `class` statement has, since `object` or the `class` statement defines
them (Python 3.5-3.7, setup.py:75-77; `getattr` in aio_listener.py:69, sock_listener.py:55). -/
def objectNames : List PyStr :=
  dataNames ++ [py "__module__", py "__doc__", py "__delattr__", py "__dir__", py "__eq__", py "__format__", py "__ge__",
    py "__getattribute__", py "__gt__", py "__hash__", py "__init__", py "__init_subclass__", py "__le__", py "__lt__",
    py "__ne__", py "__new__", py "__reduce__", py "__reduce_ex__", py "__repr__", py "__setattr__", py "__sizeof__",
    py "__str__", py "__subclasshook__"]

/-- the search through the classes, up to `object` (aio_listener.py:69, sock_listener.py:55) -/
def PyProg.classAttr (p : PyProg) (o : Nat) (name : PyStr) : Option ClsAttr :=
  (p.mro o).findSome? fun d => PyDict.get? d name

/-- `getattr(svc_obj, method)` (aio_listener.py:69, sock_listener.py:55) -/
def PyProg.getattr (p : PyProg) (o : Nat) (name : PyStr) : Except PyExc Nat :=
  match p.classAttr o name with
  | some (.prop g) => p.getter g o
  | some (.func f) => .ok ((PyDict.get? (p.dict o) name).getD (p.method f o))
  | some (.static f) => .ok ((PyDict.get? (p.dict o) name).getD f)
  | some (.classm f) => .ok ((PyDict.get? (p.dict o) name).getD (p.clsMethod f o))
  | some (.value v) => .ok ((PyDict.get? (p.dict o) name).getD v)
  | none =>
    if name ∈ dataNames then .ok (p.builtin o name)
    else
      match PyDict.get? (p.dict o) name with
      | some v => .ok v
      | none => if name ∈ objectNames then .ok (p.builtin o name) else .error .attributeError

/-- the program as the handlers see it (aio_listener.py:67-74, sock_listener.py:53-60) -/
def PyProg.services (p : PyProg) : Services := ⟨p.construct, p.getattr⟩

/-- The attributes of `object` and of a class are called with one argument, the body (`func(body)`, aio_listener.py:74,
sock_listener.py:60). What can come of it: `__class__` makes another object or raises whatever the constructor raises;
`object.__init__` returns None; the comparisons and `__subclasshook__` return `NotImplemented`, which is true; all others
raise a TypeError, since they take another number or type of arguments, or cannot be called at all. Simplification: no
service class is a subclass of `bytes`. -/
def builtinCall (name : PyStr) (r : Outcome) : Prop :=
  if name = py "__class__" then (∃ e, r = .raised e) ∨ ∃ t, r = .ret (.obj t)
  else if name = py "__init__" then r = .ret .none ∨ r = .raised .typeError
  else if name ∈ [py "__eq__", py "__ne__", py "__ge__", py "__gt__", py "__le__", py "__lt__", py "__subclasshook__"] then
    r = .ret (.obj true)
  else r = .raised .typeError

end Bolt
