import Verif.Model.Tracer
/-!
# Model of the service registries: `BaseHandler`, `register_interface`, the service lookup of both listeners

User code (service classes, their constructors, attributes and methods) is an environment: `Services`.
-/
namespace Bolt

/-- The user's code as the handlers see it. Service classes, service objects and bound methods are numbered.
`construct` is `service_cls(spanctx, *args, **kwargs)` (the heap holds the RpcId objects the context refers to),
`getattr` is `getattr(obj, name)`. What a method does when called is decided where it is called
(aio_listener.py:67-74, 90-94; sock_listener.py:54-60, 72-77). -/
structure Services where
  construct : Nat → Heap → Baggage → List PyObj → PyDict PyStr PyObj → Except PyExc Nat
  getattr : Nat → PyStr → Except PyExc Nat

/-- A value of `interface_mapping`: the class itself, or the closure `service_cls_wrapper`
(aio_listener.py:89-93, sock_listener.py:72-76). -/
inductive Factory where
  | direct (cls : Nat)
  | wrapper (cls : Nat) (args : List PyObj) (kwargs : PyDict PyStr PyObj)
  deriving DecidableEq, Repr

/-- `ServiceCls(spanctx)` (aio_listener.py:68, sock_listener.py:54) -/
def Factory.call (svc : Services) (h : Heap) (ctx : Baggage) : Factory → Except PyExc Nat
  | .direct c => svc.construct c h ctx [] []
  | .wrapper c args kwargs => svc.construct c h ctx args kwargs

/-- `interface_mapping` (base_listener.py:45) -/
abbrev Registry := PyDict PyStr Factory

/-- arguments of a `register_interface` call (aio_listener.py:78, sock_listener.py:62) -/
structure Registration where
  interface : PyStr
  cls : Nat
  args : List PyObj := []
  kwargs : PyDict PyStr PyObj := []
  deriving DecidableEq, Repr

/-- `register_interface` (aio_listener.py:78-94; sock_listener.py:62-77 has the same body without the lock). -/
def registerInterface (reg : Registry) (r : Registration) : Registry :=
  PyDict.set reg r.interface
    (if !r.args.isEmpty || !r.kwargs.isEmpty then .wrapper r.cls r.args r.kwargs else .direct r.cls)

/-- The lookup part of `handle_request` (aio_listener.py:62-72, sock_listener.py:48-58): an unknown service
(KeyError of the lookup) and an AttributeError of the constructor or of `getattr` become NoProcessorError, other
exceptions pass. Gives the bound method. -/
def findMethod (svc : Services) (reg : Registry) (h : Heap) (ctx : Baggage) (service method : PyStr) :
    Except PyExc Nat :=
  match PyDict.get? reg service with
  | none => .error .noProcessor
  | some f =>
    match (do let o ← f.call svc h ctx; svc.getattr o method) with
    | .error .attributeError => .error .noProcessor
    | r => r

/-- `x or y` on two `dict.get` results (aio_listener.py:125, sock_listener.py:116) -/
def orName (x y : Option PyStr) : Option PyStr :=
  match x with
  | some s => if s.isEmpty then y else some s
  | none => y

/-- `if not name` (aio_listener.py:126, 132): the name if it is usable -/
def usable : Option PyStr → Option PyStr
  | some s => if s.isEmpty then none else some s
  | none => none

/-- `sofa_header.get('sofa_head_target_service') or sofa_header.get('service')`, refused if empty
(aio_listener.py:125-126, sock_listener.py:116-117) -/
def serviceOf (d : PyDict PyStr PyStr) : Option PyStr :=
  usable (orName (PyDict.get? d (py "sofa_head_target_service")) (PyDict.get? d (py "service")))

/-- `sofa_header.get('sofa_head_method_name')`, refused if empty (aio_listener.py:131-132, sock_listener.py:122-123) -/
def methodOf (d : PyDict PyStr PyStr) : Option PyStr :=
  usable (PyDict.get? d (py "sofa_head_method_name"))

/-! ## Several listeners in one process -/

/-- The handlers of a process. `interface_mapping` is a class attribute of `BaseHandler` (base_listener.py:45) that
no code rebinds, so `self.interface_mapping` is the one dict `mapping` for every handler object; the handlers
themselves (`AioThreadpoolRequestHandler`, `SockServiceHandler`) are numbered. -/
structure Handlers where
  mapping : Registry := []
  count : Nat := 0
  deriving DecidableEq, Repr

/-- what users do with listeners: create one (`self.handler = self.handlerCls()`, base_listener.py:71), register on
one -/
inductive HOp where
  | newListener
  | register (i : Nat) (r : Registration)
  deriving DecidableEq, Repr

/-- A new listener makes a handler (base_listener.py:71), which shares the class attribute of base_listener.py:45;
`register_interface` assigns to it (aio_listener.py:94, sock_listener.py:77). -/
def Handlers.step (w : Handlers) : HOp → Handlers
  | .newListener => { w with count := w.count + 1 }
  | .register i r => if i < w.count then { w with mapping := registerInterface w.mapping r } else w

/-- `self.interface_mapping` of handler `i` (the class attribute of base_listener.py:45, so that `i` does not matter) -/
def Handlers.registryOf (w : Handlers) (_i : Nat) : Registry := w.mapping

/-- a history of a process in which nothing was registered yet (base_listener.py:45) -/
def Handlers.run (ops : List HOp) : Handlers := ops.foldl Handlers.step {}

end Bolt
