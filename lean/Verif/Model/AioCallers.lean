import Verif.Model.AioClient
/-!
# The callers of the asyncio client (`anthunder/client/aio_client.py:74-119`)

`Verif.Model.AioClient` has the coroutines on the event loop. Here are the threads that call the client: they build a
request, submit `invoke(pkg)` with `run_coroutine_threadsafe`, and look at the `concurrent.futures.Future` they get.

From the standard library: the future takes over the outcome of the coroutine once it has ended, unless the future has
been cancelled before; then the functions added with `add_done_callback` run, once, and exceptions they raise are
logged. A coroutine that ends with `CancelledError` cancels the future. `Future.result(t)` raises `TimeoutError` when the
future is still pending after `t` seconds, and leaves it pending. When the time runs out is up to the environment.
-/
namespace Bolt

/-- the state of a `concurrent.futures.Future` (of `run_coroutine_threadsafe`, aio_client.py:77, 84, 100) -/
inductive CFutSt where
  | pending
  | finished (r : CallRes)
  | cancelled
  deriving DecidableEq, Repr

/-- which method was called; `async cb` says whether a callable callback was given (aio_client.py:101) -/
inductive CallerKind where
  | oneway
  | sync
  | async (cb : Bool)
  deriving DecidableEq, Repr

/-- the kind of request that is built (aio_client.py:74-76, 82-83, 98-99) -/
def CallerKind.request : CallerKind → AKind
  | .oneway => .oneway
  | .sync => .sync
  | .async _ => .async

/-- A call of one of the three methods. `call` is the number of the coroutine (none if there is no coroutine since the
request could not be built); `out` is what the method returned (`none` inside stands for a return value that is no
content: `None`, or the future) or raised, once it has; `cbs` are the arguments with which the callback was called
(aio_client.py:74-104). -/
structure Caller where
  kind : CallerKind
  args : CallArgs
  call : Option Nat
  fut : CFutSt := .pending
  out : Option (Except PyExc (Option PyObj)) := none
  cbs : List PyObj := []

/-- the client and its callers (aio_client.py:51-58 and 74-119) -/
structure CallersSt where
  cli : ASt := {}
  callers : List Caller := []

/-- The user calls one of the methods, the coroutine of the call ends, the thread in `fut.result` is resumed or gives
up (aio_client.py:86), the user cancels the future (104), or something happens on the loop. -/
inductive CallersEv where
  /-- a thread calls a method -/
  | invoke (k : CallerKind) (a : CallArgs)
  /-- something happens on the event loop (or a coroutine is submitted by somebody else, e.g. a heartbeat) -/
  | loop (e : AEv)
  /-- the outcome of the coroutine is copied to the future -/
  | settle (j : Nat)
  /-- the user cancels the future returned by `invoke_async` -/
  | cancel (j : Nat)
  /-- `fut.result` (aio_client.py:86) returns or raises what the future has -/
  | give (j : Nat)
  /-- `fut.result` (aio_client.py:86) gives up -/
  | timeout (j : Nat)

/-- `isinstance(timeout_ms, (int, float))` (aio_client.py:81); a float is an `obj` here, as in `TimeoutArg.obj`. -/
def isNumber : PyObj → Bool
  | .int _ | .obj _ => true
  | _ => false

/-- `timeout_ms / 1000 if timeout_ms else None` (aio_client.py:102) raises no `TypeError` -/
def divides (t : PyObj) : Bool := !t.truthy || isNumber t

/-- `invoke_oneway`, `invoke_sync`, `invoke_async` up to the submission of the coroutine (aio_client.py:74-77, 79-84,
92-104). What goes wrong in building the request is raised to the caller; so is the `TypeError` of line 102, after the
coroutine was submitted and before the callback is added. -/
def CallersSt.invoke (v : PyVer) (s : CallersSt) (k : CallerKind) (a : CallArgs) : CallersSt :=
  if k = .sync ∧ isNumber a.timeout = false then
    { s with callers := s.callers ++ [{ kind := k, args := a, call := none, out := some (.error .assertionError) }] }
  else match aioRequest a k.request with
    | .error e => { s with callers := s.callers ++ [{ kind := k, args := a, call := none, out := some (.error e) }] }
    | .ok p =>
      { cli := astep v s.cli (.call p)
        callers := s.callers ++ [{ kind := k, args := a, call := some s.cli.calls.length,
                                   out := if k = .sync then none
                                          else if k = .async true ∧ divides a.timeout = false then some (.error .typeError)
                                          else some (.ok none) }] }

/-- a callback was added to the future (aio_client.py:101-102) -/
def Caller.hasCallback (c : Caller) : Bool := c.kind = .async true ∧ divides c.args.timeout = true

/-- `_inner` of `callback_wrapper` (aio_client.py:110-117), run when the future is done -/
def Caller.runCallback (c : Caller) (r : CallRes) : Caller :=
  if c.hasCallback then
    match callbackArg r with
    | some x => { c with cbs := c.cbs ++ [x] }
    | none => c
  else c

/-- the future takes over how the coroutine ended (aio_client.py:84, 100, 102, 112-117) -/
def Caller.settle (c : Caller) (r : CallRes) : Caller :=
  match c.fut with
  | .pending =>
    if r = .raised .cancelledError then { c with fut := .cancelled }.runCallback r
    else { c with fut := .finished r }.runCallback r
  | _ => c

/-- what `fut.result(...)` and then `ret.content` (aio_client.py:86-90) give once the future is done -/
def CFutSt.result : CFutSt → Option (Except PyExc PyObj)
  | .pending => none
  | .finished r => some (syncResult r)
  | .cancelled => some (.error .cancelledError)

/-- the thread in `fut.result` goes on (aio_client.py:86-90) -/
def Caller.give (c : Caller) : Caller :=
  if c.kind = .sync ∧ c.out.isNone then
    match c.fut.result with
    | some (.ok x) => { c with out := some (.ok (some x)) }
    | some (.error e) => { c with out := some (.error e) }
    | none => c
  else c

/-- the thread in `fut.result` runs out of time (aio_client.py:87-89): the exception is logged and raised again; the
coroutine is not cancelled. -/
def Caller.giveUp (c : Caller) : Caller :=
  if c.kind = .sync ∧ c.out.isNone ∧ c.fut = .pending ∧ c.call.isSome then
    { c with out := some (.error .timeoutError) }
  else c

/-- the user cancels the future that was returned; the callback sees a cancelled future
(aio_client.py:103-104, 114-116) -/
def Caller.cancel (c : Caller) : Caller :=
  match c.kind, c.fut with
  | .async _, .pending =>
    if c.call.isSome ∧ c.out = some (.ok none) then { c with fut := .cancelled }.runCallback (.raised .cancelledError) else c
  | _, _ => c

/-- One event; events that cannot happen change nothing (aio_client.py:74-119). -/
def callersStep (v : PyVer) (s : CallersSt) : CallersEv → CallersSt
  | .invoke k a => s.invoke v k a
  | .loop e => { s with cli := astep v s.cli e }
  | .settle j =>
    match s.callers[j]? with
    | some c =>
      match c.call.bind fun i => s.cli.calls[i]? with
      | some d =>
        match d.pc with
        | .done r => { s with callers := s.callers.set j (c.settle r) }
        | _ => s
      | none => s
    | none => s
  | .cancel j => { s with callers := s.callers.modify j Caller.cancel }
  | .give j => { s with callers := s.callers.modify j Caller.give }
  | .timeout j => { s with callers := s.callers.modify j Caller.giveUp }

/-- a history of a new client (aio_client.py:51-58) -/
def callersRun (v : PyVer) (evs : List CallersEv) : CallersSt := evs.foldl (callersStep v) {}

end Bolt
