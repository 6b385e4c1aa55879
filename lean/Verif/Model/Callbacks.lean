import Verif.Model.AioCallers
/-!
# Callbacks of the asyncio client that use the client (`anthunder/client/aio_client.py:79-119`)

In `Model/AioCallers.lean` a callback is called and that is all. Here it is code that takes time and may call the client.
The future of `run_coroutine_threadsafe` is completed by the event loop, and `concurrent.futures` runs the functions added
with `add_done_callback` in the thread that completes the future: while a callback runs, the loop does nothing else.

A callback that is added when the future is already done runs in the thread that called `invoke_async` (`late`); what it
does is what that thread does. Simplification: callbacks that the user adds to the future returned are not modelled (they
run in the same way).
-/
namespace Bolt

/-- The client with its callers, and the thread of the loop: whether it is in a callback, and in which call of
`invoke_sync`, if any. `inside` (the calls made by callbacks on the loop's thread) is a ghost (aio_client.py:79-119). -/
structure CbSt where
  base : CallersSt := {}
  inCb : Bool := false
  busy : Option Nat := none
  inside : List Nat := []

/-- What happens: a thread does something (a method is called, a future cancelled, `fut.result` returns or gives up), the
loop runs, a future is completed, a callback calls the client, a callback returns (aio_client.py:74-119). -/
inductive CbEv where
  | invoke (k : CallerKind) (a : CallArgs)
  | cancel (j : Nat)
  | give (j : Nat)
  | timeout (j : Nat)
  | loop (e : AEv)
  | settle (j : Nat) (late : Bool)
  | cbCall (k : CallerKind) (a : CallArgs)
  | cbEnd

/-- how often the callback of call `j` has been called (aio_client.py:117) -/
def CallersSt.cbCount (s : CallersSt) (j : Nat) : Nat := ((s.callers[j]?).map fun c => c.cbs.length).getD 0

/-- call `j` is in `fut.result` (aio_client.py:86) -/
def CallersSt.inResult (s : CallersSt) (j : Nat) : Bool := ((s.callers[j]?).map fun c => c.out.isNone).getD false

/-- the thread of the loop leaves `fut.result` when the call it waits for is over (aio_client.py:86-90) -/
def CbSt.release (s : CbSt) : CbSt :=
  { s with busy := s.busy.filter fun j => s.base.inResult j }

/-- One event; events that cannot happen change nothing (aio_client.py:74-119). -/
def cbStep (v : PyVer) (s : CbSt) : CbEv → CbSt
  | .invoke k a => { s with base := callersStep v s.base (.invoke k a) }
  | .cancel j => { s with base := callersStep v s.base (.cancel j) }
  | .give j => CbSt.release { s with base := callersStep v s.base (.give j) }
  | .timeout j => CbSt.release { s with base := callersStep v s.base (.timeout j) }
  | .loop e => if s.inCb then s else { s with base := callersStep v s.base (.loop e) }
  | .settle j late =>
    if s.inCb then s
    else
      { s with base := callersStep v s.base (.settle j),
               inCb := !late && decide (s.base.cbCount j < (callersStep v s.base (.settle j)).cbCount j) }
  | .cbCall k a =>
    if s.inCb && s.busy.isNone then
      CbSt.release { s with base := callersStep v s.base (.invoke k a), busy := some s.base.callers.length,
                            inside := s.inside ++ [s.base.callers.length] }
    else s
  | .cbEnd => if s.busy.isNone then { s with inCb := false } else s

/-- a history of a new client (aio_client.py:51-58) -/
def cbRun (v : PyVer) (evs : List CbEv) : CbSt := evs.foldl (cbStep v) {}

end Bolt
