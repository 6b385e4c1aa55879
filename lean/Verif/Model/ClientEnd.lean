import Verif.Model.AioClient
/-!
# The end of a process that has an asyncio client

The loop of the client runs in a daemon thread (aio_client.py:61-66): when the main thread has ended, the interpreter does not
wait for it, and nothing in the package is run at the end of the process. `invoke_oneway` and `invoke_async` return as soon as
they have asked the loop to run `invoke` (aio_client.py:74-77, 92-104); `invoke_sync` waits for the result (85-90).

Simplifications. Only the main thread makes calls. Other threads that are not daemons can only make the end later (`ends` is an
event of the schedule that is possible from some time on). Bytes that have been given to a transport count as sent, though
the transport may still hold them when the process ends.
-/
namespace Bolt

/-- The client; the call for whose result the main thread waits (aio_client.py:86); the calls of `invoke_sync` whose waiting is
over, with the result, `none` for a `TimeoutError` (86-89); whether the process is over. -/
structure CEndSt where
  cli : ASt := {}
  blocked : Option Nat := none
  rets : List (Nat × Option CallRes) := []
  over : Bool := false
  deriving DecidableEq, Repr

/-- Events: `invoke_oneway` or `invoke_async` (aio_client.py:74-77, 92-104); `invoke_sync` as far as `fut.result` (80-86);
`fut.result` returns or raises what `invoke` did (86); it times out (86-89); something happens in the loop (145-260), or to its
connections; the main thread ends, and with it the process (65). -/
inductive CEndEv where
  | post (req : Pkg)
  | sync (req : Pkg)
  | result
  | timeout
  | ev (e : AEv)
  | ends
  deriving DecidableEq, Repr

/-- One event (aio_client.py:60-104). The main thread does one thing at a time; a process that is over does nothing. -/
def cendStep (v : PyVer) (s : CEndSt) (e : CEndEv) : CEndSt :=
  if s.over then s
  else match e with
    | .post req => if s.blocked = none then { s with cli := astep v s.cli (.call req) } else s
    | .sync req =>
      if s.blocked = none then { s with cli := astep v s.cli (.call req), blocked := some s.cli.calls.length } else s
    | .result =>
      match s.blocked with
      | none => s
      | some i =>
        match s.cli.calls[i]?.map ACall.pc with
        | some (.done r) => { s with blocked := none, rets := s.rets ++ [(i, some r)] }
        | _ => s
    | .timeout =>
      match s.blocked with
      | none => s
      | some i => { s with blocked := none, rets := s.rets ++ [(i, none)] }
    | .ev (.call _) => s
    | .ev e => { s with cli := astep v s.cli e }
    | .ends => if s.blocked = none then { s with over := true } else s

/-- a schedule of a new process (aio_client.py:51-66) -/
def cendRun (v : PyVer) (evs : List CEndEv) : CEndSt := evs.foldl (cendStep v) {}

end Bolt
