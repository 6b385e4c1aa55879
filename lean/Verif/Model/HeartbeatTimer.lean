import Verif.Model.AioClient
/-!
# The heartbeat timer of the asyncio client (`anthunder/client/aio_client.py:67-70, 121-143`)

In `Model/AioClient.lean` heartbeats are calls among others. Here is the coroutine that makes them, beside everything else
that happens to the client. The coroutine awaits `invoke` directly; that it goes on when the call is over is a separate
event here (`look`), so that other things may happen in between, as they do between any two turns of the loop.
-/
namespace Bolt

/-- Where the coroutine is: in `asyncio.sleep` until some time (124), in `invoke` (136), or left with an exception, which
nobody looks at (70) (of aio_client.py). -/
inductive BeatTimer where
  | asleep (till : Nat)
  | waiting (i : Nat)
  | over (e : PyExc)
  deriving DecidableEq, Repr

/-- `interval=30` in milliseconds (aio_client.py:121) -/
def beatInterval : Nat := 30000

/-- The client and its timer; `log` (what has happened to the client) and `beats` (when heartbeats were sent, and as which
call) are ghosts (aio_client.py:51-73, 121-125). -/
structure BeatSt where
  cli : ASt := {}
  clock : Nat := 0
  timer : BeatTimer := .asleep beatInterval
  log : List AEv := []
  beats : List (Nat × Nat) := []

/-- What happens: something on the client, time passes, the sleep is over and the next heartbeat is made (its id is the next
one of `RequestId`), the coroutine goes on after its call (aio_client.py:121-143). -/
inductive BeatEv where
  | loop (e : AEv)
  | tick (d : Nat)
  | beat (id : Int)
  | look
  deriving DecidableEq, Repr

/-- one event; events that cannot happen change nothing (aio_client.py:121-143) -/
def beatStep (v : PyVer) (s : BeatSt) : BeatEv → BeatSt
  | .loop e => { s with cli := astep v s.cli e, log := s.log ++ [e] }
  | .tick d => { s with clock := s.clock + d }
  | .beat id =>
    match s.timer with
    | .asleep till =>
      if till ≤ s.clock then
        match heartbeatRequest id with
        | .error e => { s with timer := .over e }
        | .ok p => { s with cli := astep v s.cli (.call p), log := s.log ++ [.call p], timer := .waiting s.cli.calls.length,
                            beats := s.beats ++ [(s.clock, s.cli.calls.length)] }
      else s
    | _ => s
  | .look =>
    match s.timer with
    | .waiting i =>
      match s.cli.calls[i]? with
      | some c =>
        match c.pc with
        | .done r =>
          match heartbeatResult c.req r with
          | .ok _ => { s with timer := .asleep (s.clock + beatInterval) }
          | .error e => { s with timer := .over e }
        | _ => s
      | none => s
    | _ => s

/-- a history of a client that has found a mesh (aio_client.py:67-70) -/
def beatRun (v : PyVer) (evs : List BeatEv) : BeatSt := evs.foldl (beatStep v) {}

end Bolt
