import Verif.Model.ClientEnd
/-!
# An asyncio client in a process made by `fork`

`AioClient.__init__` starts the thread of the loop (aio_client.py:57, 60-72). A process made by `fork` has a copy of the client, but
of the threads only the one that called `fork`: the loop of the copy is not run by any thread. `run_coroutine_threadsafe`
(aio_client.py:77, 84, 100) does not notice; it puts the coroutine on the list of a loop that still counts as running.

Simplifications. As in `Model/ClientEnd.lean` there is one thread that makes calls, the one that called `fork`. What comes in on
the connections is left to the parent, which shares them. The byte that wakes the loop goes to the parent as well, where it has
no effect.
-/
namespace Bolt

/-- the child right after `fork`: a copy of the client (aio_client.py:51-58) -/
def forkOf (s : CEndSt) : CEndSt := { cli := s.cli }

/-- One event in the child (aio_client.py:74-104); no thread runs the loop (62-65), so nothing happens there. -/
def forkedStep (v : PyVer) (s : CEndSt) : CEndEv → CEndSt
  | .ev _ => s
  | e => cendStep v s e

/-- a schedule of the child of a process that has had the schedule `evs` (aio_client.py:51-104) -/
def forkedRun (v : PyVer) (evs cevs : List CEndEv) : CEndSt := cevs.foldl (forkedStep v) (forkOf (cendRun v evs))

end Bolt
