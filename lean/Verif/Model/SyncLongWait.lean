import Verif.Model.SyncWait
/-!
# How long `select` can wait at all (`anthunder/client/client.py:117-133`)

`DefaultSelector` is `EpollSelector` on Linux; `epoll.poll` takes its timeout as a C int of milliseconds and raises
OverflowError for anything larger. `Model/SyncWait.lean` has a `select` that takes every timeout. OverflowError is
`PyExc.other`. It leaves the connection open: no code closes it (only a timeout does, 126) and none gives it back to its pool
(134).

Simplification: the rounding of the timeout in `EpollSelector.select` is left out (times are whole milliseconds).
-/
namespace Bolt

/-- the largest C int: what `epoll.poll` takes (called in client.py:123) -/
def selectMax : Int := 2147483647

/-- one round: `select` may refuse its timeout (client.py:122-129) -/
def longWaitStep (wall : Int → Int) (deadline reqId : Int) (s : WaitSt) (r : WaitRound) : WaitSt :=
  if s.recv.out.isSome then s
  else if selectMax < patience wall deadline (s.now + r.before) then
    { now := s.now + r.before, recv := recvStep reqId s.recv (.fail .other) }
  else waitStep wall deadline reqId s r

/-- `invoke_sync` from the moment `t0` at which it computes the deadline (client.py:114-133) -/
def longWait (wall : Int → Int) (t0 timeout reqId : Int) (stream : Bytes) (rs : List WaitRound) : WaitSt :=
  rs.foldl (longWaitStep wall (syncDeadline wall t0 timeout) reqId) { now := t0, recv := { rest := stream } }

end Bolt
