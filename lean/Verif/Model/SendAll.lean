import Verif.Model.SockConn
/-!
# Model of `SocketConnection.sendall` (mysockpool/connection.py:61-63)

`wait_for_write` and then `socket.sendall`, which hands the bytes to the operating system piece by piece. The operating
system is an environment: how much it takes each time, when it has no room, when the socket fails. `blocking` is the
argument of the constructor (connection.py:34, `setblocking` in 38), `False` by default, and the pool leaves it at that
(connection_pool.py:91).
-/
namespace Bolt

/-- What the operating system does with the next piece: it takes up to `n + 1` bytes, has no room, or fails
(connection.py:63). -/
inductive PutEv where
  | took (n : Nat)
  | full
  | fail (e : PyExc)
  deriving DecidableEq, Repr

/-- State of `sendall` (connection.py:61-63): what the operating system has taken, what is left, the outcome once the call
has ended. -/
structure PutSt where
  sent : Bytes := []
  rest : Bytes
  out : Option (Except PyExc Unit) := none
  deriving DecidableEq, Repr

/-- One piece (`socket.sendall`, connection.py:63). Without room a blocking socket waits, one that does not block raises
BlockingIOError, whatever has been taken before. The call returns when nothing is left. -/
def putStep (blocking : Bool) (s : PutSt) (ev : PutEv) : PutSt :=
  if s.out.isSome then s
  else match ev with
    | .took n =>
      { sent := s.sent ++ s.rest.take (n + 1), rest := s.rest.drop (n + 1),
        out := if (s.rest.drop (n + 1)).isEmpty then some (.ok ()) else none }
    | .full => if blocking then s else { s with out := some (.error .other) }
    | .fail e => { s with out := some (.error e) }

/-- `conn.sendall(bytes)` (connection.py:61-63): `wait_for_write` raises or hangs, or the socket is written to -/
def sendAll (blocking : Bool) (sock : Sock) (data : Bytes) (evs : List PutEv) : PutSt :=
  match waitForIo (.one sock) .write false with
  | .raise e => { rest := data, out := some (.error e) }
  | .hang => { rest := data }
  | .ok _ => evs.foldl (putStep blocking) { rest := data }

end Bolt
