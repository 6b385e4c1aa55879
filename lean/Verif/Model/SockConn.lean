import Verif.Model.SyncClient
/-!
# Model of `mysockpool/connection.py`, `_wait.py` and `utils.py`

`SocketConnection.recvexactly`, waiting for sockets, and the test whether a connection has been dropped. The kernel
is an environment: how the peer's bytes are cut into `recv` results, which sockets are ready.
-/
namespace Bolt

/-- State of `recvexactly` (connection.py:68-76): what has been written into `buf`, the peer's bytes not read yet, the
outcome once the call has ended. The variable `read` is the length of `buf`. -/
structure ExactSt where
  buf : Bytes := []
  rest : Bytes
  out : Option (Except PyExc Bytes) := none
  deriving DecidableEq, Repr

/-- the loop test, and the return when it fails (connection.py:71, 76) -/
def exactTest (size : Int) (s : ExactSt) : ExactSt :=
  if (s.buf.length : Int) < size then s else { s with out := some (.ok s.buf) }

/-- One round of the loop (connection.py:71-75). `wait_for_read` has no timeout here: a round is made when the socket is
readable, that is, when there are bytes or the peer has closed (then `recv` gives `b''`); `fail` is an exception of
`wait_for_read` or `recv`. -/
def exactStep (size : Int) (s : ExactSt) (ev : RecvEv) : ExactSt :=
  if s.out.isSome then s
  else match ev with
    | .timeout => s
    | .fail e => { s with out := some (.error e) }
    | .recv n =>
      let chunk := s.rest.take (min (n + 1) (size - s.buf.length).toNat)
      exactTest size { s with buf := s.buf ++ chunk, rest := s.rest.drop chunk.length }

/-- `recvexactly(size)` (connection.py:68-76) on a connection from which the bytes `stream` can be read -/
def exactRun (size : Int) (stream : Bytes) (evs : List RecvEv) : ExactSt :=
  evs.foldl (exactStep size) (exactTest size { rest := stream })

/-! ## Waiting -/

/-- A socket object as the selector sees it: its file descriptor, whether it has been closed, what it is ready for
(`EPOLLHUP` and `EPOLLERR` count as both, selectors.py). -/
structure Sock where
  fd : Nat
  closed : Bool := false
  readable : Bool := false
  writable : Bool := false
  deriving DecidableEq, Repr

/-- `EVENT_READ` and `EVENT_WRITE`; the code waits for one of them at a time (_wait.py:57, 64) -/
inductive IoEvent where
  | read
  | write
  deriving DecidableEq, Repr

/-- whether the selector reports the socket for this event (mysockpool/_wait.py:49-50) -/
def Sock.ready (s : Sock) : IoEvent → Bool
  | .read => s.readable
  | .write => s.writable

/-- The argument `socks` (_wait.py:36-42): something with a `fileno`, a list or other iterable, or neither. -/
inductive WaitArg where
  | one (s : Sock)
  | many (l : List Sock)
  | other
  deriving DecidableEq, Repr

/-- `selector.register` (_wait.py:44-48): a closed socket has no valid descriptor (ValueError), a descriptor cannot be
registered twice (KeyError); both become `SocketValueError`. `seen` are the descriptors registered so far. -/
def registerAll : List Nat → List Sock → Except PyExc Unit
  | _, [] => .ok ()
  | seen, s :: rest =>
    if s.closed then .error .socketValueError
    else if seen.contains s.fd then .error .socketValueError
    else registerAll (s.fd :: seen) rest

/-- `_wait_for_io_events` (_wait.py:32-50) when the sockets are as given; `poll` means that a timeout is given and has
run out. Without one, `select` returns when some socket is ready (`hang` until then). The sockets come in the order in
which they were registered (epoll promises no order). -/
def waitForIo (arg : WaitArg) (ev : IoEvent) (poll : Bool) : Res (List Sock) :=
  match arg with
  | .other => .raise .typeError
  | .one s =>
    match registerAll [] [s] with
    | .error e => .raise e
    | .ok _ => if s.ready ev || poll then .ok ([s].filter fun s => s.ready ev) else .hang
  | .many l =>
    match registerAll [] l with
    | .error e => .raise e
    | .ok _ =>
      if (l.filter fun s => s.ready ev).isEmpty && !poll then .hang else .ok (l.filter fun s => s.ready ev)

/-- the attribute `sock` of a connection object: missing, `None`, or a socket (utils.py:36-40) -/
inductive SockAttr where
  | missing
  | none
  | sock (s : Sock)
  deriving DecidableEq, Repr

/-- `is_connection_dropped` (utils.py:26-45): `wait_for_read(sock, timeout=0.0)`; any exception means dropped. -/
def isConnectionDropped : SockAttr → Bool
  | .missing => false
  | .none => true
  | .sock s =>
    match waitForIo (.one s) .read true with
    | .ok l => !l.isEmpty
    | _ => true

end Bolt
