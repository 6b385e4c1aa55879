import Verif.Model.Py
/-!
# Starting and stopping the listeners, by threads of the application

One step of a thread is one access to shared state. `run_threading` (listener/base_listener.py:111-113) starts a thread that
calls `run_forever`.
-/
namespace Bolt

/-! ## `AioListener.run_forever` and `shutdown` (listener/aio_listener.py:108-121) -/

/-- Where the thread in `run_forever` is (aio_listener.py:108-114). -/
inductive ARun where
  | idle
  | start      -- 111-112: `start_server` under way
  | assign     -- 112: the server listens, `self._server` is not set yet
  | loop       -- 114
  | raised     -- `start_server` failed (112)
  deriving DecidableEq, Repr

/-- Where a thread in `shutdown` is (aio_listener.py:116-121). -/
inductive AStop where
  | idle
  | check      -- 119
  | close      -- 120
  | submit     -- 121
  | returned
  deriving DecidableEq, Repr

/-- `listening`: the server socket is open; `known`: `self._server` is set; `accepted` counts connections
(aio_listener.py:100-121). -/
structure ALife where
  listening : Bool := false
  known : Bool := false
  run : ARun := .idle
  stop : List AStop
  accepted : Nat := 0
  deriving DecidableEq, Repr

/-- `connect`: a client connects (the others are the statements of aio_listener.py:108-121). -/
inductive ALifeEv where
  | run
  | runStep (bound : Bool)
  | stop (i : Nat)
  | stopStep (i : Nat)
  | connect
  deriving DecidableEq, Repr

/-- One event. The loop object of line 119 is always true; the loop is never stopped (nothing calls `loop.stop`).
Simplifications: `run_forever` is called by one thread, each thread calls `shutdown` once (aio_listener.py:108-121). -/
def aLifeStep (s : ALife) : ALifeEv → ALife
  | .run => if s.run = .idle then { s with run := .start } else s
  | .runStep bound =>
    match s.run with
    | .start => if bound then { s with listening := true, run := .assign } else { s with run := .raised }
    | .assign => { s with known := true, run := .loop }
    | _ => s
  | .stop i => if s.stop[i]? = some .idle then { s with stop := s.stop.set i .check } else s
  | .stopStep i =>
    match s.stop[i]? with
    | some .check => { s with stop := s.stop.set i (if s.known then .close else .returned) }
    | some .close => { s with listening := false, stop := s.stop.set i .submit }
    | some .submit => { s with stop := s.stop.set i .returned }
    | _ => s
  | .connect => if s.listening then { s with accepted := s.accepted + 1 } else s

/-- `n` threads that may call `shutdown` (aio_listener.py:100-106) -/
def aLifeRun (n : Nat) (evs : List ALifeEv) : ALife := evs.foldl aLifeStep { stop := List.replicate n .idle }

/-! ## `SockListener.run_forever` and `shutdown` (listener/sock_listener.py:143-156) -/

/-- Where the thread in `run_forever` is: `BaseServer.serve_forever` of the standard library's socketserver
(sock_listener.py:152-153). -/
inductive SRun where
  | idle
  | clear      -- `__is_shut_down.clear()`
  | check      -- `while not self.__shutdown_request`
  | select     -- `selector.select(...)` and, if a client is waiting, `_handle_request_noblock`
  | reset      -- `self.__shutdown_request = False`
  | set        -- `__is_shut_down.set()`
  deriving DecidableEq, Repr

/-- Where a thread in `shutdown` is: `BaseServer.shutdown` (sock_listener.py:155-156). -/
inductive SStop where
  | idle
  | req        -- `self.__shutdown_request = True`
  | wait       -- `__is_shut_down.wait()`
  | returned
  deriving DecidableEq, Repr

/-- `waiting`: clients that are connected (by the kernel: the socket listens from the constructor of the listener on,
sock_listener.py:150, and is never closed) and not accepted; `accepted` counts the others. -/
structure SLife where
  request : Bool := false
  shut : Bool := false
  run : SRun := .idle
  stop : List SStop
  waiting : Nat := 0
  accepted : Nat := 0
  deriving DecidableEq, Repr

/-- What the threads in `run_forever` and `shutdown` (sock_listener.py:152-156) do, and a client that connects. -/
inductive SLifeEv where
  | run
  | runStep
  | stop (i : Nat)
  | stopStep (i : Nat)
  | connect
  deriving DecidableEq, Repr

/-- One event. `recheck`: whether `serve_forever` looks at the request again after `select` (Python 3.6.8, 3.7.2 and later).
Simplifications: one thread calls `run_forever` at a time, each thread calls `shutdown` once; the length of the kernel's
queue is not limited (sock_listener.py:152-156). -/
def sLifeStep (recheck : Bool) (s : SLife) : SLifeEv → SLife
  | .run => if s.run = .idle then { s with run := .clear } else s
  | .runStep =>
    match s.run with
    | .idle => s
    | .clear => { s with shut := false, run := .check }
    | .check => { s with run := if s.request then .reset else .select }
    | .select =>
      if recheck && s.request then { s with run := .reset }
      else if s.waiting > 0 then { s with waiting := s.waiting - 1, accepted := s.accepted + 1, run := .check }
      else { s with run := .check }
    | .reset => { s with request := false, run := .set }
    | .set => { s with shut := true, run := .idle }
  | .stop i => if s.stop[i]? = some .idle then { s with stop := s.stop.set i .req } else s
  | .stopStep i =>
    match s.stop[i]? with
    | some .req => { s with request := true, stop := s.stop.set i .wait }
    | some .wait => if s.shut then { s with stop := s.stop.set i .returned } else s
    | _ => s
  | .connect => { s with waiting := s.waiting + 1 }

/-- `n` threads that may call `shutdown` (on a listener just made, sock_listener.py:146-150) -/
def sLifeRun (recheck : Bool) (n : Nat) (evs : List SLifeEv) : SLife :=
  evs.foldl (sLifeStep recheck) { stop := List.replicate n .idle }

end Bolt
