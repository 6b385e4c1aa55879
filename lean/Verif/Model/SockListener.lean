import Verif.Model.AioListener
/-!
# Model of one connection of `SockListener` (anthunder/listener/sock_listener.py)

Every connection has its own thread, which runs `SockBoltHandler.handle` once; socketserver closes the connection
when `handle` is left. A schedule is a list of events: what the peer does, the thread running up to its next blocking
operation, the service method ending, registrations by other threads.

Simplifications. `rfile` is a `BufferedReader`: `read(n)` waits until `n` bytes are there or the stream has ended.
After a connection reset every read and write raises. A write hands over the whole message. The exceptions that
`handle` re-raises (OSErrors other than ECONNRESET, lines 135-137) end up in socketserver, which logs them: the thread
ends in the same way. Exceptions that are no `Exception`, and the logging, are not modelled.
-/
namespace Bolt

/-- Where the thread is: in one of the `_readexactly` calls of `handle` (sock_listener.py:93, 98, 99, 101), in the
service method (60), or it has left `handle`. -/
inductive SPhase where
  | hdr
  | cls (h : ReqHdr)
  | shdr (h : ReqHdr) (cn : Bytes)
  | body (h : ReqHdr) (cn : Bytes) (d : PyDict PyStr PyStr)
  | calling (id : Int)
  | done
  deriving DecidableEq, Repr

/-- A call of a service method (a ghost) (sock_listener.py:60). -/
structure SCall where
  func : Nat
  body : Bytes
  ctx : Baggage
  heap : Heap
  /-- the registry in which the method was found -/
  reg : Registry
  deriving DecidableEq, Repr

/-- State of the connection. `acc` is the variable `bs` of `_readexactly`. `recvd`, `calls` and `result` (how the
call ended) are ghosts (sock_listener.py:80-140). -/
structure SSt where
  recvd : Bytes := []
  buf : Bytes := []
  acc : Bytes := []
  eof : Bool := false
  reset : Bool := false
  phase : SPhase := .hdr
  out : List Bytes := []
  calls : List SCall := []
  result : Option Outcome := none
  heap : Heap := []
  reg : Registry := []
  deriving DecidableEq, Repr

/-- `handle` is left (sock_listener.py:108, 121, 127, 133-140) -/
def SSt.finish (s : SSt) : SSt := { s with phase := .done }

/-- `wfile.write(...to_stream())`, `flush`, and the end of `handle` (106-108, 118-121, 124-127, 132-133); an exception
in building the message is logged (139) (of sock_listener.py) -/
def SSt.send (s : SSt) (m : Except PyExc Bytes) : SSt :=
  match m with
  | .ok bs => if s.reset then s.finish else { s with out := s.out ++ [bs] }.finish
  | .error _ => s.finish

/-- One turn of the loop of `_readexactly` (85-89), and if it is the last one, what follows (of sock_listener.py). -/
def SSt.readexactly (s : SSt) (n : Nat) (k : SSt → Bytes → SSt) : SSt :=
  if s.acc.length < n then
    if s.reset then s.finish
    else
      let need := n - s.acc.length
      if need ≤ s.buf.length ∨ s.eof = true then
        let bs := s.acc ++ s.buf.take need
        let s := { s with acc := bs, buf := s.buf.drop need }
        if bs.length < n then s else k { s with acc := [] } bs
      else s
  else k { s with acc := [] } s.acc

/-- Lines 103-131 (and `handle_request`, 46-58) up to the call of the method (60): `handle` with a complete frame
(all of sock_listener.py). -/
def SSt.serve (svc : Services) (s : SSt) (fresh : PyStr) (h : ReqHdr) (cn : Bytes) (d : PyDict PyStr PyStr)
    (body : Bytes) : SSt :=
  if h.cmdcode = CmdCode.heartbeat.code then s.send (heartbeatMsg h.requestId)
  else if h.cmdcode = CmdCode.response.code then s.finish
  else if cn ≠ pyb "com.alipay.sofa.rpc.core.request.SofaRequest" then s.finish
  else
    match serviceOf d with
    | none => s.send (failMsg h.requestId .clientSendError)
    | some service =>
      match methodOf d with
      | none => s.send (failMsg h.requestId .clientSendError)
      | some method =>
        match extract s.heap fresh d with
        | .error _ => s.finish
        | .ok (heap, ctx) =>
          let s := { s with heap := heap }
          match findMethod svc s.reg heap ctx service method with
          | .error _ => s.finish
          | .ok func =>
            { s with phase := .calling h.requestId,
                     calls := s.calls ++ [({ func := func, body := body, ctx := ctx, heap := heap, reg := s.reg } : SCall)] }

/-- The thread runs (`handle`, lines 91-131) up to its next blocking operation (of sock_listener.py). -/
def SSt.handler (svc : Services) (s : SSt) (fresh : PyStr) : SSt :=
  match s.phase with
  | .hdr => s.readexactly PkgClass.boltRequest.headerSize fun s bs =>
      match reqHdr bs with
      | .error _ => s.finish
      | .ok h => { s with phase := .cls h }
  | .cls h => s.readexactly h.classLen.toNat fun s bs => { s with phase := .shdr h bs }
  | .shdr h cn => s.readexactly h.headerLen.toNat fun s bs =>
      match headerFromBytes bs with
      | .error _ => s.finish
      | .ok d => { s with phase := .body h cn d }
  | .body h cn d => s.readexactly h.contentLen.toNat fun s bs => s.serve svc fresh h cn d bs
  | .calling _ => s
  | .done => s

/-- What can happen to a connection of sock_listener.py:80-140: the thread runs, the method that it calls (60) ends,
the peer sends or closes, or something is registered (62-77). -/
inductive SEv where
  | data (bs : Bytes)
  | eof
  | reset
  | handler (fresh : PyStr)
  | finish (o : Outcome)
  | register (r : Registration)
  deriving DecidableEq, Repr

/-- One event; events that cannot happen change nothing (sock_listener.py:46-140). -/
def sstep (svc : Services) (s : SSt) : SEv → SSt
  | .data bs => if s.eof then s else { s with recvd := s.recvd ++ bs, buf := s.buf ++ bs }
  | .eof => { s with eof := true }
  | .reset => { s with reset := true }
  | .handler fresh => s.handler svc fresh
  | .finish o =>
    match s.phase with
    | .calling id =>
      let s := { s with result := some o }
      match o with
      | .raised _ => s.finish
      | .ret v => s.send (resultMsg v id)
    | _ => s
  | .register r => { s with reg := registerInterface s.reg r }

/-- a schedule on a new connection (sock_listener.py:150) -/
def srun (svc : Services) (reg : Registry) (evs : List SEv) : SSt := evs.foldl (sstep svc) ({ reg := reg } : SSt)

end Bolt
