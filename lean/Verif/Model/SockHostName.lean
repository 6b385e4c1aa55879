import Verif.Model.HostName
import Verif.Model.SockListener
/-!
# The socket listener on a host whose name cannot be resolved

As `Model/HostName.lean`, for `SockBoltHandler.handle` (anthunder/listener/sock_listener.py).
-/
namespace Bolt

/-- `handle` with a complete frame up to the call of the method, as `SSt.serve`, except that `extract` (sock_listener.py:129)
may fail for want of a trace id; the exception ends `handle` (138-140). -/
def SSt.serveN (svc : Services) (s : SSt) (fresh : Option PyStr) (h : ReqHdr) (cn : Bytes) (d : PyDict PyStr PyStr)
    (body : Bytes) : SSt :=
  if h.cmdcode = CmdCode.heartbeat.code then s.send (heartbeatMsg h.requestId)
  else if h.cmdcode = CmdCode.response.code then s.finish
  else if cn ≠ pyb "com.alipay.sofa.rpc.core.request.SofaRequest" then s.finish
  else
    match serviceOf d with
    | none => s.send (failMsg h.requestId .clientSendError)
    | some service =>
      match methodOf d with
      | none => s.send (failMsg h.requestId .clientSendError)
      | some method =>
        match extractN s.heap fresh d with
        | .error _ => s.finish
        | .ok (heap, ctx) =>
          let s := { s with heap := heap }
          match findMethod svc s.reg heap ctx service method with
          | .error _ => s.finish
          | .ok func =>
            { s with phase := .calling h.requestId,
                     calls := s.calls ++ [({ func := func, body := body, ctx := ctx, heap := heap, reg := s.reg } : SCall)] }

/-- The thread runs while the name of the host cannot be resolved (sock_listener.py:91-131); the name is asked for in `extract`
only, that is after the last part of the request was read (101). -/
def SSt.handlerN (svc : Services) (s : SSt) : SSt :=
  match s.phase with
  | .body h cn d => s.readexactly h.contentLen.toNat fun s bs => s.serveN svc none h cn d bs
  | _ => s.handler svc []

/-- Events of a connection: those of `SEv`, and a turn of the thread while the name of the host cannot be resolved
(sock_listener.py:91-131). -/
inductive SNEv where
  | ev (e : SEv)
  | nameless
  deriving DecidableEq, Repr

/-- One event (sock_listener.py:46-140). -/
def snstep (svc : Services) (s : SSt) : SNEv → SSt
  | .ev e => sstep svc s e
  | .nameless => s.handlerN svc

/-- a schedule on a new connection (sock_listener.py:150) -/
def snrun (svc : Services) (reg : Registry) (evs : List SNEv) : SSt := evs.foldl (snstep svc) ({ reg := reg } : SSt)

end Bolt
