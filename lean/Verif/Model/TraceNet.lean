import Verif.Model.Header
/-!
# Span contexts that travel between processes

Several processes use the tracer (`Model/Tracer.lean`), each with its own objects. A call puts the context into the SOFA
header of the request (`SofaHeader.build_header`, anthunder/protocol/_sofa_header.py:115-139), the bytes of which are what
travels; the listener decodes them and extracts a context (anthunder/listener/aio_listener.py:207-210 and 138,
sock_listener.py:129), which it hands to the service as `self.ctx` (base_listener.py:30-38).

Simplifications. Only the header of the request is kept (the frame around it carries it unchanged, C01). A call that
cannot be encoded sends nothing. Responses carry no context (aio_listener.py:166-171 injects it into a `dict` that is not
used; sock_listener.py:132 has nothing of the kind).
-/
namespace Bolt

/-- A request on its way: the process that sent it, the position of the context used (both ghosts), and the encoded SOFA
header (_sofa_header.py:106-139). -/
structure TMsg where
  proc : Nat
  ctx : Nat
  header : Bytes

/-- All processes, all requests sent so far, and which of them have been received: the number of the request, the process
and the position of the context extracted there (ghosts) (tracer.py:45-120, _sofa_header.py:115-139). -/
structure NetSt where
  procs : List TState
  msgs : List TMsg := []
  recvd : List (Nat × (Nat × Nat)) := []

/-- Arguments of a call that end up in the header (_sofa_header.py:116-117). -/
structure HeadArgs where
  interface : PyObj
  method : PyObj
  targetApp : PyObj := .str []
  uid : PyObj := .str []
  extra : PyDict PyStr PyObj := []

/-- What happens: process `p` uses the tracer; process `p` makes a call with its `i`-th context; request `m` is received by
process `q` (`fresh`: the trace id that would be generated)
(tracer.py:45-120; client.py:69, aio_client.py:75; aio_listener.py:138, sock_listener.py:129). -/
inductive NetOp where
  | trace (p : Nat) (o : TOp)
  | call (p i : Nat) (a : HeadArgs)
  | recv (m q : Nat) (fresh : PyStr)

/-- the SOFA header of a call (client.py:69, aio_client.py:75, 82, 98), encoded (_sofa_header.py:106-110) -/
def callHeader (s : TState) (b : Baggage) (a : HeadArgs) : Except PyExc Bytes := do
  let hd ← buildHeader s.heap b a.interface a.method a.targetApp a.uid a.extra
  headerToBytes hd

/-- One step; impossible ones change nothing (tracer.py:45-120, _sofa_header.py:98-139). -/
def netStep (w : NetSt) : NetOp → NetSt
  | .trace p o => { w with procs := w.procs.modify p fun s => tstep s o }
  | .call p i a =>
    match w.procs[p]? with
    | none => w
    | some s =>
      match s.ctxs[i]? with
      | none => w
      | some b =>
        match callHeader s b a with
        | .error _ => w
        | .ok bs => { w with msgs := w.msgs ++ [⟨p, i, bs⟩] }
  | .recv m q fresh =>
    match w.msgs[m]?, w.procs[q]? with
    | some msg, some s =>
      match headerFromBytes msg.header with
      | .error _ => w
      | .ok d =>
        match extract s.heap fresh d with
        | .error _ => w
        | .ok (h, b) =>
          { w with procs := w.procs.set q ⟨h, s.ctxs ++ [b]⟩, recvd := w.recvd ++ [(m, (q, s.ctxs.length))] }
    | _, _ => w

/-- a run of `n` new processes (helpers.py:24) -/
def netRun (n : Nat) (ops : List NetOp) : NetSt :=
  ops.foldl netStep { procs := List.replicate n ⟨[], []⟩ }

end Bolt
