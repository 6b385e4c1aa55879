import Verif.Model.SyncClient
/-!
# How long `invoke_sync` of the synchronous client waits (`anthunder/client/client.py:111-133`)

`Model/SyncClient.lean` has the rounds of the receiving loop without time. Here is the time: `select` waits in real time,
its argument is computed from `time.time()`, the clock of the system, which may be set while a call waits. Times are in
milliseconds. Simplification: arithmetic on times is exact.
-/
namespace Bolt

/-- The receiving loop at a moment of real time (client.py:117-133). -/
structure WaitSt where
  now : Int
  recv : RecvSt

/-- A round: the time that passes before `select` is called, and what becomes ready how long after that, if anything:
`recv` returns up to `n + 1` bytes, or raises (client.py:123-129). -/
structure WaitRound where
  before : Nat
  ready : Option (Nat × Except PyExc Nat)
  deriving DecidableEq, Repr

/-- what `recv` does, as an event of the loop (client.py:129) -/
def readyEv : Except PyExc Nat → RecvEv
  | .ok n => .recv n
  | .error e => .fail e

/-- `sel.select(timeout=deadline - time.time())` called at real time `t`: how long it waits at most; a timeout that is not
positive means that it does not wait (client.py:123). `wall` is what `time.time()` shows. -/
def patience (wall : Int → Int) (deadline t : Int) : Int := max 0 (deadline - wall t)

/-- one round (client.py:122-129) -/
def waitStep (wall : Int → Int) (deadline reqId : Int) (s : WaitSt) (r : WaitRound) : WaitSt :=
  if s.recv.out.isSome then s
  else
    let t := s.now + r.before
    let p := patience wall deadline t
    match r.ready with
    | none => { now := t + p, recv := recvStep reqId s.recv .timeout }
    | some (d, x) =>
      if (d : Int) ≤ p then { now := t + d, recv := recvStep reqId s.recv (readyEv x) }
      else { now := t + p, recv := recvStep reqId s.recv .timeout }

/-- the deadline of a call that begins at real time `t0` (client.py:114) -/
def syncDeadline (wall : Int → Int) (t0 timeout : Int) : Int := wall t0 + timeout + 1000

/-- `invoke_sync` from the moment `t0` at which it computes the deadline; the time that sending takes is part of the first
round (client.py:114-133) -/
def syncWait (wall : Int → Int) (t0 timeout reqId : Int) (stream : Bytes) (rs : List WaitRound) : WaitSt :=
  rs.foldl (waitStep wall (syncDeadline wall t0 timeout) reqId) { now := t0, recv := { rest := stream } }

end Bolt
