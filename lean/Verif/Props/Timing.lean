import Verif.Props.EndToEndThreads
/-!
# C181: what a call returns does not depend on the timing
-/
namespace Bolt
open Spec

/-- Whenever method `m` of interface `s` has returned bytes at this listener, they are `ans s m body`: the services are
functions of what they are asked. -/
def Spec.Computes (ans : PyStr → PyStr → Bytes → Bytes) (p : Peer) : Prop :=
  ∀ (k : Nat) (f : Fut) (ct : Bytes), p.st.futs[k]? = some f → f.st = .finished (.ret (.bytes ct)) →
    ∀ (s m : PyStr) (pre post : List LEv) (j : Nat) (fresh : PyStr), p.levs = pre ++ .run j fresh :: post →
      (match lastFor (registrations pre) s with
       | some x => serve p.svc x f.heap f.ctx m
       | none => lookup p.svc p.reg f.heap f.ctx s m) = .found f.func →
      ct = ans s m f.body

/-- C181, one run: whatever `invoke_sync` returns, or the callback is called with, is what the service computes from
interface, method and body. -/
theorem C181_determined (ans : PyStr → PyStr → Bytes → Bytes) (v : PyVer) (evs : List CallersEv)
    (hd : DistinctIds (loopOf evs)) (hm : MadeCalls evs) (peer : Nat → Peer) (hj : Joined (callersRun v evs).cli peer)
    (hans : ∀ n, Computes ans (peer n)) (j : Nat) (c : Caller) (x : PyObj) (hc : (callersRun v evs).callers[j]? = some c)
    (hx : Got c x) :
    ∃ (s m : PyStr) (body : Bytes), c.args.interface = .str s ∧ c.args.method = .str m ∧ c.args.content = .bytes body ∧
      x = .bytes (ans s m body) := by
  obtain ⟨n, k, ⟨f, ct, h1, h2, h3, h4⟩, -⟩ := got_task hd hm hj hc hx
  obtain ⟨s, m, pre, post, i, fresh, e1, e2, e3, e4⟩ := h4.target
  refine ⟨s, m, f.body, e1, e2, h4.body, ?_⟩
  rw [h3, hans n k f ct h1 h2 s m pre post i fresh e3 e4]

/-- C181. Two runs: other schedules, other threads beside, other listeners that offer the same services, another version
of Python, other request ids, other segments. Two calls with the same interface, method and body that both get something
get the same. -/
theorem C181_same_result (ans : PyStr → PyStr → Bytes → Bytes) (v w : PyVer) (evs fvs : List CallersEv)
    (hd : DistinctIds (loopOf evs)) (hd' : DistinctIds (loopOf fvs)) (hm : MadeCalls evs) (hm' : MadeCalls fvs)
    (peer qeer : Nat → Peer) (hj : Joined (callersRun v evs).cli peer) (hj' : Joined (callersRun w fvs).cli qeer)
    (hans : ∀ n, Computes ans (peer n)) (hans' : ∀ n, Computes ans (qeer n)) (j k : Nat) (c d : Caller) (x y : PyObj)
    (hc : (callersRun v evs).callers[j]? = some c) (hk : (callersRun w fvs).callers[k]? = some d)
    (hi : c.args.interface = d.args.interface) (hme : c.args.method = d.args.method)
    (hb : c.args.content = d.args.content) (hx : Got c x) (hy : Got d y) : x = y := by
  obtain ⟨s, m, b, e1, e2, e3, rfl⟩ := C181_determined ans v evs hd hm peer hj hans j c x hc hx
  obtain ⟨s', m', b', f1, f2, f3, rfl⟩ := C181_determined ans w fvs hd' hm' qeer hj' hans' k d y hk hy
  rw [e1, f1] at hi
  rw [e2, f2] at hme
  rw [e3, f3] at hb
  cases hi
  cases hme
  cases hb
  rfl

/-! ### an example: the threads of `exThreads` in another order -/

def exThreadsLate : List CallersEv :=
  [.invoke (.async true) exCallB, .invoke .sync exCallA, .loop (.start 1 exAddr), .loop (.start 0 exAddr),
   .loop (.dialed 1 true), .loop (.lock 0), .loop (.drained 1 true), .loop (.drained 0 true), .loop (.drained 0 true),
   .loop (.drained 1 true), .loop (.recv 0), .loop (.data 0 exPeer.st.wire), .loop (.recv 0), .loop (.recv 0),
   .loop (.recv 0), .loop (.recv 0), .loop (.wake 0), .loop (.wake 1), .settle 0, .settle 1, .give 1]

set_option maxRecDepth 40000 in
example : DistinctIds (loopOf exThreadsLate) ∧
    (callersRun .from38 exThreadsLate).callers.map (fun c => (c.out, c.cbs)) =
      [(some (.ok none), [.bytes [22]]), (some (.ok (some (.bytes [11]))), [])] ∧
    (callersRun .from38 exThreadsLate).cli.conns.map (fun k => (k.sent.map Prod.snd).flatten) = [received exPeerEvs] ∧
    (callersRun .from38 exThreadsLate).cli.conns.map AConn.recvd = [exPeer.st.wire] := by
  decide +kernel

/-- the service of the example as a function -/
def exAnswer (_ _ : PyStr) (body : Bytes) : Bytes := (exPeer.st.futs.filterMap fun f =>
  if f.body = body then match f.st with
    | .finished (.ret (.bytes ct)) => some ct
    | _ => none
  else none).headD []

set_option maxRecDepth 40000 in
example : Computes exAnswer exPeer := by
  have key : ∀ f ∈ exPeer.st.futs, ∀ ct, f.st = .finished (.ret (.bytes ct)) → exAnswer [] [] f.body = ct := by
    have : exPeer.st.futs.all (fun f => match f.st with
        | .finished (.ret (.bytes ct)) => decide (exAnswer [] [] f.body = ct)
        | _ => true) = true := by decide +kernel
    intro f hf ct hst
    have := List.all_eq_true.1 this f hf
    rw [hst] at this
    exact of_decide_eq_true this
  intro k f ct hk hst s m _ _ _ _ _ _
  exact (key f (List.mem_of_getElem? hk) ct hst).symm

end Bolt
