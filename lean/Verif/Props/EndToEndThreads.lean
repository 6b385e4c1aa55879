import Verif.Props.AioCallers
import Verif.Props.EndToEndAio
/-!
# C134: threads that use the asyncio client, and asyncio listeners
-/
namespace Bolt
open Spec

/-- the coroutines submitted by somebody else than the callers are heartbeats or calls of the client's methods, too -/
def Spec.MadeCalls (evs : List CallersEv) : Prop := ∀ req, CallersEv.loop (.call req) ∈ evs → AioMade req

theorem mem_requests {p : Pkg} : ∀ {evs : List AEv}, p ∈ requests evs → AEv.call p ∈ evs := by
  intro evs
  induction evs with
  | nil => intro h; cases h
  | cons e evs ih =>
    intro h
    cases e with
    | call q =>
      rcases List.mem_cons.1 h with rfl | h
      · simp
      · exact List.mem_cons_of_mem _ (ih h)
    | _ => exact List.mem_cons_of_mem _ (ih h)

theorem made_requests (v : PyVer) (evs : List CallersEv) (h : MadeCalls evs) :
    ∀ c ∈ (arun v (loopOf evs)).calls, AioMade c.req := by
  have key : ∀ p, AEv.call p ∈ loopOf evs → AioMade p := by
    induction evs with
    | nil => intro p hp; cases hp
    | cons e evs ih =>
      have ih := ih fun req hr => h req (List.mem_cons_of_mem _ hr)
      intro p hp
      cases e with
      | invoke k a =>
        simp only [loopOf] at hp
        split at hp
        · exact ih p hp
        · split at hp
          · exact ih p hp
          · next q hq =>
            rcases List.mem_cons.1 hp with hp | hp
            · cases hp
              exact .inl ⟨a, k.request, hq⟩
            · exact ih p hp
      | loop e =>
        simp only [loopOf] at hp
        rcases List.mem_cons.1 hp with hp | hp
        · subst hp
          exact h p (by simp)
        · exact ih p hp
      | _ => exact ih p hp
  intro c hc
  have : c.req ∈ requests (loopOf evs) := by rw [← arun_requests v]; exact List.mem_map_of_mem hc
  exact key _ (mem_requests this)

/-- Call `c` of a thread has got `x`: `invoke_sync` has returned it, or the callback has been called with it. -/
def Spec.Got (c : Caller) (x : PyObj) : Prop := c.out = some (.ok (some x)) ∨ x ∈ c.cbs

/-- Execution `m` of listener `n` is one that the call asks for, and it has returned `x`. -/
def Spec.ExecutedFor (peer : Nat → Peer) (c : Caller) (x : PyObj) (n m : Nat) : Prop :=
  ∃ (f : Fut) (ct : Bytes), (peer n).st.futs[m]? = some f ∧ f.st = .finished (.ret (.bytes ct)) ∧ x = .bytes ct ∧
    AskedFor (peer n).svc (peer n).reg (peer n).levs c.args f

theorem got_task {v : PyVer} {evs : List CallersEv} (hd : DistinctIds (loopOf evs)) (hm : MadeCalls evs)
    {peer : Nat → Peer} (hj : Joined (callersRun v evs).cli peer) {j : Nat} {c : Caller} {x : PyObj}
    (hc : (callersRun v evs).callers[j]? = some c) (hx : Got c x) :
    ∃ (n m : Nat), ExecutedFor peer c x n m ∧ ∃ (i : Nat) (tk : Task) (r : Req), (peer n).st.tasks[i]? = some tk ∧
      tk.kind = .dispatch r ∧ tk.fut = some m ∧ ∃ (q : Nat) (d : ACall), c.call = some q ∧
        (arun v (loopOf evs)).calls[q]? = some d ∧ d.req.requestId = .int r.id := by
  have hI := CallersInv.run v evs
  have hok := hI.ok j c hc
  have hfut : ∃ p, c.fut = .finished (.resp p) ∧ p.content = x := by
    rcases hx with hx | hx
    · exact (hok.out x hx).2
    · rw [hok.cbs] at hx
      split at hx
      · next p hk hf => exact ⟨p, hf, (List.mem_singleton.1 hx).symm⟩
      · cases hx
  obtain ⟨p, hf, rfl⟩ := hfut
  obtain ⟨q, d, h1, h2, h3⟩ := hok.fin _ hf
  obtain ⟨d', h4, h5⟩ := hok.own q h1
  rw [h2] at h4
  cases h4
  rw [hI.cli] at h2 hj
  obtain ⟨n, m, f, ct, e1, e2, e3, e4, i, tk, r, e5, e6, e7, e8⟩ :=
    own_task v _ hd peer hj (made_requests v evs hm) q d p c.args c.kind.request h2 h5 h3
  exact ⟨n, m, ⟨f, ct, e1, e2, e3, e4⟩, i, tk, r, e5, e6, e7, q, d, h1, h2, e8⟩

/-- C134. Any number of threads use one asyncio client, whose connections lead to asyncio listeners. What `invoke_sync`
returns to a thread, and what the callback of `invoke_async` is called with, is the bytes that a method has returned which
a listener executed for this very call, with the body it gave; and no two calls get what one execution returned. -/
theorem C134_own_result (v : PyVer) (evs : List CallersEv) (hd : DistinctIds (loopOf evs)) (hm : MadeCalls evs)
    (peer : Nat → Peer) (hj : Joined (callersRun v evs).cli peer) :
    ∃ exec : Nat → Nat × Nat,
      (∀ (j : Nat) (c : Caller) (x : PyObj), (callersRun v evs).callers[j]? = some c → Got c x →
        ExecutedFor peer c x (exec j).1 (exec j).2) ∧
      ∀ (j k : Nat) (c d : Caller) (x y : PyObj), (callersRun v evs).callers[j]? = some c →
        (callersRun v evs).callers[k]? = some d → Got c x → Got d y → exec j = exec k → j = k := by
  have hI := CallersInv.run v evs
  have single : ∀ (c : Caller) (j : Nat) (x y : PyObj), (callersRun v evs).callers[j]? = some c → Got c x → Got c y →
      x = y := by
    intro c j x y hc hx hy
    have hok := hI.ok j c hc
    have fut : ∀ z, Got c z → ∃ p, c.fut = .finished (.resp p) ∧ p.content = z := by
      intro z hz
      rcases hz with hz | hz
      · exact (hok.out z hz).2
      · rw [hok.cbs] at hz
        split at hz
        · next p hk hf => exact ⟨p, hf, (List.mem_singleton.1 hz).symm⟩
        · cases hz
    obtain ⟨p, h1, rfl⟩ := fut x hx
    obtain ⟨q, h2, rfl⟩ := fut y hy
    rw [h1] at h2
    cases h2
    rfl
  have hex : ∀ j : Nat, ∃ w : Nat × Nat, ∀ (c : Caller) (x : PyObj), (callersRun v evs).callers[j]? = some c → Got c x →
      ExecutedFor peer c x w.1 w.2 ∧ ∃ (i : Nat) (tk : Task) (r : Req), (peer w.1).st.tasks[i]? = some tk ∧
      tk.kind = .dispatch r ∧ tk.fut = some w.2 ∧ ∃ (q : Nat) (d : ACall), c.call = some q ∧
        (arun v (loopOf evs)).calls[q]? = some d ∧ d.req.requestId = .int r.id := by
    intro j
    by_cases h : ∃ (c : Caller) (x : PyObj), (callersRun v evs).callers[j]? = some c ∧ Got c x
    · obtain ⟨c, x, hc, hx⟩ := h
      obtain ⟨n, m, h1⟩ := got_task hd hm hj hc hx
      refine ⟨(n, m), fun c' y hc' hy => ?_⟩
      rw [hc] at hc'
      cases hc'
      rw [single c j y x hc hy hx]
      exact h1
    · exact ⟨(0, 0), fun c x hc hx => absurd ⟨c, x, hc, hx⟩ h⟩
  obtain ⟨exec, he⟩ := Classical.axiomOfChoice hex
  refine ⟨exec, fun j c x hc hx => (he j c x hc hx).1, fun j k c d x y hc hk hx hy hjk => ?_⟩
  obtain ⟨-, i, tk, r, h1, h2, h3, q, e, h4, h5, h6⟩ := he j c x hc hx
  obtain ⟨-, i', tk', r', g1, g2, g3, q', e', g4, g5, g6⟩ := he k d y hk hy
  rw [← hjk] at g1 g3
  have := (LInv.run (peer (exec j).1).svc (peer (exec j).1).reg (peer (exec j).1).levs).futInj i i' tk tk' _ h1 g1 h3 g3
  subst this
  rw [h1] at g1
  cases g1
  rw [h2] at g2
  cases g2
  have := same_call hd h5 g5 (h6.trans g6.symm)
  subst this
  exact hI.apart j k c d q hc hk h4 g4

/-! ### an example: two threads call `exPeer` at the same time, the second one with a callback -/

def exThreads : List CallersEv :=
  [.invoke .sync exCallA, .invoke (.async true) exCallB, .loop (.start 0 exAddr), .loop (.start 1 exAddr),
   .loop (.dialed 0 true), .loop (.lock 1), .loop (.drained 0 true), .loop (.drained 1 true), .loop (.drained 1 true),
   .loop (.drained 0 true), .loop (.recv 0), .loop (.data 0 exPeer.st.wire), .loop (.recv 0), .loop (.recv 0),
   .loop (.recv 0), .loop (.recv 0), .loop (.wake 0), .loop (.wake 1), .settle 1, .settle 0, .give 0]

set_option maxRecDepth 40000 in
example : DistinctIds (loopOf exThreads) ∧ (callersRun .from38 exThreads).callers.map (fun c => (c.out, c.cbs)) =
      [(some (.ok (some (.bytes [11]))), []), (some (.ok none), [.bytes [22]])] ∧
    (callersRun .from38 exThreads).cli.conns.map (fun k => (k.sent.map Prod.snd).flatten) = [received exPeerEvs] ∧
    (callersRun .from38 exThreads).cli.conns.map AConn.recvd = [exPeer.st.wire] := by
  decide +kernel

end Bolt
