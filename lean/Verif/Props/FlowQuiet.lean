import Verif.Props.FlowEndToEnd
import Verif.Props.AioFlowWait
import Verif.Props.ListenerFlowWait
import Verif.Lemmas.Rest
/-!
# C169: back pressure on both sides does not lead to a deadlock
-/
namespace Bolt
open Spec

namespace Spec

/-- The bytes that the client's socket has taken on a connection and that have not arrived: of what was written, without
what is still buffered. -/
def onTheWay (written : Bytes) (buffered : Nat) (arrived : Bytes) : Nat := written.length - buffered - arrived.length

/-- Nothing can happen on connection `n` between a client and a listener any more. No call that is in a `drain`, no task and
not the reader can go on; the client's reading task waits for bytes. A socket that has room (for `cap` bytes at most) takes
what is buffered; what is on the way arrives, at the client, and at the listener if its reader waits for bytes. -/
structure Stuck (cap : Nat) (c : FlowCfg) (v : PyVer) (s : AFSt) (x : FlowPeer) (n : Nat) (k : AConn) (f : CFlow) : Prop where
  conn : s.a.conns[n]? = some k
  flow : s.flows[n]? = some f
  calls : ∀ i, InDrain s.a i n → afStep c v s (.turn i 0) = s
  recv : s.a.recv n = s.a
  tasks : ∀ i, lfStep x.cfg x.svc x.st (.turn (.task i) 0) = x.st
  reader : lfStep x.cfg x.svc x.st (.turn .reader 0) = x.st
  requestsTaken : f.buf ≠ 0 → cap ≤ onTheWay (k.sent.map Prod.snd).flatten f.buf (received (outsideOf x.evs))
  responsesTaken : x.st.buf ≠ 0 → cap ≤ onTheWay x.st.l.wire x.st.buf k.recvd
  requestsArrived : x.st.hold = false → x.st.l.idle → x.st.l.rd.phase ≠ .stopped →
    onTheWay (k.sent.map Prod.snd).flatten f.buf (received (outsideOf x.evs)) = 0
  responsesArrived : k.pc ≠ .ended → onTheWay x.st.l.wire x.st.buf k.recvd = 0

/-- neither side has lost or closed the connection, or given it up -/
structure Up (x : FlowPeer) (k : AConn) (f : CFlow) : Prop where
  client : k.cancelled = false ∧ k.lost = false ∧ k.closed = false ∧ f.lost = false ∧ k.pc ≠ .ended
  listener : x.st.dead = false ∧ x.st.l.lost = false ∧ x.st.l.closed = false ∧ x.st.l.rd.phase ≠ .stopped

/-- Nobody is held up on connection `n`: no call is in a `drain`, no task has a message to write, the listener's reader
waits for bytes, and all that was written has arrived. -/
structure NoneHeld (s : AFSt) (x : FlowPeer) (n : Nat) (k : AConn) (f : CFlow) : Prop where
  calls : ∀ i, ¬ InDrain s.a i n
  tasks : ∀ t ∈ x.st.l.tasks, ∀ m, t.st ≠ .writing m
  reader : x.st.hold = false ∧ x.st.l.idle
  waiters : f.waiters = [] ∧ x.st.waiters = []
  buffers : f.buf = 0 ∧ x.st.buf = 0
  there : received (outsideOf x.evs) = (k.sent.map Prod.snd).flatten
  back : k.recvd = x.st.l.wire

end Spec

/-! ## who can go on -/

/-- a `drain` that has returned changes the call -/
theorem drained_changes {s : ASt} {i n : Nat} (v : PyVer) (h : InDrain s i n) : astep v s (.drained i true) ≠ s := by
  obtain ⟨call, hc, r, a, hpc⟩ := h
  intro e
  have e : s.drained i true = s := e
  have hlt : (s.drained i true).callsRank < s.callsRank := by
    rcases hpc with hp | hp
    · exact drained1_rank true hc hp
    · exact drained2_rank true hc hp
  rw [e] at hlt
  exact Nat.lt_irrefl _ hlt

/-- a call in a `drain` of a connection that is up and not paused goes on -/
theorem turn_changes {c : FlowCfg} {v : PyVer} {s : AFSt} {i n : Nat} {f : CFlow} (hok : f.Ok c) (hi : InDrain s.a i n)
    (hf : s.flows[n]? = some f) (hl : f.lost = false) (hp : f.paused = false) : afStep c v s (.turn i 0) ≠ s := by
  have hn : i ∉ f.waiters := by
    intro hm
    have := (hok.wait fun e => by rw [e] at hm; cases hm).2
    rw [hp] at this; cases this
  intro e
  have e' := congrArg AFSt.a e
  cases hw : f.woken.find? (fun w => w.1 == i) with
  | some w =>
    rw [turn_woken hi hf hw, hok.woken hl w (List.mem_of_find?_eq_some hw)] at e'
    exact drained_changes v hi e'
  | none =>
    rw [turn_runs hi hf hw hn fun _ => hp, hl] at e'
    exact drained_changes v hi e'

theorem waiters_nil_client {c : FlowCfg} {f : CFlow} (hok : f.Ok c) (hp : f.paused = false) : f.waiters = [] := by
  cases hx : f.waiters with
  | nil => rfl
  | cons a l => have := (hok.wait (by simp [hx])).2; rw [hp] at this; cases this

theorem waiters_nil_listener {c : FlowCfg} {s : LFSt} (h : LFlow c s) (hp : s.paused = false) : s.waiters = [] := by
  cases hx : s.waiters with
  | nil => rfl
  | cons a l => have := (h.wait (by simp [hx])).2; rw [hp] at this; cases this

/-- a task with a message to write, on a connection that is up and not paused, goes on -/
theorem turnTask_changes {c : FlowCfg} {svc : Services} {s : LFSt} {i : Nat} {t : Task} {m : Bytes} (h : LFlow c s)
    (hl : s.l.lost = false) (hp : s.paused = false) (ht : s.l.tasks[i]? = some t) (hm : t.st = .writing m) :
    lfStep c svc s (.turn (.task i) 0) ≠ s := by
  intro e
  have e' : (s.turnTask c svc i 0).l = s.l := congrArg LFSt.l e
  rw [LFSt.turnTask_returns ht hm (h.drain_up hl hp _) 0] at e'
  have e2 := congrArg (fun l : LSt => (l.tasks[i]?).map Task.st) e'
  have hlen : i < s.l.tasks.length := (List.getElem?_eq_some_iff.1 ht).1
  have hw : (s.l.write (.task i) m).tasks = s.l.tasks := by unfold LSt.write; split <;> rfl
  simp only [lstep, ht, hm, LSt.setTask, hw, List.getElem?_set, hlen, if_true, Option.map_some] at e2
  simp at e2

theorem reader_changes {l : LSt} (ht : l.tail = .reading) (e : l.reader = l) : l.idle := by
  refine ⟨ht, ?_⟩
  unfold LSt.reader at e
  rw [ht] at e
  dsimp only at e
  split at e
  · next h => exact h
  · next rd buf h =>
    exfalso
    have e' := congrArg LSt.rd e
    dsimp only at e'
    rw [e'] at h
    unfold readerIter at h
    split at h
    all_goals (try dsimp only at h)
    all_goals (repeat' split at h)
    all_goals first
      | cases h
      | (simp only [Option.some.injEq, Prod.mk.injEq] at h
         have := congrArg ReadSt.phase h.1
         simp_all)
  · next rd buf a h =>
    exfalso
    have := congrArg LSt.acts e
    rw [(perform_rest _ a).2.1] at this
    have := congrArg List.length this
    simp at this

/-- so does the reader, unless it waits for bytes -/
theorem turnReader_changes {c : FlowCfg} {svc : Services} {s : LFSt} (h : LFlow c s)
    (hl : s.l.lost = false) (hd : s.dead = false) (hp : s.paused = false)
    (he : lfStep c svc s (.turn .reader 0) = s) : s.hold = false ∧ s.l.idle := by
  have he : s.turnReader c svc 0 = s := he
  have hr := h.drain_up hl hp .reader
  have hf := s.drain_frame c .reader
  rcases hres : s.drain c .reader with ⟨s2, o⟩
  rw [hres] at hr hf
  dsimp only at hr hf
  subst hr
  have he0 := he
  unfold LFSt.turnReader at he
  rw [if_neg (by rw [hd]; simp)] at he
  cases hh : s.hold with
  | true =>
    rw [hh, if_pos rfl, hres] at he
    have := congrArg LFSt.hold he
    rw [hh] at this
    cases this
  | false =>
    rw [hh, if_neg (by simp)] at he
    refine ⟨rfl, ?_⟩
    cases ht : s.l.tail with
    | reading =>
      rw [ht] at he
      exact reader_changes ht (congrArg LFSt.l he)
    | replying m =>
      exfalso
      rw [ht, hres] at he
      dsimp only at he
      have hne : s.l.tail ≠ .reading := by rw [ht]; simp
      have hf3 := LFSt.drain_frame c { s2.buffer c m.length 0 with l := lstep svc s2.l .reader } .reader
      have ht3 : (LFSt.drain c { s2.buffer c m.length 0 with l := lstep svc s2.l .reader } .reader).1.l.tail = .reading := by
        rw [hf3.1, hf.1]; exact (LSt.reader_writes hne).1
      split at he
      · next s3 h3 =>
        rw [h3] at ht3
        exact hne (by rw [← congrArg (fun s : LFSt => s.l.tail) he]; exact ht3)
      · next s3 h3 =>
        rw [h3] at ht3
        exact hne (by rw [← congrArg (fun s : LFSt => s.l.tail) he]; exact ht3)
      · next s3 h3 =>
        exact hne (by rw [← congrArg (fun s : LFSt => s.l.tail) he]; rfl)
    | closing m =>
      exfalso
      rw [ht, hres] at he
      dsimp only at he
      have hne : s.l.tail ≠ .reading := by rw [ht]; simp
      refine hne ?_
      rw [← congrArg (fun s : LFSt => s.l.tail) he]
      show (LSt.reader s2.l).tail = .reading
      rw [hf.1]
      exact (LSt.reader_writes hne).1

/-! ## C169 -/

theorem onTheWay_zero {written arrived : Bytes} (hp : arrived <+: written) (h : onTheWay written 0 arrived = 0) :
    arrived = written := by
  refine hp.eq_of_length ?_
  have := hp.length_le
  unfold onTheWay at h
  omega

/-- C169: in every state in which nothing can happen on a connection that is up, whatever the limits of the buffers on
either side, nobody is held up by flow control. -/
theorem C169_none_held (cap : Nat) (hcap : 0 < cap) (c : FlowCfg) (hc : c.low ≤ c.high) (v : PyVer) (evs : List AFEv)
    (peer : Nat → FlowPeer) (hlim : ∀ n, (peer n).cfg.low ≤ (peer n).cfg.high) (hj : FlowJoined (afRun c v evs) peer) (n : Nat) (k : AConn) (f : CFlow)
    (hup : Up (peer n) k f) (hs : Stuck cap c v (afRun c v evs) (peer n) n k f) : NoneHeld (afRun c v evs) (peer n) n k f := by
  obtain ⟨hL, -⟩ := LFlow.run (hlim n) (peer n).svc (peer n).reg (peer n).evs
  have hL : LFlow (peer n).cfg (peer n).st := hL
  -- what the listener has written has been taken
  have hb : (peer n).st.buf = 0 := by
    apply Classical.byContradiction
    intro h
    have := hs.responsesTaken h
    rw [hs.responsesArrived hup.client.2.2.2.2] at this
    omega
  have hp : (peer n).st.paused = false := by
    cases hx : (peer n).st.paused with
    | false => rfl
    | true => have := hL.low hup.listener.2.1 hx; omega
  -- so that its reader reads
  have hr := turnReader_changes hL hup.listener.2.1 hup.listener.1 hp hs.reader
  have ha := hs.requestsArrived hr.1 hr.2 hup.listener.2.2.2
  -- and what the client has written has been taken
  have hcb : f.buf = 0 := by
    apply Classical.byContradiction
    intro h
    have := hs.requestsTaken h
    omega
  have hok := (afRun_ok hc v evs).ok n f hs.flow
  have hcp : f.paused = false := by
    cases hx : f.paused with
    | false => rfl
    | true => have := hok.low hup.client.2.2.2.1 hx; omega
  refine ⟨fun i hi => ?_, fun t ht m hm => ?_, hr, ⟨waiters_nil_client hok hcp, waiters_nil_listener hL hp⟩, ⟨hcb, hb⟩, ?_, ?_⟩
  · exact turn_changes hok hi hs.flow hup.client.2.2.2.1 hcp (hs.calls i hi)
  · obtain ⟨i, hi⟩ := List.getElem?_of_mem ht
    exact turnTask_changes hL hup.listener.2.1 hp hi hm (hs.tasks i)
  · rw [hcb] at ha
    exact onTheWay_zero (hj.there n k hs.conn) ha
  · have := hs.responsesArrived hup.client.2.2.2.2
    rw [hb] at this
    exact onTheWay_zero (hj.back n k hs.conn) this

/-! ## The system with flow control on both sides -/

namespace Spec

/-- An asyncio client and the listeners its connections lead to, with the flow control of both sides: what has happened so
far on the client, and on the listener's side of each connection (cf. `Sys`). -/
structure FSys where
  cevs : List AFEv := []
  levs : Nat → List LFEv := fun _ => []

/-- What happens next: something on the client, something on the listener's side of connection `n`, or at most `len` bytes
arrive on connection `n`, there or back, of those that the socket has taken. -/
inductive FSysEv where
  | client (e : AFEv)
  | server (n : Nat) (e : LFEv)
  | there (n len : Nat)
  | back (n len : Nat)
  deriving DecidableEq

/-- how the listeners are set up -/
structure FSetup where
  cfg : Nat → FlowCfg
  svc : Nat → Services
  reg : Nat → Registry

def FSys.peer (y : FSys) (x : FSetup) (n : Nat) : FlowPeer := ⟨x.cfg n, x.svc n, x.reg n, y.levs n⟩
def FSys.client (y : FSys) (c : FlowCfg) (v : PyVer) : AFSt := afRun c v y.cevs

/-- what the client has written on connection `n` -/
def FSys.out (y : FSys) (c : FlowCfg) (v : PyVer) (n : Nat) : Bytes :=
  match (y.client c v).a.conns[n]? with
  | some k => (k.sent.map Prod.snd).flatten
  | none => []

/-- what it has received -/
def FSys.got (y : FSys) (c : FlowCfg) (v : PyVer) (n : Nat) : Bytes :=
  match (y.client c v).a.conns[n]? with
  | some k => k.recvd
  | none => []

/-- how much of it is buffered -/
def FSys.buf (y : FSys) (c : FlowCfg) (v : PyVer) (n : Nat) : Nat :=
  match (y.client c v).flows[n]? with
  | some f => f.buf
  | none => 0

def FSys.add (y : FSys) (n : Nat) (e : LFEv) : FSys :=
  { y with levs := fun m => if m = n then y.levs n ++ [e] else y.levs m }

/-- One event. Bytes arrive only by `there` and `back`. -/
def fsysStep (c : FlowCfg) (v : PyVer) (x : FSetup) (y : FSys) : FSysEv → FSys
  | .client (.ev (.data _ _)) => y
  | .client e => { y with cevs := y.cevs ++ [e] }
  | .server _ (.ev (.data _)) => y
  | .server n e => y.add n e
  | .there n len =>
    let arrived := received (outsideOf (y.levs n))
    y.add n (.ev (.data (((y.out c v n).drop arrived.length).take (min len (onTheWay (y.out c v n) (y.buf c v n) arrived)))))
  | .back n len =>
    let p := (y.peer x n).st
    { y with cevs := y.cevs ++ [.ev (.data n ((p.l.wire.drop (y.got c v n).length).take
      (min len (onTheWay p.l.wire p.buf (y.got c v n)))))] }

def fsysRun (c : FlowCfg) (v : PyVer) (x : FSetup) (es : List FSysEv) : FSys := es.foldl (fsysStep c v x) {}

end Spec

theorem fsysRun_snoc (c : FlowCfg) (v : PyVer) (x : FSetup) (es : List FSysEv) (e : FSysEv) :
    fsysRun c v x (es ++ [e]) = fsysStep c v x (fsysRun c v x es) e := by
  unfold fsysRun
  rw [List.foldl_append]
  rfl

/-- The system with flow control and one without: the client and the listeners are in the same states. -/
structure Simulates (c : FlowCfg) (v : PyVer) (x : FSetup) (y : FSys) (z : Sys) : Prop where
  client : (y.client c v).a = z.client v
  ok : ∀ n, LFOk (y.peer x n).st
  listener : ∀ n, (y.peer x n).st.l = (z.peer x.svc x.reg n).st
  outside : ∀ n, (z.levs n).filter LEv.outside = outsideOf (y.levs n)

theorem Simulates.out {c : FlowCfg} {v : PyVer} {x : FSetup} {y : FSys} {z : Sys} (h : Simulates c v x y z) (n : Nat) :
    y.out c v n = z.out v n := by
  unfold FSys.out Sys.out
  rw [h.client]
  cases (z.client v).conns[n]? <;> rfl

theorem Simulates.got {c : FlowCfg} {v : PyVer} {x : FSetup} {y : FSys} {z : Sys} (h : Simulates c v x y z) (n : Nat) :
    y.got c v n = z.got v n := by
  unfold FSys.got Sys.got
  rw [h.client]
  cases (z.client v).conns[n]? <;> rfl

theorem Simulates.received {c : FlowCfg} {v : PyVer} {x : FSetup} {y : FSys} {z : Sys} (h : Simulates c v x y z) (n : Nat) :
    Spec.received (outsideOf (y.levs n)) = Spec.received (z.levs n) := by
  rw [← h.outside, received_outside]

theorem outsideOf_append (a b : List LFEv) : outsideOf (a ++ b) = outsideOf a ++ outsideOf b := by simp [outsideOf]

/-- something happens on the listener's side -/
theorem Simulates.server {c : FlowCfg} {v : PyVer} {x : FSetup} (es : List SysEv) {y : FSys}
    (h : Simulates c v x y (sysRun v x.svc x.reg es)) (n : Nat) (e : LFEv) (hr : e ≠ .reset) (hm : ∀ n, (x.cfg n).many = true)
    (hd : ∀ bs, e ≠ .ev (.data bs)) : ∃ es', Simulates c v x (y.add n e) (sysRun v x.svc x.reg es') := by
  obtain ⟨ok, ls, hls, hout⟩ := (h.ok n).step (c := x.cfg n) (svc := x.svc n) hr (.inl (hm n))
  have hnd : ∀ bs, LEv.data bs ∉ ls := by
    intro bs hb
    have : LEv.data bs ∈ outsideOf [e] := by rw [← hout]; exact List.mem_filter.2 ⟨hb, rfl⟩
    cases e with
    | ev e =>
      by_cases he : e.outside = true
      · rw [show outsideOf [LFEv.ev e] = [e] by simp [outsideOf, he]] at this
        exact hd bs (by rw [List.mem_singleton.1 this])
      · rw [show outsideOf [LFEv.ev e] = [] by simp [outsideOf, he]] at this
        cases this
    | _ => cases this
  -- the events one after the other
  have many : ∀ ls : List LEv, (∀ bs, LEv.data bs ∉ ls) → ∃ es', (sysRun v x.svc x.reg es').aevs = (sysRun v x.svc x.reg es).aevs ∧
      ∀ m, (sysRun v x.svc x.reg es').levs m = if m = n then (sysRun v x.svc x.reg es).levs n ++ ls else
        (sysRun v x.svc x.reg es).levs m := by
    intro ls hls
    induction ls using snoc_induct with
    | nil => exact ⟨es, rfl, fun m => by split <;> simp_all⟩
    | snoc ls a ih =>
      obtain ⟨es', h1, h2⟩ := ih fun bs hb => hls bs (List.mem_append_left _ hb)
      refine ⟨es' ++ [.server n a], ?_, ?_⟩
      all_goals rw [sysRun_snoc]
      all_goals cases a with
        | data bs => exact absurd (List.mem_append_right _ (List.mem_singleton.2 rfl)) (hls bs)
        | _ => _
      all_goals first
        | exact h1
        | (intro m
           show (if m = n then (sysRun v x.svc x.reg es').levs n ++ [_] else (sysRun v x.svc x.reg es').levs m) = _
           rw [h2, h2, if_pos rfl]
           split <;> simp)
  obtain ⟨es', h1, h2⟩ := many ls hnd
  have hst : ∀ m, ((y.add n e).peer x m).st = if m = n then lfStep (x.cfg n) (x.svc n) (y.peer x n).st e else (y.peer x m).st := by
    intro m
    unfold FlowPeer.st FSys.peer FSys.add
    dsimp only
    split
    · next hmn => subst hmn; exact lfRun_snoc ..
    · rfl
  refine ⟨es', ?_, fun m => ?_, fun m => ?_, fun m => ?_⟩
  · show (afRun c v y.cevs).a = arun v (sysRun v x.svc x.reg es').aevs
    rw [h1]
    exact h.client
  · rw [hst]
    split
    · exact ok
    · exact h.ok m
  · rw [hst]
    show _ = lrun (x.svc m) (x.reg m) ((sysRun v x.svc x.reg es').levs m)
    rw [h2]
    split
    · next hmn =>
      subst hmn
      rw [hls, h.listener]
      show _ = List.foldl _ _ (_ ++ _)
      rw [List.foldl_append]
      rfl
    · exact h.listener m
  · rw [h2]
    show _ = outsideOf (if m = n then y.levs n ++ [e] else y.levs m)
    split
    · next hmn => rw [List.filter_append, h.outside, hout, outsideOf_append]
    · exact h.outside m

/-- something happens on the client -/
theorem Simulates.clientStep {c : FlowCfg} {v : PyVer} {x : FSetup} (es : List SysEv) {y : FSys}
    (h : Simulates c v x y (sysRun v x.svc x.reg es)) (e : AFEv) (hd : ∀ n bs, e ≠ .ev (.data n bs)) :
    ∃ es', Simulates c v x { y with cevs := y.cevs ++ [e] } (sysRun v x.svc x.reg es') := by
  have one : ∀ a : AEv, (∀ n bs, a ≠ .data n bs) → (afStep c v (afRun c v y.cevs) e).a = astep v (afRun c v y.cevs).a a →
      ∃ es', Simulates c v x { y with cevs := y.cevs ++ [e] } (sysRun v x.svc x.reg es') := by
    intro a ha hs
    have hz : sysRun v x.svc x.reg (es ++ [.client a]) =
        { sysRun v x.svc x.reg es with aevs := (sysRun v x.svc x.reg es).aevs ++ [a] } := by
      rw [sysRun_snoc]
      cases a with
      | data n bs => exact absurd rfl (ha n bs)
      | _ => rfl
    refine ⟨es ++ [.client a], ?_⟩
    rw [hz]
    refine ⟨?_, h.ok, h.listener, h.outside⟩
    show (afRun c v (y.cevs ++ [e])).a = arun v ((sysRun v x.svc x.reg es).aevs ++ [a])
    rw [afRun_snoc, arun_snoc, hs]
    exact congrArg (astep v · a) h.client
  have hs := step_sees c v (afRun c v y.cevs) e
  generalize hx : (afStep c v (afRun c v y.cevs) e).a = s' at hs
  cases hs with
  | nothing =>
    refine ⟨es, ?_, h.ok, h.listener, h.outside⟩
    show (afRun c v (y.cevs ++ [e])).a = _
    rw [afRun_snoc, hx]
    exact h.client
  | event e' hn => exact one e' (fun n bs he => hd n bs (by rw [he])) hx
  | drain i k n ok hr => exact one _ (by intros; simp) hx
  | lost n exc => exact one _ (by intros; split <;> simp) hx

/-- A system in which all waiters are kept and no listener's connection is reset does what one without flow control does. -/
theorem Simulates.run {c : FlowCfg} {v : PyVer} {x : FSetup} (hm : ∀ n, (x.cfg n).many = true) (es : List FSysEv)
    (hk : ∀ n, .server n .reset ∉ es) : ∃ es', Simulates c v x (fsysRun c v x es) (sysRun v x.svc x.reg es') := by
  induction es using snoc_induct with
  | nil =>
    exact ⟨[], rfl, fun n => ⟨rfl, rfl, fun _ h => (by cases h), fun _ => rfl, fun h => (by cases h)⟩, fun n => rfl, fun n => rfl⟩
  | snoc es e ih =>
    rw [fsysRun_snoc]
    obtain ⟨es', h⟩ := ih fun n hn => hk n (List.mem_append_left _ hn)
    generalize fsysRun c v x es = y at h ih
    cases e with
    | client a =>
      by_cases ha : ∃ n bs, a = .ev (.data n bs)
      · obtain ⟨n, bs, rfl⟩ := ha
        exact ⟨es', h⟩
      · have hd : ∀ n bs, a ≠ .ev (.data n bs) := fun n bs e => ha ⟨n, bs, e⟩
        have : fsysStep c v x y (.client a) = { y with cevs := y.cevs ++ [a] } := by
          unfold fsysStep
          split
          · next e => exact absurd (by injection e) (hd _ _)
          · next e => injection e with e; rw [e]
          all_goals (next e => cases e)
        rw [this]
        exact h.clientStep es' a hd
    | server n a =>
      by_cases ha : ∃ bs, a = .ev (.data bs)
      · obtain ⟨bs, rfl⟩ := ha
        exact ⟨es', h⟩
      · have hd : ∀ bs, a ≠ .ev (.data bs) := fun bs e => ha ⟨bs, e⟩
        have : fsysStep c v x y (.server n a) = y.add n a := by
          unfold fsysStep
          split
          · next e => cases e
          · next e => cases e
          · next e => injection e with _ e; exact absurd e (hd _)
          · next e => injection e with e1 e2; rw [e1, e2]
          · next e => cases e
          · next e => cases e
        rw [this]
        refine h.server es' n a ?_ hm hd
        rintro rfl
        exact hk n (by simp)
    | there n len =>
      let len' := min len (onTheWay (y.out c v n) (y.buf c v n) (Spec.received (outsideOf (y.levs n))))
      let bs := ((y.out c v n).drop (Spec.received (outsideOf (y.levs n))).length).take len'
      have hbs : sysRun v x.svc x.reg (es' ++ [.there n len']) = (sysRun v x.svc x.reg es').add n (.data bs) := by
        rw [sysRun_snoc]
        show (sysRun v x.svc x.reg es').add n (.data _) = _
        rw [← h.out, ← h.received]
      refine ⟨es' ++ [.there n len'], ?_⟩
      rw [hbs]
      show Simulates c v x (y.add n (.ev (.data bs))) _
      have hst : ∀ m, ((y.add n (.ev (.data bs))).peer x m).st =
          if m = n then lfStep (x.cfg n) (x.svc n) (y.peer x n).st (.ev (.data bs)) else (y.peer x m).st := by
        intro m
        unfold FlowPeer.st FSys.peer FSys.add
        dsimp only
        split
        · next hmn => subst hmn; exact lfRun_snoc ..
        · rfl
      refine ⟨h.client, fun m => ?_, fun m => ?_, fun m => ?_⟩
      · rw [hst]
        split
        · exact ((h.ok n).step (by simp) (.inl (hm n))).1
        · exact h.ok m
      · rw [hst]
        show _ = lrun (x.svc m) (x.reg m) (if m = n then (sysRun v x.svc x.reg es').levs n ++ [.data bs] else
          (sysRun v x.svc x.reg es').levs m)
        split
        · next hmn =>
          subst hmn
          rw [lrun_snoc']
          have e : (lfStep (x.cfg m) (x.svc m) (y.peer x m).st (.ev (.data bs))).l = lstep (x.svc m) (y.peer x m).st.l (.data bs) := by
            simp [lfStep, LEv.outside]
          rw [e, h.listener]
          rfl
        · exact h.listener m
      · show (if m = n then (sysRun v x.svc x.reg es').levs n ++ [.data bs] else (sysRun v x.svc x.reg es').levs m).filter _ =
          outsideOf (if m = n then y.levs n ++ [.ev (.data bs)] else y.levs m)
        split
        · rw [List.filter_append, h.outside, outsideOf_append]; rfl
        · exact h.outside m
    | back n len =>
      let len' := min len (onTheWay (y.peer x n).st.l.wire (y.peer x n).st.buf (y.got c v n))
      let bs := ((y.peer x n).st.l.wire.drop (y.got c v n).length).take len'
      have hbs : sysRun v x.svc x.reg (es' ++ [.back n len']) =
          { sysRun v x.svc x.reg es' with aevs := (sysRun v x.svc x.reg es').aevs ++ [.data n bs] } := by
        rw [sysRun_snoc]
        unfold sysStep
        dsimp only
        rw [← h.got, ← h.listener]
      refine ⟨es' ++ [.back n len'], ?_⟩
      rw [hbs]
      show Simulates c v x { y with cevs := y.cevs ++ [.ev (.data n bs)] } _
      refine ⟨?_, h.ok, h.listener, h.outside⟩
      show (afRun c v (y.cevs ++ [_])).a = arun v ((sysRun v x.svc x.reg es').aevs ++ [.data n bs])
      rw [afRun_snoc, arun_snoc]
      exact congrArg (astep v · (.data n bs)) h.client

/-- the bytes are joined -/
theorem Simulates.joined {c : FlowCfg} {v : PyVer} {x : FSetup} {y : FSys} {es : List SysEv}
    (h : Simulates c v x y (sysRun v x.svc x.reg es)) : FlowJoined (y.client c v) (y.peer x) := by
  have hj := (SysOk.run v x.svc x.reg es).joined
  refine ⟨fun n k hk => ?_, fun n k hk => ?_⟩
  · have := hj.there n k (by rw [h.client] at hk; exact hk)
    show Spec.received (outsideOf (y.levs n)) <+: _
    rw [h.received]
    exact this
  · have := hj.back n k (by rw [h.client] at hk; exact hk)
    rw [h.listener]
    exact this

/-- C169, what it means for the calls: when nothing can happen on the connection any more and all methods have returned, a
call that still waits for its response on it waits because the listener could not read the trace context of its
request, or because its method returned something that is not a non-empty `bytes` of a size that fits: not because of back
pressure. -/
theorem C169_who_waits (cap : Nat) (hcap : 0 < cap) (c : FlowCfg) (hc : c.low ≤ c.high) (v : PyVer)
    (x : FSetup) (hm : ∀ n, (x.cfg n).many = true) (hlim : ∀ n, (x.cfg n).low ≤ (x.cfg n).high) (es : List FSysEv)
    (hk : ∀ n, .server n .reset ∉ es) (hd : DistinctIds (clientEvs (fsysRun c v x es).cevs))
    (hmade : FlowMade (fsysRun c v x es).cevs)
    (n : Nat) (k : AConn) (f : CFlow) (hup : Up ((fsysRun c v x es).peer x n) k f)
    (hs : Stuck cap c v ((fsysRun c v x es).client c v) ((fsysRun c v x es).peer x n) n k f)
    (hret : ∀ t ∈ ((fsysRun c v x es).peer x n).st.l.tasks, t.st = .ended ∨ ∃ m, t.st = .writing m)
    (i : Nat) (call : ACall) (ev : Nat) (hcall : ((fsysRun c v x es).client c v).a.calls[i]? = some call)
    (hw : call.pc = .waiting ev) (hl : lastConn ((fsysRun c v x es).client c v).a i = some n)
    (hstuck : ((fsysRun c v x es).client c v).a.wake i = ((fsysRun c v x es).client c v).a) :
    ∃ (j : Nat) (t : Task) (r : Req) (g : Fate), ((fsysRun c v x es).peer x n).st.l.tasks[j]? = some t ∧
      t.kind = .dispatch r ∧ call.req.requestId = .int r.id ∧ t.fate = some g ∧
      (g = .badCarrier ∨ ∃ x, g = .answered (.ret x) ∧ ¬ ∃ b, x = .bytes b ∧ b ≠ [] ∧ b.length < 4294967296) := by
  obtain ⟨es', h⟩ := Simulates.run hm es hk
  have hn := C169_none_held cap hcap c hc v (fsysRun c v x es).cevs ((fsysRun c v x es).peer x) hlim h.joined n k f hup hs
  have hreqs : requests (sysRun v x.svc x.reg es').aevs = requests (clientEvs (fsysRun c v x es).cevs) := by
    rw [← arun_requests v, ← flow_requests c v]
    exact congrArg (fun s : ASt => s.calls.map ACall.req) h.client.symm
  have hd' : DistinctIds (sysRun v x.svc x.reg es').aevs := by unfold DistinctIds; rw [hreqs]; exact hd
  have hmade' : ∀ d ∈ ((sysRun v x.svc x.reg es').client v).calls, AioMade d.req := by
    intro d hdm
    have : d.req ∈ requests (clientEvs (fsysRun c v x es).cevs) := by
      rw [← hreqs, ← arun_requests v]; exact List.mem_map_of_mem hdm
    exact hmade _ (mem_requests this)
  have hconn := hs.conn
  have hrecv := hs.recv
  have hlist := h.listener n
  rw [h.client] at hcall hl hstuck hconn hrecv
  have hq : Quiet v x.svc x.reg (sysRun v x.svc x.reg es') n k := by
    refine ⟨hconn, ?_, ?_, ⟨k, hconn, ?_, hrecv⟩, ⟨hup.client.1, hup.client.2.1, hup.client.2.2.1⟩, ⟨?_, ?_⟩, ?_, ?_⟩
    · rw [← h.received]; exact hn.there
    · rw [← hlist]; exact hn.back
    · intro hp
      have : ((sysRun v x.svc x.reg es').client v).recv n = ((sysRun v x.svc x.reg es').client v).setConn n { k with pc := .hdr } := by
        unfold ASt.recv
        rw [hconn]
        dsimp only
        rw [hp, hup.client.1]
        rfl
      rw [this] at hrecv
      have h1 := congrArg (fun s : ASt => s.conns[n]?) hrecv
      have hlen := (List.getElem?_eq_some_iff.1 hconn).1
      simp only [ASt.setConn, List.getElem?_set, hlen, if_true, hconn, Option.some.injEq] at h1
      have h2 := congrArg AConn.pc h1
      rw [hp] at h2
      cases h2
    · rw [← hlist]; exact hn.reader.2
    · rw [← hlist]
      intro t ht
      rcases hret t ht with h1 | ⟨m, h1⟩
      · exact h1
      · exact absurd h1 (hn.tasks t ht m)
    · rw [← hlist]; exact hup.listener.2.2.1
    · rw [← hlist]; exact hup.listener.2.1
  rw [hlist]
  exact C120_who_waits_partial v x.svc x.reg es' i call ev n k hd' hmade' hcall hw hl hq hstuck

/-! ### Examples -/

/-- small limits on both sides -/
def exTight : FSetup := ⟨fun _ => exFlowMany, fun _ => exServices, fun _ => exReg⟩

/-- A request that the client's socket does not take at once: the call waits for it. -/
def exTightCall : List FSysEv :=
  [.client (.ev (.call (exAioReq exCallA))), .client (.ev (.start 0 exAddr)), .client (.ev (.dialed 0 true)),
   .client (.turn 0 5), .client (.turn 0 0), .client (.ev (.recv 0)), .client (.take 0 30), .there 0 35, .server 0 (.turn .reader 0)]

/-- The socket takes the rest, the method returns `b''`. -/
def exTightEvs : List FSysEv :=
  exTightCall ++ [.client (.take 0 1000), .client (.turn 0 0), .there 0 1000] ++ List.replicate 6 (.server 0 (.turn .reader 0)) ++
  [.server 0 (.ev (.run 0 (py "t"))), .server 0 (.ev (.futStart 0)), .server 0 (.ev (.futFinish 0 (.ret (.bytes [])))),
   .server 0 (.ev (.result 0))]

def exTightSys : FSys := fsysRun exFlowMany .from38 exTight exTightEvs

def exTightClient : AFSt := exTightSys.client exFlowMany .from38
def exTightPeer : FlowPeer := exTightSys.peer exTight 0
def exTightConn : AConn := (exTightClient.a.conns[0]?).getD { addr := exAddr }
def exTightFlow : CFlow := {}

set_option maxRecDepth 40000 in
/-- on the way the call is held up: the request is on its way, most of it buffered -/
example : ((fsysRun exFlowMany .from38 exTight exTightCall).client exFlowMany .from38).flows =
      [{ buf := 150, paused := true, waiters := [0] }] ∧
    (received (outsideOf ((fsysRun exFlowMany .from38 exTight exTightCall).levs 0))).length = 35 := by decide +kernel

/-- a task that has ended, and that nobody has woken, does nothing when it runs -/
theorem turnTask_ended {c : FlowCfg} {svc : Services} {s : LFSt} (h : ∀ t ∈ s.l.tasks, t.st = .ended) (hw : s.woken = []) (i : Nat) :
    lfStep c svc s (.turn (.task i) 0) = s := by
  show s.turnTask c svc i 0 = s
  unfold LFSt.turnTask
  split
  · rfl
  · next t ht =>
    rw [h t (List.mem_of_getElem? ht)]
    dsimp only
    cases s
    dsimp only at hw
    subst hw
    rfl

set_option maxRecDepth 40000 in
theorem exTight_stuck : Stuck 1 exFlowMany .from38 exTightClient exTightPeer 0 exTightConn exTightFlow := by
  refine ⟨by decide +kernel, by decide +kernel, ?_, by decide +kernel, ?_, by decide +kernel, by decide +kernel, by decide +kernel,
    fun _ _ _ => by decide +kernel, fun _ => by decide +kernel⟩
  · intro i hi
    exfalso
    obtain ⟨call, hc, r, a, hp⟩ := hi
    have : call ∈ exTightClient.a.calls := List.mem_of_getElem? hc
    have h : ∀ call ∈ exTightClient.a.calls, call.pc = .waiting 0 := by decide +kernel
    rw [h call this] at hp
    rcases hp with hp | hp <;> cases hp
  · exact turnTask_ended (by decide +kernel) (by decide +kernel)

set_option maxRecDepth 40000 in
theorem exTight_up : Up exTightPeer exTightConn exTightFlow := ⟨by decide +kernel, by decide +kernel⟩

theorem exTight_made : FlowMade exTightSys.cevs := by
  have h : ∀ e ∈ clientEvs exTightSys.cevs, (match e with | .call r => decide (r = exAioReq exCallA) | _ => true) = true := by
    decide +kernel
  have key : ∀ req, .call req ∈ clientEvs exTightSys.cevs → req = exAioReq exCallA := by
    intro req hr
    simpa using h _ hr
  intro req hr
  rw [key req hr]
  exact .inl ⟨exCallA, .sync, by decide +kernel⟩

theorem exTight_kept : ∀ n, .server n .reset ∉ exTightEvs := by
  intro n h
  simp [exTightEvs, exTightCall] at h

set_option maxRecDepth 40000 in
/-- the case of `C169_none_held` -/
example : NoneHeld exTightClient exTightPeer 0 exTightConn exTightFlow := by
  obtain ⟨es', h⟩ := Simulates.run (c := exFlowMany) (v := .from38) (x := exTight) (fun _ => rfl) exTightEvs exTight_kept
  exact C169_none_held 1 (by decide) exFlowMany (by decide) .from38 exTightSys.cevs (exTightSys.peer exTight)
    (fun _ => (show (10 : Nat) ≤ 60 by decide)) h.joined 0 exTightConn exTightFlow exTight_up exTight_stuck

set_option maxRecDepth 40000 in
/-- the case of `C169_who_waits` -/
example : ∃ (j : Nat) (t : Task) (r : Req) (g : Fate), exTightPeer.st.l.tasks[j]? = some t ∧
    t.kind = .dispatch r ∧ (exAioReq exCallA).requestId = .int r.id ∧ t.fate = some g ∧
    (g = .badCarrier ∨ ∃ x, g = .answered (.ret x) ∧ ¬ ∃ b, x = .bytes b ∧ b ≠ [] ∧ b.length < 4294967296) :=
  C169_who_waits 1 (by decide) exFlowMany (by decide) .from38 exTight (fun _ => rfl) (fun _ => (show (10 : Nat) ≤ 60 by decide)) exTightEvs exTight_kept
    (by decide +kernel) exTight_made 0 exTightConn exTightFlow exTight_up exTight_stuck
    (fun t ht => .inl ((by decide +kernel : ∀ t ∈ exTightPeer.st.l.tasks, t.st = .ended) t ht))
    0 ⟨exAioReq exCallA, .waiting 0, false⟩ 0 (by decide +kernel) rfl (by decide +kernel) (by decide +kernel)

end Bolt
