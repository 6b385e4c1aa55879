import Verif.Props.EndToEnd
import Verif.Props.AioSend
import Verif.Lemmas.AioProgress
/-!
# C87: the asyncio client and asyncio listeners together
-/
namespace Bolt
open Spec

/-! ## C87 -/

/-- what a connection is connected to: an asyncio listener, with its schedule -/
structure Spec.Peer where
  svc : Services
  reg : Registry
  levs : List LEv

def Spec.Peer.st (x : Peer) : LSt := lrun x.svc x.reg x.levs

/-- Each connection of the client leads to a listener: that has received some beginning of what was written on the
connection, and what the client has received on it is some beginning of what the listener wrote. -/
structure Spec.Joined (s : ASt) (peer : Nat → Peer) : Prop where
  there : ∀ (n : Nat) (k : AConn), s.conns[n]? = some k → received (peer n).levs <+: (k.sent.map Prod.snd).flatten
  back : ∀ (n : Nat) (k : AConn), s.conns[n]? = some k → k.recvd <+: (peer n).st.wire

/-- a request of the asyncio client: made by one of the `invoke_...` methods -/
def Spec.AioMade (p : Pkg) : Prop := (∃ a kd, aioRequest a kd = .ok p) ∨ ∃ id, heartbeatRequest id = .ok p

theorem aioRequest_parts {a : CallArgs} {kd : AKind} {p : Pkg} (h : aioRequest a kd = .ok p) :
    ∃ b hd t, a.ctx = some b ∧ buildHeader a.heap b a.interface a.method a.targetApp a.uid a.extra = .ok hd ∧
      newRequest hd a.content .request t a.id = .ok p := by
  unfold aioRequest at h
  split at h
  · cases h
  · next b hb =>
    cases hh : buildHeader a.heap b a.interface a.method a.targetApp a.uid a.extra with
    | error e => rw [hh] at h; cases h
    | ok hd =>
      rw [hh] at h
      exact ⟨b, hd, _, hb, hh, h⟩

theorem aioMade_frame {p : Pkg} {bs : Bytes} (h : AioMade p) (hs : p.toStream = .ok bs) :
    ∃ q : AnyFrame, FrameOf p q ∧ q.bytes = bs := by
  rcases h with ⟨a, kd, h⟩ | ⟨id, h⟩
  · obtain ⟨b, hd, t, -, hh, hn⟩ := aioRequest_parts h
    exact newRequest_frame hh hn hs
  · rw [heartbeatRequest_eq] at h
    cases h
    exact request_frame rfl (by simp [PyDict.NodupKeys]) rfl hs

/-- the frames of a connection -/
theorem sent_frames (s : ASt) (hreq : ∀ c ∈ s.calls, AioMade c.req) : ∀ l : List (Nat × Bytes),
    (∀ i bs, (i, bs) ∈ l → ∃ c : ACall, s.calls[i]? = some c ∧ c.req.toStream = .ok bs) →
    ∃ qs : List AnyFrame, framesBytes qs = (l.map Prod.snd).flatten ∧
      ∀ q ∈ qs, ∃ (i : Nat) (c : ACall), s.calls[i]? = some c ∧ FrameOf c.req q := by
  intro l
  induction l with
  | nil => intro _; exact ⟨[], rfl, by simp⟩
  | cons x l ih =>
    intro h
    obtain ⟨i, bs⟩ := x
    obtain ⟨qs, h1, h2⟩ := ih (fun i' bs' hm => h i' bs' (List.mem_cons_of_mem _ hm))
    obtain ⟨c, hc, hs⟩ := h i bs (by simp)
    obtain ⟨q, hq, hqb⟩ := aioMade_frame (hreq c (List.mem_of_getElem? hc)) hs
    refine ⟨q :: qs, ?_, ?_⟩
    · unfold framesBytes at *
      rw [List.map_cons, List.flatten_cons, h1, hqb]
      rfl
    · intro q' hq'
      rcases List.mem_cons.1 hq' with rfl | hq'
      · exact ⟨i, c, hc, hq⟩
      · exact h2 q' hq'

/-- two calls with the same id are the same call -/
theorem same_call {v : PyVer} {evs : List AEv} (hd : DistinctIds evs) {i j : Nat} {c d : ACall}
    (hc : (arun v evs).calls[i]? = some c) (hc' : (arun v evs).calls[j]? = some d)
    (h : c.req.requestId = d.req.requestId) : i = j :=
  (distinct_of hd).eq hc hc' h

/-- the task behind a response -/
theorem own_task (v : PyVer) (evs : List AEv) (hd : DistinctIds evs) (peer : Nat → Peer)
    (hj : Joined (arun v evs) peer) (hreq : ∀ c ∈ (arun v evs).calls, AioMade c.req) (i : Nat) (c : ACall) (p : Pkg)
    (a : CallArgs) (kd : AKind) (hc : (arun v evs).calls[i]? = some c) (ha : aioRequest a kd = .ok c.req)
    (hr : c.pc = .done (.resp p)) :
    ∃ (n m : Nat) (f : Fut) (ct : Bytes), (peer n).st.futs[m]? = some f ∧ f.st = .finished (.ret (.bytes ct)) ∧
      p.content = .bytes ct ∧ AskedFor (peer n).svc (peer n).reg (peer n).levs a f ∧
      ∃ (j : Nat) (tk : Task) (r : Req), (peer n).st.tasks[j]? = some tk ∧ tk.kind = .dispatch r ∧ tk.fut = some m ∧
        c.req.requestId = .int r.id := by
  obtain ⟨pre, post, n, k, c', us, f, cn, hb, ct, rest, hev, hk, -, -, -, hu, hrecv, hbf, hfit, hcmd, hst, hid, hcont⟩ :=
    C55_own_response v evs hd i c p hc hr
  obtain ⟨k', hk', hgot⟩ := arun_got (pre := k.recvd) v pre (.recv n :: post) hk (List.prefix_refl _)
  rw [← hev] at hk'
  obtain ⟨o, ho⟩ := found_message (hgot.trans (hj.back n k' hk')) hu hrecv hbf
  have hmem := List.mem_of_getElem? ho
  obtain ⟨j, tk, r, m, fu, -, h2, h3, h4, h5, h6, h7⟩ := success_task hmem hbf hfit hst (.inl hcmd)
  have h := LInv.run (peer n).svc (peer n).reg (peer n).levs
  obtain ⟨qs, hqs, hq⟩ := sent_frames (arun v evs) hreq k'.sent
    (fun i bs hm => (C60_on_the_wire v evs i).2 k' (List.mem_of_getElem? hk') bs hm)
  obtain ⟨more, hmore⟩ := hj.there n k' hk'
  rw [← hqs] at hmore
  obtain ⟨l, l', hl, hacts⟩ := acts_prefix (peer n).svc (peer n).reg (peer n).levs qs more
    (fun q hm => by obtain ⟨_, _, _, h⟩ := hq q hm; exact h.ok) hmore
  obtain ⟨x, hx, hxk, -⟩ := task_act h h2
  rw [h3] at hxk
  have hxd : x = .dispatch r := by
    cases x with
    | dispatch r' => injection hxk with hxk; injection hxk with hxk; rw [hxk]
    | heartbeat id => injection hxk with hxk; cases hxk
    | _ => cases hxk
  subst hxd
  have hxl : .dispatch r ∈ l := by
    rcases hacts with e | ⟨-, i, e⟩
    · rw [e] at hx; exact hx
    · rw [e] at hx
      rcases List.mem_append.1 hx with hx | hx
      · exact hx
      · cases List.mem_singleton.1 hx
  have hxq : .dispatch r ∈ qs.map AnyFrame.verdict := by rw [hl]; exact List.mem_append_left _ hxl
  obtain ⟨q, hqm, hqv⟩ := List.mem_map.1 hxq
  obtain ⟨i', c'', hc'', hfr⟩ := hq q hqm
  have hrq : r = ⟨q.f.ptype, q.f.requestId, q.header, q.content, q.f.seventh⟩ := by
    unfold AnyFrame.verdict at hqv
    split at hqv
    · cases hqv
    · split at hqv
      · cases hqv
      · cases hqv; rfl
  subst hrq
  have hi : i' = i := by
    refine same_call hd hc'' hc ?_
    rw [hfr.id, hid, ← h4]
  subst hi
  rw [hc] at hc''
  cases hc''
  obtain ⟨b, hdr, t, hb1, hb2, hb3⟩ := aioRequest_parts ha
  exact ⟨n, m, fu, ct, h6, h7, hcont, askedFor_of_task (newRequest_requestOf hb1 hb2 hb3 hfr) h2 h3 h5 h6, j, tk, _, h2, h3, h5,
    hfr.id⟩

/-- C87. An asyncio client makes any number of calls, concurrently and on any number of connections, each leading to an
asyncio listener. Whatever all of them do, in whatever order the methods end and however the bytes are cut: if the call
with arguments `a` returns a response, a listener has made the call that `a` asks for, and the content of the response
is the bytes this call returned. -/
theorem C87_own_result (v : PyVer) (evs : List AEv) (hd : DistinctIds evs) (peer : Nat → Peer)
    (hj : Joined (arun v evs) peer) (hreq : ∀ c ∈ (arun v evs).calls, AioMade c.req) (i : Nat) (c : ACall) (p : Pkg)
    (a : CallArgs) (kd : AKind) (hc : (arun v evs).calls[i]? = some c) (ha : aioRequest a kd = .ok c.req)
    (hr : c.pc = .done (.resp p)) :
    ∃ (n m : Nat) (f : Fut) (ct : Bytes), (peer n).st.futs[m]? = some f ∧ f.st = .finished (.ret (.bytes ct)) ∧
      p.content = .bytes ct ∧ AskedFor (peer n).svc (peer n).reg (peer n).levs a f := by
  obtain ⟨n, m, f, ct, h1, h2, h3, h4, -⟩ := own_task v evs hd peer hj hreq i c p a kd hc ha hr
  exact ⟨n, m, f, ct, h1, h2, h3, h4⟩

/-- C87, the other direction. A call waits, and a package with its id has arrived on some connection, behind any number
of other frames. Once the reading task of this connection has had as many turns as it needs for these frames, whatever
else happens in between, the call has returned a response with its id, or returns it as soon as it is woken; provided
that the connection is neither lost nor given up, the call is not cancelled, and the packages with its id that are
processed are successful. (By `C87_own_result` it returns what its method has returned.) -/
theorem C87_completes (v : PyVer) (pre post : List AEv) (hd : DistinctIds (pre ++ post)) (i ev n m : Nat) (c : ACall)
    (k : AConn) (p : Pkg) (hc : (arun v pre).calls[i]? = some c) (hw : c.pc = .waiting ev) (hset : c.set = false)
    (hcan : .cancel i ∉ post) (hk : (arun v pre).conns[n]? = some k) (hdue : Due p k m)
    (hid : p.requestId = c.req.requestId) (hturns : m ≤ post.count (.recv n))
    (hend : ∃ y, (arun v (pre ++ post)).conns[n]? = some y ∧ y.cancelled = false ∧ y.lost = false)
    (hgood : ∀ q1 q2 m q, post = q1 ++ .recv m :: q2 → Processes (arun v (pre ++ q1)) m q →
      q.requestId = c.req.requestId → q.cmdcode = .response ∧ q.respstatus = .success) :
    ∃ c' q, (arun v (pre ++ post)).calls[i]? = some c' ∧ q.requestId = c.req.requestId ∧
      (c'.pc = .done (.resp q) ∨ c'.pc = .waiting i ∧
        ∃ c'', (arun v (pre ++ post ++ [.wake i])).calls[i]? = some c'' ∧ c''.pc = .done (.resp q)) := by
  -- the first package with the id
  have first : ∀ (N : Nat) (q1 q2 : List AEv) (m : Nat) (q : Pkg), q1.length = N → post = q1 ++ .recv m :: q2 →
      Processes (arun v (pre ++ q1)) m q → q.requestId = c.req.requestId →
      ∃ (q1 q2 : List AEv) (m : Nat) (q : Pkg), post = q1 ++ .recv m :: q2 ∧ Processes (arun v (pre ++ q1)) m q ∧
        q.requestId = c.req.requestId ∧ ∀ r m' rest, q1 = r ++ .recv m' :: rest → ∀ p, Processes (arun v (pre ++ r)) m' p →
          p.requestId ≠ c.req.requestId := by
    intro N
    induction N using Nat.strongRecOn with
    | ind N ih =>
      intro q1 q2 m q hN hp hpr hq
      by_cases h : ∃ r m' rest p, q1 = r ++ .recv m' :: rest ∧ Processes (arun v (pre ++ r)) m' p ∧
          p.requestId = c.req.requestId
      · obtain ⟨r, m', rest, p, h1, h2, h3⟩ := h
        refine ih r.length ?_ r (rest ++ .recv m :: q2) m' p rfl ?_ h2 h3
        · rw [← hN, h1, List.length_append, List.length_cons]; omega
        · rw [hp, h1]; simp
      · refine ⟨q1, q2, m, q, hp, hpr, hq, ?_⟩
        intro r m' rest h1 p h2 h3
        exact h ⟨r, m', rest, p, h1, h2, h3⟩
  obtain ⟨p1, p2, hp, hpr⟩ := due_processed v pre n p post k m hk hdue hturns hend
  obtain ⟨q1, q2, m', q, hq, hqp, hqid, hno⟩ := first _ p1 p2 n p rfl hp hpr hid
  subst hq
  have hd1 : DistinctIds (pre ++ q1) := by
    rw [← List.append_assoc] at hd
    exact hd.prefix
  obtain ⟨d, d1, d2, d3, d4⟩ := C63_waits v pre q1 hd1 i ev c hc hw hset (fun h => hcan (List.mem_append_left _ h)) hno
  obtain ⟨c', e1, e2, -⟩ := C59_waiting_partial v (pre ++ q1) q2 m' (by rw [List.append_assoc]; exact hd) q hqp
    (hgood q1 q2 m' q rfl hqp hqid) i ev d d1 (by rw [d4]; exact hqid.symm) d2 d3
    (fun h => hcan (List.mem_append_right _ (List.mem_cons_of_mem _ h)))
  rw [List.append_assoc] at e1
  refine ⟨c', q, e1, hqid, ?_⟩
  rcases e2 with e2 | ⟨e2, c'', e3, e4⟩
  · exact .inl e2
  · refine .inr ⟨e2, c'', ?_, e4⟩
    rw [List.append_assoc pre q1] at e3
    exact e3

/-! A client makes two calls on one connection; the listener reads both, the second method ends first. -/

def exCallA : CallArgs := { exCall with id := 7, content := .bytes [1] }
def exCallB : CallArgs := { exCall with id := 9, content := .bytes [2] }

def exAioReq (a : CallArgs) : Pkg := (aioRequest a .sync).toOption.getD exHb
def exAioBytes (a : CallArgs) : Bytes := (exAioReq a).toStream.toOption.getD []

/-- what the listener does -/
def exPeerEvs : List LEv :=
  [.data (exAioBytes exCallA ++ (exAioBytes exCallB).take 30)] ++ List.replicate 6 .reader ++
  [.data ((exAioBytes exCallB).drop 30)] ++ List.replicate 6 .reader ++
  [.run 0 (py "t"), .run 1 (py "u"), .futStart 0, .futStart 1, .futFinish 1 (.ret (.bytes [22])), .result 1, .write 1,
   .futFinish 0 (.ret (.bytes [11])), .result 0, .write 0]

def exPeer : Peer := ⟨exServices, exReg, exPeerEvs⟩

/-- what the client does until both calls wait and the responses have arrived -/
def exAioPre : List AEv :=
  [.call (exAioReq exCallA), .call (exAioReq exCallB), .start 0 exAddr, .start 1 exAddr, .dialed 0 true, .lock 1,
   .drained 0 true, .drained 1 true, .drained 1 true, .drained 0 true, .recv 0, .data 0 exPeer.st.wire]

set_option maxRecDepth 40000 in
example : (aioRequest exCallA .sync = .ok (exAioReq exCallA) ∧ aioRequest exCallB .sync = .ok (exAioReq exCallB)) ∧
    DistinctIds exAioPre ∧
    (arun .from38 exAioPre).conns.map (fun k => (k.sent.map Prod.snd).flatten) = [received exPeerEvs] ∧
    (arun .from38 exAioPre).conns.map AConn.recvd = [exPeer.st.wire] ∧
    exPeer.st.wire = reply 9 0 [22] ++ reply 7 0 [11] ∧
    exPeer.st.futs.map (fun f => (f.body, f.st)) = [([1], .finished (.ret (.bytes [11]))), ([2], .finished (.ret (.bytes [22])))] ∧
    (arun .from38 exAioPre).calls.map ACall.pc = [.waiting 0, .waiting 1] ∧
    (arun .from38 (exAioPre ++ [.recv 0, .recv 0, .recv 0, .recv 0, .wake 0, .wake 1])).calls.map (fun c =>
      match c.pc with | .done r => some (syncResult r) | _ => none) =
      [some (.ok (.bytes [11])), some (.ok (.bytes [22]))] := by
  decide +kernel

end Bolt
