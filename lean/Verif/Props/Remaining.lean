import Verif.Props.SyncSend
import Verif.Props.AioDial
import Verif.Props.AioServer
import Verif.Props.ListenerCalls
import Verif.Props.SockServer
/-!
# What happens in the cases that C52, C73, C81, C96, C97, C108 and C114 leave out

The parts of these properties that hold are proved elsewhere; here is what the code does otherwise.
-/
namespace Bolt
open Spec

/-! ## C52 -/

/-- C52, exactly: a synchronous call is still receiving iff in every round so far the socket was ready and `recv` raised
nothing, and the bytes read are less than the frame. The time plays no part. -/
theorem C52_exact (reqId : Int) (stream : Bytes) (evs : List RecvEv) :
    (recvRun reqId stream evs).out = none ↔
      (∀ e ∈ evs, ∃ n, e = .recv n) ∧ (recvRun reqId stream evs).buf.length < Spec.declaredLength false stream := by
  constructor
  · intro h
    refine ⟨?_, ?_⟩
    · induction evs using snoc_induct with
      | nil => intro e he; cases he
      | snoc evs e ih =>
        rw [recvRun_snoc] at h
        have h0 : (recvRun reqId stream evs).out = none := by
          cases hs : (recvRun reqId stream evs).out with
          | none => rfl
          | some r =>
            rw [recvStep_ended _ _ _ (by rw [hs]; rfl), hs] at h
            cases h
        intro x hx
        rcases List.mem_append.1 hx with hx | hx
        · exact ih h0 x hx
        · rw [List.mem_singleton] at hx
          subst hx
          cases x with
          | recv n => exact ⟨n, rfl⟩
          | timeout => simp [recvStep, h0] at h
          | fail e => simp [recvStep, h0] at h
    · rcases recv_run reqId stream evs with ⟨_, h2⟩ | ⟨r, h2, _⟩ | ⟨h2, _⟩ | ⟨e, h2, _⟩
      · exact inv_lt stream _ h2
      · rw [h2] at h; cases h
      · rw [h2] at h; cases h
      · rw [h2] at h; cases h
  · rintro ⟨h1, h2⟩
    cases hr : (recvRun reqId stream evs).out with
    | none => rfl
    | some r =>
      have := ((C51_one_frame reqId stream evs).2.2 r hr
        (fun hm => by obtain ⟨n, hn⟩ := h1 _ hm; cases hn) (fun e hm => by obtain ⟨n, hn⟩ := h1 _ hm; cases hn)).1
      omega

/-- C52: a peer that closes the connection before it has sent a whole response keeps the call for ever, however much of
the response it has sent and however late it is: `select` says that the socket is ready. -/
theorem C52_never (reqId : Int) (stream : Bytes) (h : stream.length < Spec.declaredLength false stream) (deadline : Int)
    (rounds : List (Int × Nat)) (_ : TimedRun deadline (rounds.map fun x => (x.1, .recv x.2))) :
    (recvRun reqId stream (rounds.map fun x => RecvEv.recv x.2)).out = none := by
  rw [C52_exact]
  refine ⟨?_, ?_⟩
  · intro e he
    obtain ⟨x, -, rfl⟩ := List.mem_map.1 he
    exact ⟨_, rfl⟩
  · have := (C51_one_frame reqId stream (rounds.map fun x => RecvEv.recv x.2)).1
    have hl := congrArg List.length this
    rw [List.length_append] at hl
    omega

/-- half of a response -/
example : (exRespStream.take 22).length < Spec.declaredLength false (exRespStream.take 22) ∧
    TimedRun 5 ([(1, 100), (9, 100), (100, 100)].map fun x : Int × Nat => (x.1, RecvEv.recv x.2)) := by
  refine ⟨by decide, by decide, ?_⟩
  intro x hx
  simp only [List.map_cons, List.map_nil, List.mem_cons, List.not_mem_nil, or_false] at hx
  rcases hx with rfl | rfl | rfl <;> intro h <;> cases h

/-! ## C73 -/

/-- C73: a one-way request that is refused is always answered, once, like a two-way request; one whose call has been
submitted, or whose trace context cannot be read, is not. -/
theorem C73_exact (svc : Services) (reg : Registry) (evs : List LEv) (j : Nat) (t : Task) (r : Req)
    (hs : (lrun svc reg evs).settled) (hc : (lrun svc reg evs).closed = false)
    (ht : (lrun svc reg evs).tasks[j]? = some t) (hk : t.kind = .dispatch r) (h2 : r.callType = 2) :
    ((t.fate = some .accepted ∨ t.fate = some .badCarrier) ∧ (lrun svc reg evs).out.filter (fun x => x.1 = .task j) = []) ∨
    (t.fut = none ∧ ∃ m, (lrun svc reg evs).out.filter (fun x => x.1 = .task j) = [(.task j, m)] ∧
      ((t.fate = some .badName ∧ m = reply r.id 0x08 []) ∨ (t.fate = some .notFound ∧ m = reply r.id 0x06 []) ∨
        ∃ e, t.fate = some (.failed e) ∧ m = reply r.id 0x02 [])) := by
  have h := LInv.run svc reg evs
  have hw := task_written h hs hc ht
  have htk := h.task j t ht
  have hend := hs.2 t (List.mem_of_getElem? ht)
  unfold TaskOk at htk
  rw [hk] at htk
  obtain ⟨hst, hfate, -⟩ := htk
  rw [hend] at hst
  obtain ⟨f, hf⟩ := Option.isSome_iff_exists.1 (show t.fate.isSome from hst)
  have hfo := hfate f hf
  have htr : taskReply t = owed r.id f := by simp [taskReply, hk, hf]
  rw [htr] at hw
  cases f with
  | badName => exact .inr ⟨hfo.2, _, hw, .inl ⟨hf, rfl⟩⟩
  | badCarrier => exact .inl ⟨.inr hf, hw⟩
  | notFound => exact .inr ⟨hfo.1, _, hw, .inr (.inl ⟨hf, rfl⟩)⟩
  | failed e => exact .inr ⟨hfo.1, _, hw, .inr (.inr ⟨e, hf, rfl⟩)⟩
  | accepted => exact .inl ⟨.inl hf, hw⟩
  | expired => exact absurd h2 hfo.1
  | answered o => exact absurd h2 hfo.1.1

set_option maxRecDepth 20000 in
/-- a one-way request for an unknown service -/
example : let s := lrun exServices [] [.data exOneway.bytes, .reader, .reader, .reader, .reader, .run 0 (py "t"), .write 0]
    s.settled ∧ s.closed = false ∧ s.tasks.map Task.kind = [.dispatch exOneway.req] ∧ exOneway.req.callType = 2 ∧
      s.out = [(.task 0, reply 9 6 [])] := by
  decide +kernel

/-! ## C81 -/

/-- C81: every client that closes its side after having sent whole requests is sent CONNECTION_CLOSED with the id of its
last request, whether that one has been answered or not. -/
theorem C81_again (svc : Services) (reg : Registry) (evs : List LEv) (qs : List AnyFrame) (q : AnyFrame)
    (hq : ∀ x ∈ qs ++ [q], x.Ok) (hb : received evs = framesBytes (qs ++ [q])) (he : sawEof evs = false)
    (hi : (lrun svc reg evs).idle) (hc : (lrun svc reg evs).closed = false) (hr : .reset ∉ evs) :
    (lrun svc reg (evs ++ [.eof, .reader, .reader])).out = (lrun svc reg evs).out ++
      [(.reader (lrun svc reg evs).acts.length, reply q.f.requestId RespStatus.connectionClosed.code [])] ∧
    (lrun svc reg (evs ++ [.eof, .reader, .reader])).closed = true := by
  obtain ⟨e1, e2, e3⟩ := lrun_env svc reg evs
  obtain ⟨l, rd, h1, hx⟩ := ReadInv.run svc reg evs
  rw [e1, hb] at h1
  obtain ⟨last, h2, hl⟩ := reads_frames (qs ++ [q]) hq none []
  rw [List.append_nil] at h2
  rw [List.getLast?_append, List.getLast?_singleton] at hl
  have hl : last = some q.f.requestId := hl
  have hrd : (lrun svc reg evs).rd = rd := by
    rcases hx with ⟨-, h⟩ | ⟨h, -⟩ | ⟨h, -⟩
    · exact h
    · rw [e3] at h
      exact absurd (List.contains_iff_mem.1 h) hr
    · rw [e2, he] at h; cases h
  obtain ⟨ht, hn⟩ := hi
  rw [e2, he, hrd] at hn
  obtain ⟨-, e4, e5⟩ := h1.unique hn h2 rfl
  have hid : IdOk q.f.requestId := by
    have := (hq q (by simp)).fit
    exact this.requestId
  rw [lrun_append]
  generalize hs : lrun svc reg evs = s at *
  have r1 : (lstep svc s .eof).reader = { s with
      eof := true, rd := ⟨.stopped, last⟩, acts := s.acts ++ [.close last .connectionClosed]
      tail := .closing (some (reply q.f.requestId RespStatus.connectionClosed.code [])) } := by
    have hbuf : s.buf = [] := e5
    have hrd' : s.rd = ⟨.hdr, last⟩ := by rw [hrd, e4]
    unfold LSt.reader
    simp only [lstep, ht, hbuf, hrd', readerIter]
    rw [if_neg (by decide), if_pos trivial]
    simp only [LSt.perform, hl, Option.bind_some, failMsg_ok _ hid, Except.toOption]
  show (List.foldl (lstep svc) s [.eof, .reader, .reader]).out = _ ∧ (List.foldl (lstep svc) s [.eof, .reader, .reader]).closed = true
  have r2 : List.foldl (lstep svc) s [.eof, .reader, .reader] = ((lstep svc s .eof).reader).reader := rfl
  rw [r2, r1]
  unfold LSt.reader LSt.write
  simp [hc]

set_option maxRecDepth 20000 in
/-- a request that has been answered -/
example : let s := lrun exServices exReg (exCallEvs (exReq 3 [1]).bytes (.ret (.bytes [7, 8])) ++ [.write 0])
    s.idle ∧ s.closed = false ∧ s.out = [(.task 0, reply 3 0 [7, 8])] := by decide +kernel

/-! ## C96, C97 -/

/-- C96, exactly: a send that fails while attempts are left is tried again iff the address still has its connection and
its lock; otherwise the call is over, without a response. -/
theorem C96_exact (v : PyVer) (evs : List AEv) (i r : Nat) (a : Addr) (n : Nat) (hf : Flushing (arun v evs) i r a n)
    (hr : 1 < r) :
    ((PyDict.contains (arun v evs).connMap a = true ∧ PyDict.contains (arun v evs).dialMap a = true) ∧
      Retrying (astep v (arun v evs) (.drained i false)) i (r - 1) a) ∨
    (¬ (PyDict.contains (arun v evs).connMap a = true ∧ PyDict.contains (arun v evs).dialMap a = true) ∧
      ∃ c, (astep v (arun v evs) (.drained i false)).calls[i]? = some c ∧ (c.pc = .done .none ∨ c.pc = .done (.raised .keyError))) := by
  by_cases h : PyDict.contains (arun v evs).connMap a = true ∧ PyDict.contains (arun v evs).dialMap a = true
  · exact .inl ⟨h, C96_retried_partial v evs i r a n hf hr (.inl h)⟩
  · refine .inr ⟨h, ?_⟩
    obtain ⟨c, hc, hp⟩ := hf
    have e : astep v (arun v evs) (.drained i false) = (arun v evs).broken i c r a n := by
      rcases hp with hp | hp <;> simp only [astep, ASt.drained, hc, hp, Bool.false_eq_true, if_false]
    rw [e]
    have fails : ∀ s : ASt, s.calls[i]? = some c →
        ∃ c', (s.sendFailed i c).calls[i]? = some c' ∧ (c'.pc = .done .none ∨ c'.pc = .done (.raised .keyError)) := by
      intro s hs
      unfold ASt.sendFailed
      split
      · obtain ⟨c', h1, h2⟩ := setPc_get (s := { s with reqs := PyDict.erase s.reqs c.req.requestId }) hs (.done .none)
        exact ⟨c', h1, .inl h2⟩
      · obtain ⟨c', h1, h2⟩ := setPc_get hs (.done (.raised .keyError))
        exact ⟨c', h1, .inr h2⟩
    unfold ASt.broken
    dsimp only
    split
    · next h1 =>
      rw [if_neg (fun h2 => h ⟨h1, h2⟩)]
      exact fails _ hc
    · exact fails _ hc

/-- both cases occur: the first call that notices, and the second one -/
example : (PyDict.contains (arun .from38 exTwoFlush).connMap exAddr = true ∧
      PyDict.contains (arun .from38 exTwoFlush).dialMap exAddr = true) ∧
    PyDict.contains (arun .from38 exBroken).connMap exAddr = false := by decide +kernel

/-- an address has one entry -/
theorem connMap_nodup (v : PyVer) (evs : List AEv) : PyDict.NodupKeys (arun v evs).connMap := by
  have hsf : ∀ (s : ASt) (k : Nat) (x : ACall), (s.sendFailed k x).connMap = s.connMap := by
    intro s k x
    unfold ASt.sendFailed
    split <;> rfl
  have hb : ∀ (s : ASt) (i : Nat) (c : ACall) (r : Nat) (a : Addr) (n : Nat), PyDict.NodupKeys s.connMap →
      PyDict.NodupKeys (s.broken i c r a n).connMap := by
    intro s i c r a n h
    rw [broken_connMap]
    exact PyDict.nodup_erase h a
  have hn : ∀ (s : ASt) (x : PyObj), (s.notify x).connMap = s.connMap := by
    intro s x
    unfold ASt.notify
    split <;> rfl
  have hp : ∀ (s : ASt) (p : Pkg), (s.onPkg p).connMap = s.connMap := by
    intro s p
    unfold ASt.onPkg
    repeat' split
    all_goals rw [hn]
  induction evs using snoc_induct with
  | nil => exact List.nodup_nil
  | snoc evs e h =>
    rw [arun_snoc]
    generalize arun v evs = s at h
    cases e with
    | call req => exact h
    | start i a =>
      simp only [astep, ASt.start]
      repeat' split
      all_goals first | exact h | (rw [send_connMap]; exact h)
    | lock i =>
      simp only [astep, ASt.lockTurn]
      repeat' split
      all_goals exact h
    | dialed i ok =>
      simp only [astep, ASt.dialed]
      repeat' split
      all_goals first | exact h | (rw [hsf]; exact h) | exact PyDict.nodup_set h _ _
    | drained i ok =>
      simp only [astep, ASt.drained]
      repeat' split
      all_goals first | exact h | exact hb _ _ _ _ _ _ h
    | wake i =>
      simp only [astep, ASt.wake]
      repeat' split
      all_goals exact h
    | cancel i =>
      simp only [astep, ASt.cancel]
      repeat' split
      all_goals first | exact h | (rw [hsf]; exact h) | exact hb _ _ _ _ _ _ h
    | recv n =>
      simp only [astep, ASt.recv]
      repeat' split
      all_goals first | exact h | (rw [hp]; exact h)
    | data n bs => exact h
    | eof n => exact h
    | reset n => exact h

/-- C97: a call that gives up a connection always leaves its address without a connection, also when the one in use has
replaced the one it gives up; that one is left as it is, neither cancelled nor closed. -/
theorem C97_dropped (v : PyVer) (evs : List AEv) (i r : Nat) (a : Addr) (n : Nat) (hf : Flushing (arun v evs) i r a n) :
    PyDict.get? (astep v (arun v evs) (.drained i false)).connMap a = none ∧
    ∀ m, PyDict.get? (arun v evs).connMap a = some m → m ≠ n →
      (astep v (arun v evs) (.drained i false)).conns[m]? = (arun v evs).conns[m]? := by
  refine ⟨?_, fun m _ hne => (C97_others_partial v evs i r a n hf).2.1 m hne⟩
  obtain ⟨c, hc, hp⟩ := hf
  have e : astep v (arun v evs) (.drained i false) = (arun v evs).broken i c r a n := by
    rcases hp with hp | hp <;> simp only [astep, ASt.drained, hc, hp, Bool.false_eq_true, if_false]
  rw [e, broken_connMap, PyDict.get?_erase (connMap_nodup v evs), if_pos rfl]

example : (arun .from38 exReplaced).connMap = [(exAddr, 1)] ∧
    (arun .from38 exReplaced).calls.map ACall.pc = [.drain1 2 exAddr 1, .drain1 3 exAddr 0] := by decide +kernel

/-! ## C108 -/

/-- C108: `shutdown` changes nothing but that no connection is accepted: everything else goes on, with the same effect, as
if it had not been called and nobody had tried to connect. -/
theorem C108_serves_on (svc : Services) (reg : Registry) (evs evs' : List SrvEv) :
    srvRun svc reg (evs ++ .shutdown :: evs') =
      { srvRun svc reg (evs ++ evs'.filter (fun e => decide (e ≠ .accept))) with listening := false } := by
  have step : ∀ (s : SrvSt) (e : SrvEv), e ≠ .accept →
      srvStep svc { s with listening := false } e = { srvStep svc s e with listening := false } := by
    intro s e he
    cases e with
    | accept => exact absurd rfl he
    | conn c e =>
      unfold srvStep
      dsimp only
      split
      · split <;> rfl
      · rfl
    | take =>
      unfold srvStep
      dsimp only
      split
      · rfl
      · split
        · have : ∀ x, SrvSt.futSt { s with listening := false } x = s.futSt x := fun _ => rfl
          rw [this]
          split <;> rfl
        · rfl
    | finish c k o =>
      unfold srvStep
      dsimp only
      split <;> rfl
    | _ => rfl
  have run : ∀ (evs' : List SrvEv) (s : SrvSt), evs'.foldl (srvStep svc) { s with listening := false } =
      { (evs'.filter (fun e => decide (e ≠ .accept))).foldl (srvStep svc) s with listening := false } := by
    intro evs'
    induction evs' with
    | nil => intro s; rfl
    | cons e evs' ih =>
      intro s
      by_cases he : e = .accept
      · subst he
        rw [List.foldl_cons, List.filter_cons_of_neg (by simp)]
        exact ih s
      · rw [List.foldl_cons, List.filter_cons_of_pos (by simp [he]), List.foldl_cons, step s e he]
        exact ih _
  unfold srvRun
  rw [List.foldl_append, List.foldl_append, List.foldl_cons]
  exact run evs' _

/-- a request that arrives after the shutdown is executed -/
example : (srvRun exServices exReg ([.accept] ++ .shutdown :: exSubmit 0)).futSt (0, 0) = some .running := by decide +kernel

/-! ## C114 -/

/-- C114, which calls are answered: a call that returns a response was the first one to be sent on one of its connections,
whose listener has sent nothing but this response. All others, sent after another one on each of their connections, never
return a response. -/
theorem C114_first (v : PyVer) (evs : List AEv) (hd : DistinctIds evs) (peer : Nat → SockPeer)
    (hj : SockJoined (arun v evs) peer) (hreq : ∀ c ∈ (arun v evs).calls, AioMade c.req) (i : Nat) (c : ACall) (p : Pkg)
    (hc : (arun v evs).calls[i]? = some c) (hr : c.pc = .done (.resp p)) :
    ∃ (n : Nat) (k : AConn) (bs : Bytes), (arun v evs).conns[n]? = some k ∧ k.sent.head? = some (i, bs) ∧
      ∃ m, (peer n).st.out = [m] := by
  obtain ⟨pre, post, n, k, c', us, f, cn, hb, ct, rest, hev, hk, -, -, -, hu, hrecv, hbf, hfit, hcmd, hst, hid, hcont⟩ :=
    C55_own_response v evs hd i c p hc hr
  obtain ⟨k', hk', hgot⟩ := arun_got (pre := k.recvd) v pre (.recv n :: post) hk (List.prefix_refl _)
  rw [← hev] at hk'
  have hback := hgot.trans (hj.back n k' hk')
  obtain ⟨more, hmore⟩ := hj.there n k' hk'
  have hone : ∃ m, (peer n).st.out = [m] := by
    have h1 := (C111_at_most_one (peer n).svc (peer n).reg (peer n).sevs).2
    have h2 := hback.length_le
    have h3 := (frame_unit (f := f) hbf).1
    rw [hrecv] at h2
    change (srun (peer n).svc (peer n).reg (peer n).sevs).out.length ≤ 1 at h1
    unfold SockPeer.st at h2 ⊢
    generalize (srun (peer n).svc (peer n).reg (peer n).sevs).out = out at h1 h2
    match out with
    | [] => simp only [List.length_append, List.flatten_nil, List.length_nil] at h2; omega
    | [m] => exact ⟨m, rfl⟩
    | _ :: _ :: _ => simp at h1
  match hsent : k'.sent with
  | [] =>
    exfalso
    rw [hsent] at hmore
    have h0 : sreceived (peer n).sevs = [] := (List.append_eq_nil_iff.1 hmore).1
    have key : ∀ id : Int, (exReq id [1]).Ok → id = f.requestId := by
      intro id hok
      obtain ⟨call, -, -, -, h4⟩ := sock_success (svc := (peer n).svc) (reg := (peer n).reg) (q := (exReq id [1]).any)
        ⟨hok.fit, hok.body, hok.decodes⟩ (rest := []) (more := (exReq id [1]).any.bytes)
        (by rw [h0, List.append_nil]; rfl) hu hrecv hbf hfit hcmd hst hback
      exact h4
    have h3 := key 3 (exReq_ok 3 [1] (by constructor <;> decide) (by decide))
    have h4 := key 4 (exReq_ok 4 [1] (by constructor <;> decide) (by decide))
    omega
  | (j, bs) :: l =>
    obtain ⟨d, hdc, hs⟩ := (C60_on_the_wire v evs j).2 k' (List.mem_of_getElem? hk') bs (by rw [hsent]; simp)
    obtain ⟨q, hq, hqb⟩ := aioMade_frame (hreq d (List.mem_of_getElem? hdc)) hs
    rw [hsent, List.map_cons, List.flatten_cons] at hmore
    obtain ⟨call, h1, h2, h3, h4⟩ := sock_success hq.ok (hmore.trans (by rw [hqb])) hu hrecv hbf hfit hcmd hst hback
    have hi : j = i := same_call hd hdc hc (by rw [hq.id, hid, h4])
    subst hi
    exact ⟨n, k', bs, hk', by rw [hsent]; rfl, hone⟩

set_option maxRecDepth 40000 in
/-- two calls on one connection: the first one returns, the second one does not -/
example : (arun .from38 exSockAio).conns.map (fun k => k.sent.map Prod.fst) = [[0, 1]] ∧
    exSockPeer.st.out = [reply 7 0 [11]] ∧
    (arun .from38 exSockAio).calls.map (fun c => match c.pc with | .done (.resp _) => true | _ => false) = [true, false] := by
  decide +kernel

end Bolt
