import Verif.Props.EndToEnd
import Verif.Props.EndToEndAio
import Verif.Props.AioServer
/-!
# C112: any number of clients of one asyncio listener
-/
namespace Bolt
open Spec

theorem registrations_filter (evs : List LEv) : registrations (evs.filter notExec) = registrations evs := by
  unfold registrations
  rw [List.filterMap_filter]
  congr 1
  funext e
  cases e <;> rfl

/-- which call is asked for does not depend on the events of the executor -/
theorem Spec.AskedFor.filter {svc : Services} {reg : Registry} {levs : List LEv} {a : CallArgs} {f : Fut}
    (h : AskedFor svc reg levs a f) : AskedFor svc reg (levs.filter notExec) a f := by
  obtain ⟨h1, ⟨s, m, pre, post, j, fresh, e1, e2, rfl, e4⟩, h3⟩ := h
  refine ⟨h1, ⟨s, m, pre.filter notExec, post.filter notExec, j, fresh, e1, e2, ?_, ?_⟩, h3⟩
  · rw [List.filter_append, List.filter_cons]; rfl
  · rw [registrations_filter]; exact e4

/-! ## C112 -/

/-- C112, synchronous clients. A listener serves any number of connections. On connection `c` there is a synchronous client
with one call. Whatever happens on this and on all other connections, whatever the threads do and however the bytes are
cut: if `invoke_sync` returns, the listener has made exactly one call for this connection, the one asked for, and
`invoke_sync` returns the bytes this call returned. -/
theorem C112_sync {C : Type} (svc : Services) (reg : Registry) (sevs : List SrvEv) (c : Nat) (l : LSt)
    (hc : (srvRun svc reg sevs).conns[c]? = some l) (a : CallArgs) (t : TimeoutArg)
    (env : Nat → Attempt C) (registers : Bool) (stream : Bytes) (evs : List RecvEv) (v : PyObj)
    (hin : received (view c reg sevs).evs <+:
      ((rawInvoke { a with timeout := t.obj, ptype := .request } env).2.wire.map Prod.snd).flatten)
    (hout : stream <+: l.wire)
    (hr : invokeSync a t env registers stream evs = .ended (.ok v)) :
    ∃ (f : Fut) (ct : Bytes), l.futs = [f] ∧ f.st = .finished (.ret (.bytes ct)) ∧ v = .bytes ct ∧
      AskedFor svc (view c reg sevs).reg (view c reg sevs).evs a f := by
  obtain ⟨es, rfl, hes⟩ := C104_alone svc reg sevs c l hc
  rw [← hes, received_filter] at hin
  obtain ⟨f, ct, h1, h2, h3, h4⟩ := C86_returns_result svc _ es a t env registers stream evs v hin hout hr
  exact ⟨f, ct, h1, h2, h3, by rw [← hes]; exact h4.filter⟩

/-- C112, the other direction: when the whole request has arrived on the connection and this connection has settled,
whatever the others do, `invoke_sync` ends as the call has fared. -/
theorem C112_sync_ends {C : Type} (svc : Services) (reg : Registry) (sevs : List SrvEv) (c : Nat) (l : LSt)
    (hc : (srvRun svc reg sevs).conns[c]? = some l) (a : CallArgs) (t : TimeoutArg)
    (env : Nat → Attempt C) (p : Pkg) (x : Int × C) (ns : List Nat)
    (ht : ∀ o, t ≠ .other o)
    (hp : ({ a with timeout := t.obj, ptype := .request } : CallArgs).request = .ok p)
    (hsent : (rawInvoke { a with timeout := t.obj, ptype := .request } env).1 = .ok x)
    (hin : p.toStream = .ok (received (view c reg sevs).evs)) (he : sawEof (view c reg sevs).evs = false)
    (hn : .reset ∉ (view c reg sevs).evs) (hs : l.settled) (hlen : l.wire.length ≤ ns.length) :
    ∃ (tk : Task) (fa : Fate), l.tasks = [tk] ∧ tk.fate = some fa ∧
      invokeSync a t env true l.wire (chunked ns) = callerSees fa := by
  obtain ⟨es, rfl, hes⟩ := C104_alone svc reg sevs c l hc
  rw [← hes, received_filter] at hin
  rw [← hes, sawEof_filter] at he
  rw [← hes] at hn
  exact C86_ends_accordingly svc _ es a t env p x ns ht hp hsent hin he (fun hm => hn (List.mem_filter.2 ⟨hm, rfl⟩)) hs hlen

/-- The connections of an asyncio client lead to connections of one listener: `at n` is the listener's number for the
client's connection `n`. -/
structure Spec.JoinedTo (s : ASt) (svc : Services) (reg : Registry) (sevs : List SrvEv) (at' : Nat → Nat) : Prop where
  conn : ∀ (n : Nat) (k : AConn), s.conns[n]? = some k → ∃ l, (srvRun svc reg sevs).conns[at' n]? = some l ∧
    received (view (at' n) reg sevs).evs <+: (k.sent.map Prod.snd).flatten ∧ k.recvd <+: l.wire

/-- C112, asyncio clients. An asyncio client makes any number of calls, concurrently, on any number of connections to one
listener, which serves any number of others. Whatever all of them do: if the call with arguments `a` returns a response,
the listener has made the call that `a` asks for, for one of the connections of this client, and the content of the
response is the bytes this call returned. -/
theorem C112_aio (svc : Services) (reg : Registry) (sevs : List SrvEv) (v : PyVer) (evs : List AEv) (hd : DistinctIds evs)
    (at' : Nat → Nat) (hj : JoinedTo (arun v evs) svc reg sevs at') (hreq : ∀ c ∈ (arun v evs).calls, AioMade c.req)
    (i : Nat) (c : ACall) (p : Pkg) (a : CallArgs) (kd : AKind) (hc : (arun v evs).calls[i]? = some c)
    (ha : aioRequest a kd = .ok c.req) (hr : c.pc = .done (.resp p)) :
    ∃ (n m : Nat) (k : AConn) (l : LSt) (f : Fut) (ct : Bytes), (arun v evs).conns[n]? = some k ∧
      (srvRun svc reg sevs).conns[at' n]? = some l ∧ l.futs[m]? = some f ∧
      f.st = .finished (.ret (.bytes ct)) ∧ p.content = .bytes ct ∧
      AskedFor svc (view (at' n) reg sevs).reg (view (at' n) reg sevs).evs a f := by
  have key : ∀ n : Nat, ∃ es : List LEv, (∀ k, (arun v evs).conns[n]? = some k →
      ∃ l, (srvRun svc reg sevs).conns[at' n]? = some l ∧ l = lrun svc (view (at' n) reg sevs).reg es ∧
        es.filter notExec = (view (at' n) reg sevs).evs) ∧ ((arun v evs).conns[n]? = none → es = []) := by
    intro n
    cases h : (arun v evs).conns[n]? with
    | none => exact ⟨[], ⟨fun k hk => (by cases hk), fun _ => rfl⟩⟩
    | some k =>
      obtain ⟨l, hl, -⟩ := hj.conn n k h
      obtain ⟨es, h1, h2⟩ := C104_alone svc reg sevs (at' n) l hl
      exact ⟨es, ⟨fun k' hk => ⟨l, hl, h1, h2⟩, fun h => (by cases h)⟩⟩
  let es := fun n => Classical.choose (key n)
  have hes : ∀ n k, (arun v evs).conns[n]? = some k → ∃ l, (srvRun svc reg sevs).conns[at' n]? = some l ∧
      l = lrun svc (view (at' n) reg sevs).reg (es n) ∧ (es n).filter notExec = (view (at' n) reg sevs).evs :=
    fun n => (Classical.choose_spec (key n)).1
  have hnil : ∀ n, (arun v evs).conns[n]? = none → es n = [] := fun n => (Classical.choose_spec (key n)).2
  let peer : Nat → Peer := fun n => ⟨svc, (view (at' n) reg sevs).reg, es n⟩
  have hjoin : Joined (arun v evs) peer := by
    refine ⟨fun n k hk => ?_, fun n k hk => ?_⟩
    · obtain ⟨l, h1, h2, h3⟩ := hj.conn n k hk
      obtain ⟨l', -, -, e⟩ := hes n k hk
      rw [← e, received_filter] at h2
      exact h2
    · obtain ⟨l, h1, h2, h3⟩ := hj.conn n k hk
      obtain ⟨l', h1', e, -⟩ := hes n k hk
      rw [h1] at h1'
      cases h1'
      rw [e] at h3
      exact h3
  obtain ⟨n, m, f, ct, h1, h2, h3, h4⟩ := C87_own_result v evs hd peer hjoin hreq i c p a kd hc ha hr
  cases hk : (arun v evs).conns[n]? with
  | none =>
    have e : (peer n).st.futs = [] := by
      show (lrun svc _ (es n)).futs = []
      rw [hnil n hk]
      rfl
    rw [e] at h1
    cases h1
  | some k =>
    obtain ⟨l, g1, g2, g3⟩ := hes n k hk
    refine ⟨n, m, k, l, f, ct, hk, g1, ?_, h2, h3, ?_⟩
    · rw [g2]; exact h1
    · rw [← g3]; exact h4.filter

/-! Two connections of one listener: a synchronous client on the first, an asyncio client with two calls on the second. The
methods end in another order than they were asked for. -/

/-- what the listener does -/
def exServerEvs : List SrvEv :=
  [.accept, .accept, .conn 0 (.data exCallBytes), .conn 1 (.data (exAioBytes exCallA ++ exAioBytes exCallB))] ++
  List.replicate 6 (.conn 0 .reader) ++ List.replicate 12 (.conn 1 .reader) ++
  [.conn 1 (.run 0 (py "t")), .conn 0 (.run 0 (py "u")), .conn 1 (.run 1 (py "v")), .take, .take, .take,
   .finish 1 1 (.ret (.bytes [22])), .finish 0 0 (.ret (.bytes [33])), .finish 1 0 (.ret (.bytes [11])),
   .conn 1 (.result 1), .conn 1 (.write 1), .conn 0 (.result 0), .conn 0 (.write 0), .conn 1 (.result 0),
   .conn 1 (.write 0)]

set_option maxRecDepth 40000 in
example : received (view 0 exReg exServerEvs).evs = exCallBytes ∧
    received (view 1 exReg exServerEvs).evs = exAioBytes exCallA ++ exAioBytes exCallB := by
  decide +kernel

set_option maxRecDepth 40000 in
example : (srvRun exServices exReg exServerEvs).conns.map (fun l => (l.wire, l.futs.map fun f => (f.body, f.st))) =
    [(reply 7 0 [33], [([1], .finished (.ret (.bytes [33])))]),
     (reply 9 0 [22] ++ reply 7 0 [11],
      [([1], .finished (.ret (.bytes [11]))), ([2], .finished (.ret (.bytes [22])))])] := by
  decide +kernel

set_option maxRecDepth 40000 in
/-- the synchronous client -/
example : let env : Nat → Attempt Nat := fun i => ⟨.ok i, .ok 1000⟩
    ((rawInvoke exCall env).2.wire.map Prod.snd).flatten = exCallBytes ∧
    invokeSync exCall (.int 1000) env true (reply 7 0 [33]) (chunked (List.replicate 40 2)) =
      .ended (.ok (.bytes [33])) := by
  decide +kernel

set_option maxRecDepth 40000 in
/-- the asyncio client of that listener: both calls return their own result -/
example :
    let evs : List AEv := [.call (exAioReq exCallA), .call (exAioReq exCallB), .start 0 exAddr, .start 1 exAddr,
      .dialed 0 true, .lock 1, .drained 0 true, .drained 1 true, .drained 1 true, .drained 0 true, .recv 0,
      .data 0 (reply 9 0 [22] ++ reply 7 0 [11]), .recv 0, .recv 0, .recv 0, .recv 0, .wake 0, .wake 1]
    (arun .from38 evs).conns.map (fun k => (k.sent.map Prod.snd).flatten) = [exAioBytes exCallA ++ exAioBytes exCallB] ∧
    (arun .from38 evs).conns.map AConn.recvd = [reply 9 0 [22] ++ reply 7 0 [11]] ∧
    (arun .from38 evs).calls.map (fun c => match c.pc with | .done r => some (syncResult r) | _ => none) =
      [some (.ok (.bytes [11])), some (.ok (.bytes [22]))] := by
  decide +kernel

end Bolt
