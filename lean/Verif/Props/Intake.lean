import Verif.Props.ListenerStream
import Verif.Props.SockStream
import Verif.Props.ListenerCalls
import Verif.Props.SyncClient
import Verif.Props.AioClient
import Verif.Props.Timeouts
/-! C155, C156: which frames the listeners execute, and which the clients take for a response. -/
namespace Bolt
open Spec

namespace Spec

/-- the frame of a call as the protocol defines it (constants.py): bolt, request or one-way, command REQUEST, remoting,
protobuf, of the class of requests -/
structure AnyFrame.IsCall (q : AnyFrame) : Prop where
  proto : q.f.proto = 1
  ptype : q.f.ptype = 1 ∨ q.f.ptype = 2
  cmd : q.f.cmdcode = 1
  ver2 : q.f.ver2 = 1
  codec : q.f.codec = 11
  cls : q.cls = reqClass

/-- what the listeners look at: the command is neither HEARTBEAT nor RESPONSE, and the class is that of requests -/
def AnyFrame.PassesFor (q : AnyFrame) : Prop := q.f.cmdcode ≠ 0 ∧ q.f.cmdcode ≠ 2 ∧ q.cls = reqClass

/-- the same frame with other protocol, version and codec -/
def AnyFrame.relabel (g : AnyFrame → Int × Int × Int) (q : AnyFrame) : AnyFrame :=
  { q with f := { q.f with proto := (g q).1, ver2 := (g q).2.1, codec := (g q).2.2 } }

/-- a frame of the response layout -/
structure RespFrame where
  f : Fields
  cls : Bytes
  hdr : Bytes
  content : Bytes

def RespFrame.bytes (q : RespFrame) : Bytes := frame false q.f q.cls q.hdr q.content

/-- the frame of a response as the protocol defines it: bolt, type and command RESPONSE, remoting, protobuf, of the class
of responses -/
structure RespFrame.IsResponse (q : RespFrame) : Prop where
  proto : q.f.proto = 1
  ptype : q.f.ptype = 0
  cmd : q.f.cmdcode = 2
  ver2 : q.f.ver2 = 1
  codec : q.f.codec = 11
  cls : q.cls = respClass

end Spec

/-! ## C155 -/

/-- C155. Every method that a listener runs was asked for by a frame that is a call of the protocol. -/
def C155_full : Prop :=
  (∀ (svc : Services) (reg : Registry) (evs : List LEv) (qs : List AnyFrame) (more : Bytes), (∀ q ∈ qs, q.Ok) →
    received evs ++ more = framesBytes qs →
    ∀ x ∈ (lrun svc reg evs).futs, ∃ q ∈ qs, q.IsCall ∧ q.content = x.body) ∧
  (∀ (svc : Services) (reg : Registry) (evs : List SEv) (q : AnyFrame), Complete q (sreceived evs) →
    ∀ c ∈ (srun svc reg evs).calls, q.IsCall ∧ q.content = c.body)

/-- the request of call `A`, under another protocol number -/
def exForeign : AnyFrame :=
  { (exReq 3 [1]).any with f := { (exReq 3 [1]).any.f with proto := 2, ver2 := 9, codec := 77, cmdcode := 5, ptype := -3 } }

set_option maxRecDepth 20000 in
theorem exForeign_ok : exForeign.Ok :=
  ⟨⟨by decide, by decide, by decide, by decide, by decide, by decide, by decide⟩,
    ⟨by decide, show exHdrBytes.length < 65536 by decide, by decide⟩,
    show headerFromBytes exHdrBytes = .ok exReqHeader by decide +kernel⟩

set_option maxRecDepth 20000 in
/-- a frame of another protocol, of an unknown type, command and codec, is executed (by both listeners) -/
theorem C155_violated : ¬ C155_full ∧
    ¬ (∀ (svc : Services) (reg : Registry) (evs : List SEv) (q : AnyFrame), Complete q (sreceived evs) →
      ∀ c ∈ (srun svc reg evs).calls, q.IsCall ∧ q.content = c.body) := by
  constructor
  · intro h
    have h1 := h.1 exServices exReg (exCallEvs exForeign.bytes (.ret (.bytes [7]))) [exForeign] []
      (by intro q hq; rw [List.mem_singleton.1 hq]; exact exForeign_ok)
      (by simp [framesBytes, exCallEvs, received])
    have h2 : (lrun exServices exReg (exCallEvs exForeign.bytes (.ret (.bytes [7])))).futs.length = 1 := by decide +kernel
    obtain ⟨x, hx⟩ := List.exists_mem_of_length_pos (by omega : 0 < (lrun exServices exReg
      (exCallEvs exForeign.bytes (.ret (.bytes [7])))).futs.length)
    obtain ⟨q, hq, h3, -⟩ := h1 x hx
    rw [List.mem_singleton.1 hq] at h3
    exact absurd h3.proto (by decide)
  · intro h
    have h1 := h exServices exReg [.data exForeign.bytes, .handler [], .handler [], .handler [], .handler (py "t")] exForeign
      ⟨exForeign_ok, by simp [sreceived]⟩
    have h2 : (srun exServices exReg [.data exForeign.bytes, .handler [], .handler [], .handler [],
      .handler (py "t")]).calls.length = 1 := by decide +kernel
    obtain ⟨x, hx⟩ := List.exists_mem_of_length_pos (by omega : 0 < (srun exServices exReg
      [.data exForeign.bytes, .handler [], .handler [], .handler [], .handler (py "t")]).calls.length)
    exact absurd (h1 x hx).1.proto (by decide)

theorem verdict_dispatch {q : AnyFrame} {r : Req} (h : q.verdict = .dispatch r) :
    q.PassesFor ∧ r = ⟨q.f.ptype, q.f.requestId, q.header, q.content, q.f.seventh⟩ := by
  unfold AnyFrame.verdict at h
  split at h
  · cases h
  · next h0 =>
    split at h
    · cases h
    · next h1 =>
      refine ⟨⟨h0, fun e => h1 ⟨h0, .inl e⟩, ?_⟩, by cases h; rfl⟩
      by_cases hc : q.cls = reqClass
      · exact hc
      · exact absurd ⟨h0, .inr hc⟩ h1

/-- a request in the grammar of streams is a whole frame of the stream -/
theorem Spec.Wants.dispatched {last : Option Int} {bs : Bytes} {as : List Act} {l : Option Int} {o : Bool}
    (h : Wants last bs as l o) {r : Req} (hr : .dispatch r ∈ as) :
    ∃ (pre post : Bytes) (q : AnyFrame), bs = pre ++ q.bytes ++ post ∧ q.Ok ∧ q.PassesFor ∧
      r = ⟨q.f.ptype, q.f.requestId, q.header, q.content, q.f.seventh⟩ := by
  induction h with
  | @frame last bs as last' o q hq _ ih =>
    rcases List.mem_cons.1 hr with hr | hr
    · obtain ⟨h1, h2⟩ := verdict_dispatch hr.symm
      exact ⟨[], bs, q, rfl, hq, h1, h2⟩
    · obtain ⟨pre, post, q', e, h⟩ := ih hr
      exact ⟨q.bytes ++ pre, post, q', by rw [e]; simp, h⟩
  | @codec last f cn hb nl bs as last' o hf h1 h2 h3 hd _ ih =>
    rcases List.mem_cons.1 hr with hr | hr
    · cases hr
    · obtain ⟨pre, post, q', e, h⟩ := ih hr
      exact ⟨frameHead f cn hb nl ++ pre, post, q', by rw [e]; simp, h⟩
  | unicode hf h1 h2 h3 hd => cases List.mem_singleton.1 hr
  | _ => cases hr

/-- the actions of the reader begin what the grammar of streams wants -/
theorem acts_wanted (svc : Services) (reg : Registry) (evs : List LEv) {r : Req}
    (hr : .dispatch r ∈ (lrun svc reg evs).acts) :
    ∃ as last o, Wants none (received evs) as last o ∧ .dispatch r ∈ as := by
  obtain ⟨as, last, o, hw⟩ := stream_exists (received evs) none
  refine ⟨as, last, o, hw, ?_⟩
  obtain ⟨e1, -, -⟩ := lrun_env svc reg evs
  obtain ⟨l, rd, h1, hc⟩ := ReadInv.run svc reg evs
  rw [e1] at h1
  obtain ⟨rd', b', g1, g2, -, -⟩ := stream_reads hw
  obtain ⟨l', -, hl⟩ := h1.to_stuck g1 g2
  rw [hl]
  refine List.mem_append_left _ ?_
  rcases hc with ⟨ha, -⟩ | ⟨-, ha, -⟩ | ⟨-, -, -, -, ha⟩
  · rwa [ha] at hr
  · rwa [ha] at hr
  · rw [ha] at hr
    rcases List.mem_append.1 hr with h | h
    · exact h
    · cases List.mem_singleton.1 h

/-- C155, what holds for the asyncio listener, for every stream and schedule. The argument of every method that is run is
the content of a whole frame of the stream, whose header section could be decoded, whose class is that of requests, and
whose command is neither HEARTBEAT nor RESPONSE. Missing: that protocol, version, type and codec are those of a call, and
that the command is REQUEST; see `C155_violated` and `C155_ignored`. -/
theorem C155_checked_partial (svc : Services) (reg : Registry) (evs : List LEv) (x : Fut)
    (hx : x ∈ (lrun svc reg evs).futs) :
    ∃ (pre post : Bytes) (q : AnyFrame), received evs = pre ++ q.bytes ++ post ∧ q.Ok ∧ q.PassesFor ∧
      x.body = q.content := by
  obtain ⟨k, hk, rfl⟩ := List.getElem_of_mem hx
  have h := LInv.run svc reg evs
  obtain ⟨i, t, ht, hf⟩ := h.futOwner k hk
  have htk := h.task i t ht
  unfold TaskOk at htk
  split at htk
  · rw [htk.1] at hf; cases hf
  · next r hr =>
    obtain ⟨f', a, b, reg', h0, fresh, e1, e2, -⟩ := htk.2.2 k hf
    rw [List.getElem?_eq_getElem hk] at e1
    cases e1
    obtain ⟨a, ha, hta, -⟩ := task_act h ht
    rw [hr] at hta
    have had : a = .dispatch r := by
      cases a with
      | dispatch r' => injection hta with hta; injection hta with hta; rw [hta]
      | heartbeat id => injection hta with hta; cases hta
      | _ => cases hta
    subst had
    obtain ⟨as, last, o, hw, hm⟩ := acts_wanted svc reg evs ha
    obtain ⟨pre, post, q, h1, h2, h3, h4⟩ := hw.dispatched hm
    exact ⟨pre, post, q, h1, h2, h3, by rw [e2, h4]⟩

/-- The same for the socket listener, as long as there is no reset. -/
theorem C155_sock_checked_partial (svc : Services) (reg : Registry) (evs : List SEv) (hn : .reset ∉ evs) (c : SCall)
    (hc : c ∈ (srun svc reg evs).calls) :
    ∃ (q : AnyFrame) (post : Bytes), sreceived evs = q.bytes ++ post ∧ q.Ok ∧ q.PassesFor ∧ c.body = q.content := by
  have hrec : sreceived (evs ++ [.finish (.raised .other)]) = sreceived evs := by
    clear hc hn
    induction evs with
    | nil => rfl
    | cons e evs ih => cases e <;> simp [sreceived, ih]
  have hcalls : (srun svc reg (evs ++ [.finish (.raised .other)])).calls = (srun svc reg evs).calls ∧
      ∀ id, (srun svc reg (evs ++ [.finish (.raised .other)])).phase ≠ .calling id := by
    rw [srun_append]
    show (sstep svc (srun svc reg evs) (.finish (.raised .other))).calls = _ ∧
      ∀ id, (sstep svc (srun svc reg evs) (.finish (.raised .other))).phase ≠ _
    simp only [sstep]
    split
    · exact ⟨rfl, fun _ => nofun⟩
    · next h => exact ⟨rfl, fun id => h id⟩
  rw [← hcalls.1] at hc
  rcases C110_every_stream svc reg (evs ++ [.finish (.raised .other)]) (by simpa using hn) with
    ⟨-, -, -, -, -, h⟩ | ⟨-, -, -, -, h, -⟩ | ⟨-, -, q, ⟨hq, post, hp⟩, -, h, -⟩
  · rw [h] at hc; cases hc
  · rw [h] at hc; cases hc
  · rcases h with ⟨-, -, h⟩ | ⟨h, -⟩ | ⟨-, h⟩
    · rw [h] at hc; cases hc
    · exact absurd h (hcalls.2 _)
    · generalize (srun svc reg (evs ++ [.finish (.raised .other)])).calls = cs at *
      generalize (srun svc reg (evs ++ [.finish (.raised .other)])).result = rs at *
      generalize (srun svc reg (evs ++ [.finish (.raised .other)])).out = os at *
      cases h with
      | called h1 h2 c' o hcall =>
        rw [List.mem_singleton.1 hc]
        refine ⟨q, post, by rw [← hp] at hrec; exact hrec.symm, hq, ⟨h2, fun e => h1 ⟨h2, .inl e⟩, ?_⟩, hcall.body⟩
        by_cases hcl : q.cls = reqClass
        · exact hcl
        · exact absurd ⟨h2, .inr hcl⟩ h1
      | _ => cases hc

/-- Protocol, version and codec are never looked at: any change of them in the frames received leaves the actions of the
asyncio listener as they are. -/
theorem C155_ignored (svc : Services) (reg : Registry) (evs evs' : List LEv) (qs : List AnyFrame)
    (g : AnyFrame → Int × Int × Int) (hq : ∀ q ∈ qs, q.Ok) (hq' : ∀ q ∈ qs, (q.relabel g).Ok)
    (hb : received evs = framesBytes qs) (hb' : received evs' = framesBytes (qs.map (AnyFrame.relabel g)))
    (he : sawEof evs = false) (he' : sawEof evs' = false) (hn : .reset ∉ evs) (hn' : .reset ∉ evs')
    (hi : (lrun svc reg evs).idle) (hi' : (lrun svc reg evs').idle) :
    (lrun svc reg evs').acts = (lrun svc reg evs).acts := by
  rw [(frames_acts svc reg evs qs hq hb he hn hi).1,
    (frames_acts svc reg evs' _ (by
      intro q h
      obtain ⟨q', h1, rfl⟩ := List.mem_map.1 h
      exact hq' q' h1) hb' he' hn' hi').1, List.map_map]
  refine List.map_congr_left fun q _ => ?_
  rfl

set_option maxRecDepth 20000 in
/-- the foreign frame is executed, with the content it carries -/
example : exForeign.Ok ∧ exForeign.PassesFor ∧ ¬ exForeign.IsCall ∧
    (lrun exServices exReg (exCallEvs exForeign.bytes (.ret (.bytes [7])))).futs.map Fut.body = [exForeign.content] ∧
    exForeign.relabel (fun _ => (1, 1, 11)) = { exForeign with f := ⟨1, -3, 5, 1, 3, 11, 100⟩ } ∧
    (exForeign.relabel (fun _ => (1, 1, 11))).Ok :=
  ⟨exForeign_ok, ⟨by decide, by decide, rfl⟩, fun h => absurd h.proto (by decide), by decide +kernel, rfl,
    ⟨⟨by decide, by decide, by decide, by decide, by decide, by decide, by decide⟩, exForeign_ok.body, exForeign_ok.decodes⟩⟩

/-! ## C156 -/

/-- every synchronous call that returns content was answered by a response -/
def C156_sync_full : Prop :=
  ∀ (a : CallArgs) (t : TimeoutArg) (env : Nat → Attempt Nat) (reg : Bool) (evs : List RecvEv) (q : RespFrame)
    (rest : Bytes) (x : PyObj), Fields.Fit false q.f → BodyFit q.cls q.hdr q.content →
    invokeSync a t env reg (q.bytes ++ rest) evs = .ended (.ok x) → q.IsResponse ∧ x = .bytes q.content

/-- every call of the asyncio client that has got a response was answered by a response -/
def C156_aio_full : Prop :=
  ∀ (v : PyVer) (evs : List AEv) (qs : Nat → List RespFrame), DistinctIds evs →
    (∀ n, ∀ q ∈ qs n, Fields.Fit false q.f ∧ BodyFit q.cls q.hdr q.content) →
    (∀ n k, (arun v evs).conns[n]? = some k → k.recvd = ((qs n).map RespFrame.bytes).flatten) →
    ∀ (i : Nat) (c : ACall) (p : Pkg), (arun v evs).calls[i]? = some c → c.pc = .done (.resp p) →
      ∃ n, ∃ q ∈ qs n, q.IsResponse ∧ c.req.requestId = .int q.f.requestId ∧ p.content = .bytes q.content

/-- C156. Every call that returns content, of either client, was answered by a frame that is a response of the protocol
and has that content. -/
def C156_full : Prop := C156_sync_full ∧ C156_aio_full

/-- something that is no response: of type ONEWAY, in the codec of Java, of the class of requests -/
def exNoResponse (id : Int) (cmd : Int) : RespFrame := ⟨⟨1, 2, cmd, 1, id, 2, 0⟩, reqClass, [], [5]⟩

/-- it answers call 1 of the asyncio client -/
def exNoResponseEvs : List AEv :=
  [.call (exAReq 1), .start 0 exAddr, .dialed 0 true, .drained 0 true, .drained 0 true, .recv 0,
   .data 0 (exNoResponse 1 2).bytes, .recv 0, .recv 0, .wake 0]

set_option maxRecDepth 20000 in
/-- Both clients take frames of other types, codecs and classes for responses, the synchronous one even heartbeats. -/
theorem C156_violated : ¬ C156_sync_full ∧ ¬ C156_aio_full ∧ ¬ C156_full := by
  have h1 : ¬ C156_sync_full := by
    intro h
    have := (h exCall (.int 100) (fun _ => ⟨.ok 0, .ok 1000⟩) true [.recv 4000, .recv 4000] (exNoResponse 7 0) []
      (.bytes [5]) ⟨by decide, by decide, by decide, by decide, by decide, by decide, by decide⟩ (by decide)
      (by decide +kernel)).1
    exact absurd this.ptype (by decide)
  refine ⟨h1, fun h => ?_, fun h => h1 h.1⟩
  have hc : ((arun .from38 exNoResponseEvs).calls.map fun c => match c.pc with | .done (.resp _) => true | _ => false) =
      [true] := by decide +kernel
  have hk : (arun .from38 exNoResponseEvs).conns.map AConn.recvd = [(exNoResponse 1 2).bytes] := by decide +kernel
  cases hl : (arun .from38 exNoResponseEvs).calls with
  | nil => rw [hl] at hc; cases hc
  | cons c cs =>
    rw [hl] at hc
    have hc0 : (match c.pc with | .done (.resp _) => true | _ => false) = true := by
      injection hc
    obtain ⟨p, hp⟩ : ∃ p, c.pc = .done (.resp p) := by
      split at hc0
      · next p hp => exact ⟨p, hp⟩
      · cases hc0
    obtain ⟨n, q, hq, h2, -⟩ := h .from38 exNoResponseEvs (fun _ => [exNoResponse 1 2]) (by decide)
      (by
        intro n q hq
        rw [List.mem_singleton.1 hq]
        exact ⟨⟨by decide, by decide, by decide, by decide, by decide, by decide, by decide⟩, by decide⟩)
      (by
        intro n k hn
        have := congrArg (·[n]?) hk
        simp only [List.getElem?_map, hn, Option.map_some] at this
        cases n with
        | zero => simpa using this
        | succ n => simp at this)
      0 c p (by rw [hl]; rfl) hp
    rw [List.mem_singleton.1 hq] at h2
    exact absurd h2.ptype (by decide)

/-- what the clients look at: the codes are ones that constants.py lists, the header section can be decoded, the id is the
right one, the status is SUCCESS -/
def Spec.RespFrame.Accepted (q : RespFrame) (id : Int) : Prop :=
  KnownCodes false q.f ∧ (∃ d, headerFromBytes q.hdr = .ok d) ∧ q.f.requestId = id ∧ q.f.seventh = 0

theorem pkg_exists {f : Fields} {hb ct : Bytes} {d : PyDict PyStr PyStr} (hk : KnownCodes false f)
    (hd : headerFromBytes hb = .ok d) : ∃ p, DecodesTo .boltResponse f d ct p := by
  obtain ⟨b, hb'⟩ := headerToBytes_fromBytes hd
  obtain ⟨k1, k2, k3, k4, k5, k6⟩ := hk
  obtain ⟨pt, e2⟩ : ∃ x : PType, x.code = f.ptype := by
    rcases k2 with e | e | e
    · exact ⟨.response, e.symm⟩
    · exact ⟨.request, e.symm⟩
    · exact ⟨.oneway, e.symm⟩
  obtain ⟨cc, e3⟩ : ∃ x : CmdCode, x.code = f.cmdcode := by
    rcases k3 with e | e | e
    · exact ⟨.heartbeat, e.symm⟩
    · exact ⟨.request, e.symm⟩
    · exact ⟨.response, e.symm⟩
  obtain ⟨co, e5⟩ : ∃ x : Codec, x.code = f.codec := by
    rcases k5 with e | e | e
    · exact ⟨.hessian, e.symm⟩
    · exact ⟨.protobuf, e.symm⟩
    · exact ⟨.java, e.symm⟩
  obtain ⟨st, e6⟩ : ∃ x : RespStatus, x.code = f.seventh := by
    have k6 := k6 rfl
    simp only [List.mem_cons, List.not_mem_nil, or_false] at k6
    rcases k6 with e | e | e | e | e | e | e | e | e | e | e | e | e
    · exact ⟨.success, e.symm⟩
    · exact ⟨.error, e.symm⟩
    · exact ⟨.serverException, e.symm⟩
    · exact ⟨.unknown, e.symm⟩
    · exact ⟨.serverThreadpoolBusy, e.symm⟩
    · exact ⟨.errorComm, e.symm⟩
    · exact ⟨.noProcessor, e.symm⟩
    · exact ⟨.timeout, e.symm⟩
    · exact ⟨.clientSendError, e.symm⟩
    · exact ⟨.codecException, e.symm⟩
    · exact ⟨.connectionClosed, e.symm⟩
    · exact ⟨.serverSerialException, e.symm⟩
    · exact ⟨.serverDeserialException, e.symm⟩
  refine ⟨{
    cls := .boltResponse, header := strHeader d, headerBytes := b, content := .bytes ct, proto := .bolt, ptype := pt,
    cmdcode := cc, ver2 := .remoting, requestId := .int f.requestId, codec := co, timeout := .int 0, respstatus := st },
    rfl, rfl, hb', rfl, k1.symm, e2, e3, k4.symm, rfl, e5, rfl, e6⟩

theorem respstatus_zero {p : Pkg} (h : p.respstatus.code = 0) : p.respstatus = .success := by
  revert h
  cases p.respstatus <;> decide

/-- C156, what holds for the synchronous client, exactly: some run on a stream that begins with this frame returns `x` if
and only if the codes of the frame are listed in constants.py, its header section can be decoded, it has the id of the
request and the status SUCCESS, and `x` is its content. Missing: type, command, codec and class name have no influence. -/
theorem C156_sync_partial (id : Int) (q : RespFrame) (rest : Bytes) (x : PyObj) (hf : Fields.Fit false q.f)
    (hb : BodyFit q.cls q.hdr q.content) :
    (∃ evs, (recvRun id (q.bytes ++ rest) evs).out = some (.ok x)) ↔ q.Accepted id ∧ x = .bytes q.content := by
  have hL : Spec.declaredLength false (q.bytes ++ rest) = q.bytes.length := declaredLength_frame false _ _ _ _ hb rest
  have hge := declaredLength_ge (q.bytes ++ rest)
  have hlen : (q.bytes ++ rest).length = q.bytes.length + rest.length := List.length_append
  have hout : Spec.responseOutcome id (q.bytes ++ rest) =
      some (match fromStream .boltResponse q.bytes with
        | .error e => .error e
        | .ok p => if p.requestId = .int id then (if p.respstatus = .success then .ok p.content else .error .serverError)
          else .error .serverError) := by
    unfold Spec.responseOutcome
    rw [if_neg (by omega), if_neg (by omega), hL, List.take_left' rfl]
    cases fromStream .boltResponse q.bytes <;> rfl
  constructor
  · rintro ⟨evs, h⟩
    have h1 : Spec.responseOutcome id (q.bytes ++ rest) = some (.ok x) := by
      rcases recv_run id (q.bytes ++ rest) evs with ⟨h2, -⟩ | ⟨r, h2, h3, -⟩ | ⟨h2, -⟩ | ⟨e, h2, -⟩
      · rw [h2] at h; cases h
      · rw [h2] at h; cases h; exact h3
      · rw [h2] at h; cases h
      · rw [h2] at h; cases h
    rw [hout] at h1
    have h1 := Option.some.inj h1
    split at h1
    · cases h1
    · next p hp =>
      rw [fromStream_ok_iff] at hp
      obtain ⟨f', cn', hb', ct', d, e, g1, g2, g3, g4⟩ := hp
      obtain ⟨rfl, rfl, rfl, rfl⟩ := frame_inj e hf g1 hb g2
      split at h1
      · next hid =>
        split at h1
        · next hst =>
          have e6 := g4.respstatus
          rw [hst] at e6
          have e7 := g4.requestId
          rw [hid] at e7
          refine ⟨⟨known_of_decodes g4, ⟨d, g3⟩, (PyObj.int.inj e7).symm, e6.symm⟩, ?_⟩
          rw [← g4.content]
          exact (Except.ok.inj h1).symm
        · cases h1
      · cases h1
  · rintro ⟨⟨hk, ⟨d, hd⟩, hid, hst⟩, rfl⟩
    obtain ⟨p, hp⟩ := pkg_exists (ct := q.content) hk hd
    have hp' : fromStream .boltResponse q.bytes = .ok p :=
      (fromStream_ok_iff _ _ _).2 ⟨q.f, q.cls, q.hdr, q.content, d, rfl, hf, hb, hd, hp⟩
    have e6 := hp.respstatus
    simp only [PkgClass.isRequest, Bool.false_eq_true, if_false, hst] at e6
    rw [hp'] at hout
    simp only [hp.requestId, hid, if_true, respstatus_zero e6, hp.content] at hout
    refine ⟨chunked (List.replicate q.bytes.length 0), ?_⟩
    rw [← hout]
    exact (C49_segmentation id (q.bytes ++ rest) (List.replicate q.bytes.length 0) []).2.2.1 (by rw [hout]; nofun)
      (by rw [hL, List.length_replicate]; exact Nat.le_refl _)

/-- C156, what holds for the asyncio client: the response with which a call ends is a frame, read from one of the
connections, with codes listed in constants.py, command RESPONSE, status SUCCESS, a decodable header section and the id of
the request. Missing: its type, codec and class name. -/
theorem C156_aio_partial (v : PyVer) (evs : List AEv) (hd : DistinctIds evs) (i : Nat) (c : ACall) (p : Pkg)
    (hc : (arun v evs).calls[i]? = some c) (hr : c.pc = .done (.resp p)) :
    ∃ (before after : List AEv) (n : Nat) (k : AConn) (pre post : Bytes) (q : RespFrame) (id : Int),
      evs = before ++ .recv n :: after ∧ (arun v before).conns[n]? = some k ∧
      k.recvd = pre ++ q.bytes ++ post ∧ q.Accepted id ∧ q.f.cmdcode = 2 ∧ c.req.requestId = .int id ∧
      p.content = .bytes q.content := by
  have hk := (arun_inv v evs hd).calls i c hc
  obtain ⟨⟨before, after, n, k, c', rfl, hkn, hnf, hgood, hc', hid', hnew, hset⟩, hid, -⟩ := hk.delivered p hr
  obtain ⟨us, f, cn, hb, ct, d, rest, h1, h2, h3, h4, h5, h6⟩ := hnf
  refine ⟨before, after, n, k, us.flatten, rest, ⟨f, cn, hb, ct⟩, f.requestId, rfl, hkn, h2,
    ⟨known_of_decodes h6, ⟨d, h5⟩, rfl, ?_⟩, ?_, ?_, h6.content⟩
  · have := h6.respstatus
    rw [hgood.2] at this
    exact this.symm
  · show f.cmdcode = 2
    rw [← h6.cmdcode, hgood.1]; rfl
  · rw [← hid, h6.requestId]

/-- The class name of a response is never looked at, by either client: a package with another class name is the same. -/
theorem C156_class_ignored (f : Fields) (cn cn' hb ct : Bytes) (p : Pkg) (h' : cn'.length < 65536)
    (h : fromStream .boltResponse (frame false f cn hb ct) = .ok p) (hf : Fields.Fit false f) (hb' : BodyFit cn hb ct) :
    fromStream .boltResponse (frame false f cn' hb ct) = .ok p := by
  rw [fromStream_ok_iff] at h ⊢
  obtain ⟨f', cn1, hb1, ct1, d, e, h1, h2, h3, h4⟩ := h
  obtain ⟨rfl, rfl, rfl, rfl⟩ := frame_inj e hf h1 hb' h2
  exact ⟨f, cn', hb, ct, d, rfl, hf, ⟨h', hb'.2⟩, h3, h4⟩

/-- the frame that is no response has known codes and is accepted -/
example : (exNoResponse 7 0).Accepted 7 ∧ ¬ (exNoResponse 7 0).IsResponse ∧ Fields.Fit false (exNoResponse 7 0).f ∧
    BodyFit (exNoResponse 7 0).cls (exNoResponse 7 0).hdr (exNoResponse 7 0).content :=
  ⟨⟨by unfold KnownCodes; decide, ⟨[], headerFromBytes_flatten (kvs := []) .nil⟩, rfl, rfl⟩,
    fun h => absurd h.ptype (by decide),
    ⟨by decide, by decide, by decide, by decide, by decide, by decide, by decide⟩, by decide⟩

end Bolt
