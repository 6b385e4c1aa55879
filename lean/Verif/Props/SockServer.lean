import Verif.Model.SockServer
import Verif.Props.SockStream
import Verif.Props.EndToEndSock
import Verif.Props.EndToEndAio
/-!
# C113, C114: all connections of a socket listener; the asyncio client with socket listeners
-/
namespace Bolt
open Spec

/-! ## C113 -/

/-- What a schedule of a listener means for connection `c`: how many connections have been accepted, whether the listener
still accepts, the registry when `c` is accepted, and the events that concern `c` since then. -/
structure Spec.SockView where
  accepted : Nat := 0
  isOpen : Bool := true
  reg : Registry
  evs : List SEv := []

/-- events of one connection that are not of the whole listener -/
def Spec.sockConnEv : SEv → Bool
  | .register _ => false
  | _ => true

theorem sockConnEv_eq (e : SEv) : Spec.sockConnEv e = e.isLocal := by cases e <;> rfl

def Spec.SockView.step (c : Nat) (v : SockView) : SockSrvEv → SockView
  | .accept => if v.isOpen then { v with accepted := v.accepted + 1 } else v
  | .conn c' e => if c' = c ∧ c < v.accepted ∧ sockConnEv e = true then { v with evs := v.evs ++ [e] } else v
  | .register r =>
    if c < v.accepted then { v with evs := v.evs ++ [.register r] } else { v with reg := registerInterface v.reg r }
  | .shutdown => { v with isOpen := false }

def Spec.sockView (c : Nat) (reg : Registry) (evs : List SockSrvEv) : SockView := evs.foldl (SockView.step c) { reg := reg }

/-- the connection `c` of a listener, and what the schedule means for it -/
structure SockViewOk (svc : Services) (c : Nat) (s : SockSrv) (v : SockView) : Prop where
  count : s.conns.length = v.accepted
  serving : s.serving = v.isOpen
  before : v.accepted ≤ c → v.reg = s.reg ∧ v.evs = []
  since : ∀ l, s.conns[c]? = some l → l = srun svc v.reg v.evs ∧ c < v.accepted

theorem SockViewOk.step {svc : Services} {c : Nat} {s : SockSrv} {v : SockView} (h : SockViewOk svc c s v)
    (e : SockSrvEv) : SockViewOk svc c (ssrvStep svc s e) (v.step c e) := by
  cases e with
  | accept =>
    unfold ssrvStep SockView.step
    dsimp only
    rw [h.serving]
    cases hv : v.isOpen with
    | false => exact ⟨h.count, h.serving, h.before, h.since⟩
    | true =>
      refine ⟨by simp [h.count], rfl, fun hc => h.before (by simp only [if_true] at hc; omega), ?_⟩
      intro l hl
      simp only [if_true] at hl ⊢
      rw [List.getElem?_append] at hl
      split at hl
      · next hlt =>
        obtain ⟨h1, h2⟩ := h.since l hl
        exact ⟨h1, by omega⟩
      · next hge =>
        have hb := h.before (by rw [← h.count]; omega)
        have : c - s.conns.length = 0 := by
          have := (List.getElem?_eq_some_iff.1 hl).1
          simp only [List.length_singleton] at this
          omega
        rw [this] at hl
        have e1 : ({ reg := s.reg } : SSt) = l := by simpa using hl
        refine ⟨?_, by have := h.count; omega⟩
        rw [← e1, hb.1, hb.2]
        rfl
  | shutdown => exact ⟨h.count, rfl, h.before, h.since⟩
  | register r =>
    unfold ssrvStep SockView.step
    dsimp only
    by_cases hc : c < v.accepted
    · rw [if_pos hc]
      refine ⟨by simp [h.count], h.serving, fun hc' => by dsimp only at hc'; omega, ?_⟩
      intro l hl
      rw [List.getElem?_map, Option.map_eq_some_iff] at hl
      obtain ⟨l0, h1, rfl⟩ := hl
      obtain ⟨h2, h3⟩ := h.since l0 h1
      exact ⟨by dsimp only; rw [srun_snoc, ← h2], h3⟩
    · rw [if_neg hc]
      obtain ⟨b1, b2⟩ := h.before (by omega)
      refine ⟨by simp [h.count], h.serving, fun _ => ⟨by dsimp only; rw [b1], b2⟩, ?_⟩
      intro l hl
      rw [List.getElem?_map, Option.map_eq_some_iff] at hl
      obtain ⟨l0, h1, -⟩ := hl
      exact absurd (h.since l0 h1).2 hc
  | conn c' e =>
    unfold ssrvStep SockView.step
    dsimp only
    rw [sockConnEv_eq]
    by_cases he : e.isLocal = true
    · rw [if_pos he]
      by_cases hcc : c' = c
      · subst hcc
        by_cases hc : c' < v.accepted
        · rw [if_pos ⟨rfl, hc, he⟩]
          refine ⟨by simp [h.count], h.serving, fun hc' => by dsimp only at hc'; omega, ?_⟩
          intro l hl
          rw [List.getElem?_modify_eq, Option.map_eq_map, Option.map_eq_some_iff] at hl
          obtain ⟨l0, h1, rfl⟩ := hl
          obtain ⟨h2, h3⟩ := h.since l0 h1
          exact ⟨by dsimp only; rw [srun_snoc, ← h2], h3⟩
        · rw [if_neg (fun h => hc h.2.1)]
          refine ⟨by simp [h.count], h.serving, h.before, ?_⟩
          intro l hl
          rw [List.getElem?_modify_eq, Option.map_eq_map, Option.map_eq_some_iff] at hl
          obtain ⟨l0, h1, -⟩ := hl
          exact absurd (h.since l0 h1).2 hc
      · rw [if_neg (fun h => hcc h.1)]
        refine ⟨by simp [h.count], h.serving, h.before, ?_⟩
        intro l hl
        rw [List.getElem?_modify_ne _ _ hcc] at hl
        exact h.since l hl
    · rw [if_neg he, if_neg (fun h => he h.2.2)]
      exact h

theorem SockViewOk.run (svc : Services) (reg : Registry) (c : Nat) (evs : List SockSrvEv) :
    SockViewOk svc c (ssrvRun svc reg evs) (sockView c reg evs) := by
  unfold ssrvRun sockView
  have h0 : SockViewOk svc c ({ reg := reg } : SockSrv) { reg := reg } :=
    ⟨rfl, rfl, fun _ => ⟨rfl, rfl⟩, fun l hl => (by cases hl)⟩
  generalize ({ reg := reg } : SockSrv) = s at h0
  generalize ({ reg := reg } : SockView) = v at h0
  induction evs generalizing s v with
  | nil => exact h0
  | cons e evs ih => exact ih _ _ (h0.step e)

/-- C113. A connection of a socket listener behaves, whatever happens on the others, as a connection alone: its state is
that after its own events and the registrations since it was accepted. All properties of single connections (C83-C85,
C109-C111) therefore hold of every connection of every listener. -/
theorem C113_alone (svc : Services) (reg : Registry) (evs : List SockSrvEv) (c : Nat) (s : SSt)
    (h : (ssrvRun svc reg evs).conns[c]? = some s) : s = srun svc (sockView c reg evs).reg (sockView c reg evs).evs :=
  ((SockViewOk.run svc reg c evs).since s h).1

/-- C113, the consequence for callers. A listener serves any number of connections, on connection `c` there is a
synchronous client with one call. Whatever happens on this and on all other connections: if `invoke_sync` returns, the
listener has made exactly one call for this connection, the one asked for, and `invoke_sync` returns the bytes this call
returned. -/
theorem C113_sync {C : Type} (svc : Services) (reg : Registry) (sevs : List SockSrvEv) (c : Nat) (s : SSt)
    (hc : (ssrvRun svc reg sevs).conns[c]? = some s) (a : CallArgs) (t : TimeoutArg)
    (env : Nat → Attempt C) (registers : Bool) (stream : Bytes) (evs : List RecvEv) (v : PyObj)
    (hin : sreceived (sockView c reg sevs).evs <+:
      ((rawInvoke { a with timeout := t.obj, ptype := .request } env).2.wire.map Prod.snd).flatten)
    (hout : stream <+: s.out.flatten)
    (hr : invokeSync a t env registers stream evs = .ended (.ok v)) :
    ∃ (f : SCall) (ct : Bytes), s.calls = [f] ∧ s.result = some (.ret (.bytes ct)) ∧ v = .bytes ct ∧
      SockAskedFor svc (sockView c reg sevs).reg (sockView c reg sevs).evs a f := by
  have e := C113_alone svc reg sevs c s hc
  subst e
  exact C109_returns_result svc _ _ a t env registers stream evs v hin hout hr

/-- C113, the other direction: when the whole request has arrived on the connection and its handler has ended, whatever
the others do, `invoke_sync` fares accordingly. -/
theorem C113_sync_ends {C : Type} (svc : Services) (reg : Registry) (sevs : List SockSrvEv) (c : Nat) (s : SSt)
    (hc : (ssrvRun svc reg sevs).conns[c]? = some s) (a : CallArgs) (t : TimeoutArg)
    (env : Nat → Attempt C) (p : Pkg) (x : Int × C) (ns : List Nat) (ht : ∀ o, t ≠ .other o)
    (hp : ({ a with timeout := t.obj, ptype := .request } : CallArgs).request = .ok p)
    (hsent : (rawInvoke { a with timeout := t.obj, ptype := .request } env).1 = .ok x)
    (hin : p.toStream = .ok (sreceived (sockView c reg sevs).evs)) (hn : .reset ∉ (sockView c reg sevs).evs)
    (hdone : s.phase = .done) (hlen : s.out.flatten.length ≤ ns.length) :
    let seen := invokeSync a t env true s.out.flatten (chunked ns)
    (∃ f o, s.calls = [f] ∧ SockAskedFor svc (sockView c reg sevs).reg (sockView c reg sevs).evs a f ∧
      s.result = some o ∧ seen = resultSeen o) ∨
    (s.calls = [] ∧ (a.interface = .str [] ∨ a.method = .str []) ∧ seen = .ended (.error .serverError)) ∨
    (s.calls = [] ∧ seen = .waiting ∧ ∃ q, RequestOf a q ∧
      ((∃ e h0 fresh, extract h0 fresh q.header = .error e) ∨
       ∃ (sv m : PyStr) (pre : List SEv) (h : Heap) (ctx : Baggage) (st : RespStatus), a.interface = .str sv ∧
         a.method = .str m ∧ pre <+: (sockView c reg sevs).evs ∧
         lookup svc ((sregistrations pre).foldl registerInterface (sockView c reg sevs).reg) h ctx sv m =
           .refused st)) := by
  have e := C113_alone svc reg sevs c s hc
  subst e
  exact C109_ends_accordingly svc _ _ a t env p x ns ht hp hsent hin hn hdone hlen

set_option maxRecDepth 40000 in
/-- Two connections at the same time; the second one is answered first; a service is registered anew in between. -/
example :
    let evs : List SockSrvEv := [.accept, .accept, .conn 0 (.data (exReq 3 [1]).bytes), .conn 1 (.data (exReq 4 [2]).bytes)] ++
      List.replicate 4 (.conn 0 (.handler [])) ++ List.replicate 4 (.conn 1 (.handler [])) ++
      [.conn 1 (.finish (.ret (.bytes [22]))), .shutdown, .accept, .conn 0 (.finish (.ret (.bytes [11])))]
    (ssrvRun exServices exReg evs).conns.map (fun s => (s.phase, s.out, s.calls.map SCall.body)) =
      [(.done, [reply 3 0 [11]], [[1]]), (.done, [reply 4 0 [22]], [[2]])] := by
  decide +kernel

/-! ## C114 -/

/-- how the message a connection has sent has come about -/
theorem sock_message {svc : Services} {reg : Registry} {sevs : List SEv} {q : AnyFrame} (hq : q.Ok) {rest more : Bytes}
    (hb : sreceived sevs ++ more = q.bytes ++ rest) (hne : (srun svc reg sevs).out ≠ []) :
    Handled svc reg sevs q (srun svc reg sevs).calls (srun svc reg sevs).result (srun svc reg sevs).out := by
  obtain ⟨pre, hpre, hnr, hdone, -, ho, hc, hres⟩ := written_before_reset svc reg sevs hne
  obtain ⟨x, hx⟩ := sreceived_prefix hpre
  rw [← hx, List.append_assoc] at hb
  have hi := SInv.run svc reg q hq rest pre hnr (x ++ more) hb
  cases hi with
  | reading c hp => rw [hdone] at hp; exact hp.elim
  | calling c hp => rw [hdone] at hp; cases hp
  | done hp hr' hh =>
    rw [ho, hc, hres]
    exact hh.mono hpre

/-- A success response read from a connection to a socket listener, which has received (part of) a frame `q`, is the first
message there and carries what the method asked for by `q` has returned. -/
theorem sock_success {svc : Services} {reg : Registry} {sevs : List SEv} {q : AnyFrame} (hq : q.Ok) {rest more : Bytes}
    (hb : sreceived sevs ++ more = q.bytes ++ rest) {us : List Bytes} {f : Fields} {cn hb' ct tail stream : Bytes}
    (hu : ∀ u ∈ us, RespUnit u) (hs : stream = us.flatten ++ frame false f cn hb' ct ++ tail) (hbf : BodyFit cn hb' ct)
    (hfit : Fields.Fit false f) (hcmd : f.cmdcode = 2) (hst : f.seventh = 0)
    (hout : stream <+: (srun svc reg sevs).out.flatten) :
    ∃ call, (srun svc reg sevs).calls = [call] ∧ (srun svc reg sevs).result = some (.ret (.bytes ct)) ∧
      CallFor svc reg sevs q call ∧ q.f.requestId = f.requestId := by
  have hunit : RespUnit (frame false f cn hb' ct) := frame_unit hbf
  have hne : (srun svc reg sevs).out ≠ [] := by
    intro e
    rw [e] at hout
    have h1 := hout.length_le
    rw [hs] at h1
    have := hunit.1
    simp only [List.length_append, List.flatten_nil, List.length_nil] at h1
    omega
  have hid := hq.fit.requestId
  -- a message that is a unit
  have one : ∀ m, (srun svc reg sevs).out = [m] → RespUnit m → m = frame false f cn hb' ct := by
    intro m hm hum
    rw [hm] at hout
    obtain ⟨more, hmore⟩ := hout
    rw [hs, List.append_assoc] at hmore
    obtain ⟨h1, -⟩ := cut_get us [m] (frame false f cn hb' ct) (tail ++ more) hu (by simpa using hum) hunit
      (by simpa using hmore)
    match us, h1 with
    | [], h1 => simpa using h1
    | _ :: _, h1 => simp at h1
  have hh := sock_message hq hb hne
  generalize (srun svc reg sevs).calls = cs at *
  generalize (srun svc reg sevs).result = res at *
  generalize (srun svc reg sevs).out = out at *
  cases hh with
  | heartbeat h =>
    exfalso
    have e := one _ rfl (frame_unit bodyFit_nil)
    obtain ⟨h1, -⟩ := frame_inj e (ack_fit _ hid) hfit bodyFit_nil hbf
    rw [← h1] at hcmd
    cases hcmd
  | rejected h => exact absurd rfl hne
  | noName h hc' hn =>
    exfalso
    have e := one _ rfl (frame_unit (reply_body [] (by decide)))
    obtain ⟨h1, -⟩ := frame_eq_reply (st := .clientSendError) e hfit hbf hid (by decide)
    rw [hst] at h1
    cases h1
  | badContext => exact absurd rfl hne
  | notFound => exact absurd rfl hne
  | called h hc' call o hcall =>
    by_cases hb2 : ∃ c, o = .ret (.bytes c)
    · obtain ⟨c, rfl⟩ := hb2
      simp only [resultReply] at hne one
      by_cases hlt : c.length < 4294967296
      · rw [if_pos hlt] at one
        have e := one (reply q.f.requestId 0 c) rfl (frame_unit (reply_body c hlt))
        obtain ⟨h1, -, -, h4⟩ := frame_inj (f := ⟨1, 0, 2, 1, q.f.requestId, 11, 0⟩) e
          (reply_fit q.f.requestId .success hid) hfit (reply_body c hlt) hbf
        subst h4
        exact ⟨call, rfl, rfl, hcall, by rw [← h1]⟩
      · rw [if_neg hlt] at hne
        exact absurd rfl hne
    · exfalso
      apply hne
      unfold resultReply
      split
      · next c => exact absurd ⟨c, rfl⟩ hb2
      · rfl

/-- what a connection is connected to: a socket listener, with its schedule for this connection -/
structure Spec.SockPeer where
  svc : Services
  reg : Registry
  sevs : List SEv

def Spec.SockPeer.st (x : SockPeer) : SSt := srun x.svc x.reg x.sevs

/-- each connection of the client leads to a socket listener (compare `Spec.Joined`) -/
structure Spec.SockJoined (s : ASt) (peer : Nat → SockPeer) : Prop where
  there : ∀ (n : Nat) (k : AConn), s.conns[n]? = some k → sreceived (peer n).sevs <+: (k.sent.map Prod.snd).flatten
  back : ∀ (n : Nat) (k : AConn), s.conns[n]? = some k → k.recvd <+: (peer n).st.out.flatten

/-- C114 as listed: an asyncio client makes calls, each connection leads to a socket listener. A call whose request has been
received by a listener that is done with the connection, and whose connection the client has read to its end, is not
left waiting. -/
def C114_full : Prop :=
  ∀ (v : PyVer) (evs : List AEv) (peer : Nat → SockPeer), DistinctIds evs → SockJoined (arun v evs) peer →
    (∀ c ∈ (arun v evs).calls, AioMade c.req) →
    ∀ (n : Nat) (k : AConn), (arun v evs).conns[n]? = some k → .reset ∉ (peer n).sevs →
    sreceived (peer n).sevs = (k.sent.map Prod.snd).flatten → (peer n).st.phase = .done →
    k.recvd = (peer n).st.out.flatten → k.eof = true → k.pc = .ended →
    ∀ (i : Nat) (bs : Bytes) (c : ACall), (i, bs) ∈ k.sent → (arun v evs).calls[i]? = some c →
    (match c.pc with | .waiting ev => ((arun v evs).calls[ev]?.map ACall.set) = some true | _ => True)

/-- C114, what holds: whatever all of them do, in whatever order the methods end and however the bytes are cut: if the call
with arguments `a` returns a response, a listener has made the call that `a` asks for, and the content of the response is
the bytes this call returned. Missing for C114: calls that share a connection with an earlier one are never answered. -/
theorem C114_own_result_partial (v : PyVer) (evs : List AEv) (hd : DistinctIds evs) (peer : Nat → SockPeer)
    (hj : SockJoined (arun v evs) peer) (hreq : ∀ c ∈ (arun v evs).calls, AioMade c.req) (i : Nat) (c : ACall) (p : Pkg)
    (a : CallArgs) (kd : AKind) (hc : (arun v evs).calls[i]? = some c) (ha : aioRequest a kd = .ok c.req)
    (hr : c.pc = .done (.resp p)) :
    ∃ (n : Nat) (f : SCall) (ct : Bytes), (peer n).st.calls = [f] ∧ (peer n).st.result = some (.ret (.bytes ct)) ∧
      p.content = .bytes ct ∧ SockAskedFor (peer n).svc (peer n).reg (peer n).sevs a f := by
  obtain ⟨pre, post, n, k, c', us, f, cn, hb, ct, rest, hev, hk, -, -, -, hu, hrecv, hbf, hfit, hcmd, hst, hid, hcont⟩ :=
    C55_own_response v evs hd i c p hc hr
  obtain ⟨k', hk', hgot⟩ := arun_got (pre := k.recvd) v pre (.recv n :: post) hk (List.prefix_refl _)
  rw [← hev] at hk'
  have hback := hgot.trans (hj.back n k' hk')
  obtain ⟨qs, hqs, hq⟩ := sent_frames (arun v evs) hreq k'.sent
    (fun i bs hm => (C60_on_the_wire v evs i).2 k' (List.mem_of_getElem? hk') bs hm)
  obtain ⟨more, hmore⟩ := hj.there n k' hk'
  rw [← hqs] at hmore
  match qs, hmore, hq with
  | [], hmore, hq =>
    -- nothing has been sent, so nothing is written
    exfalso
    have h0 : sreceived (peer n).sevs = [] := (List.append_eq_nil_iff.1 hmore).1
    have hok := exReq_ok 3 [1] (by constructor <;> decide) (by decide)
    obtain ⟨call, -, -, -, h4⟩ := sock_success (svc := (peer n).svc) (reg := (peer n).reg) (q := (exReq 3 [1]).any)
      ⟨hok.fit, hok.body, hok.decodes⟩ (rest := []) (more := (exReq 3 [1]).any.bytes)
      (by rw [h0, List.append_nil]; rfl) hu hrecv hbf hfit hcmd hst hback
    have hok' := exReq_ok 4 [1] (by constructor <;> decide) (by decide)
    obtain ⟨call, -, -, -, h4'⟩ := sock_success (svc := (peer n).svc) (reg := (peer n).reg) (q := (exReq 4 [1]).any)
      ⟨hok'.fit, hok'.body, hok'.decodes⟩ (rest := []) (more := (exReq 4 [1]).any.bytes)
      (by rw [h0, List.append_nil]; rfl) hu hrecv hbf hfit hcmd hst hback
    rw [← h4'] at h4
    exact absurd h4 (by decide)
  | q :: qs, hmore, hq =>
    obtain ⟨i', c'', hc'', hfr⟩ := hq q (by simp)
    have e : framesBytes (q :: qs) = q.bytes ++ framesBytes qs := by simp [framesBytes]
    rw [e] at hmore
    obtain ⟨call, h1, h2, h3, h4⟩ := sock_success hfr.ok hmore hu hrecv hbf hfit hcmd hst hback
    have hi : i' = i := by
      refine same_call hd hc'' hc ?_
      rw [hfr.id, hid, h4]
    subst hi
    rw [hc] at hc''
    cases hc''
    obtain ⟨b, hdr, t, hb1, hb2, hb3⟩ := aioRequest_parts ha
    exact ⟨n, call, ct, h1, h2, hcont, sockAskedFor (newRequest_requestOf hb1 hb2 hb3 hfr) h3⟩

/-- what the listener does: it answers the first request and closes the connection -/
def exSockPeer : SockPeer :=
  ⟨exServices, exReg, [.data (exAioBytes exCallA ++ exAioBytes exCallB), .handler [], .handler [], .handler [],
    .handler (py "t"), .finish (.ret (.bytes [11]))]⟩

/-- two calls of the client on one connection -/
def exSockAio : List AEv :=
  [.call (exAioReq exCallA), .call (exAioReq exCallB), .start 0 exAddr, .start 1 exAddr, .dialed 0 true, .lock 1,
   .drained 0 true, .drained 1 true, .drained 1 true, .drained 0 true, .recv 0, .data 0 (reply 7 0 [11]), .eof 0,
   .recv 0, .recv 0, .recv 0, .wake 0, .wake 1]

set_option maxRecDepth 40000 in
/-- the first call returns its result, the second one waits -/
theorem exSock_run : DistinctIds exSockAio ∧
    (arun .from38 exSockAio).conns.map (fun k => (k.sent, k.recvd, k.eof, k.pc)) =
      [([(0, exAioBytes exCallA), (1, exAioBytes exCallB)], reply 7 0 [11], true, .ended)] ∧
    (arun .from38 exSockAio).calls.map (fun c => (c.set, match c.pc with | .done r => some (syncResult r) | _ => none)) =
      [(true, some (.ok (.bytes [11]))), (false, none)] ∧
    (arun .from38 exSockAio).calls.map ACall.req = [exAioReq exCallA, exAioReq exCallB] ∧
    ((arun .from38 exSockAio).calls[1]?.map ACall.pc) = some (.waiting 1) := by
  decide +kernel

set_option maxRecDepth 40000 in
theorem exSockPeer_run : exSockPeer.st.out = [reply 7 0 [11]] ∧ exSockPeer.st.phase = .done := by
  decide +kernel

set_option maxRecDepth 40000 in
theorem exAio_made : aioRequest exCallA .sync = .ok (exAioReq exCallA) ∧ aioRequest exCallB .sync = .ok (exAioReq exCallB) := by
  decide +kernel

theorem C114_violated : ¬ C114_full := by
  intro h
  obtain ⟨h1, h2, h3, h4, h5⟩ := exSock_run
  obtain ⟨k, hk, hs, hr, he, hp⟩ : ∃ k : AConn, (arun .from38 exSockAio).conns = [k] ∧
      k.sent = [(0, exAioBytes exCallA), (1, exAioBytes exCallB)] ∧ k.recvd = reply 7 0 [11] ∧ k.eof = true ∧
      k.pc = .ended := by
    match hcs : (arun .from38 exSockAio).conns with
    | [] => rw [hcs] at h2; cases h2
    | [k] =>
      rw [hcs] at h2
      simp only [List.map_cons, List.map_nil, List.cons.injEq, and_true, Prod.mk.injEq] at h2
      exact ⟨k, rfl, h2.1, h2.2.1, h2.2.2.1, h2.2.2.2⟩
    | _ :: _ :: _ => rw [hcs] at h2; simp at h2
  have hsent : (k.sent.map Prod.snd).flatten = exAioBytes exCallA ++ exAioBytes exCallB := by rw [hs]; simp
  have hrec : sreceived exSockPeer.sevs = exAioBytes exCallA ++ exAioBytes exCallB := by
    simp [exSockPeer, sreceived]
  have hone : ∀ (n : Nat) (k' : AConn), (arun .from38 exSockAio).conns[n]? = some k' → k' = k := by
    intro n k' h
    rw [hk] at h
    match n, h with
    | 0, h => simpa using h.symm
    | n + 1, h => cases h
  obtain ⟨c, hc, hpc⟩ := Option.map_eq_some_iff.1 h5
  have := h .from38 exSockAio (fun _ => exSockPeer) h1
    ⟨fun n k' hk' => by rw [hone n k' hk', hsent, hrec]; exact List.prefix_refl _,
     fun n k' hk' => by rw [hone n k' hk', hr, exSockPeer_run.1]; simp⟩
    (by
      intro c hm
      have : c.req ∈ (arun .from38 exSockAio).calls.map ACall.req := List.mem_map_of_mem hm
      rw [h4] at this
      simp only [List.mem_cons, List.not_mem_nil, or_false] at this
      rcases this with e | e
      · exact .inl ⟨exCallA, .sync, by rw [e]; exact exAio_made.1⟩
      · exact .inl ⟨exCallB, .sync, by rw [e]; exact exAio_made.2⟩)
    0 k (by rw [hk]; rfl) (by simp [exSockPeer]) (by rw [hsent, hrec]) exSockPeer_run.2
    (by rw [hr, exSockPeer_run.1]; simp) he hp 1 (exAioBytes exCallB) c (by rw [hs]; simp) hc
  rw [hpc] at this
  dsimp only at this
  have h6 : ((arun .from38 exSockAio).calls[1]?.map ACall.set) = some false := by
    have e := congrArg (fun l => l[1]?.map Prod.fst) h3
    simp only [List.getElem?_map, Option.map_map] at e
    simpa [Function.comp_def] using e
  rw [h6] at this
  cases this

end Bolt
