import Verif.Lemmas.Join
/-!
# C86, C87: a client and the asyncio listener together
-/
namespace Bolt
open Spec

/-! ## C86 -/

/-- what the synchronous client has put on the connection is a beginning of its request -/
theorem raw_wire {C : Type} {a : CallArgs} {env : Nat → Attempt C} {p : Pkg} (hp : a.request = .ok p) :
    (rawInvoke a env).2.wire = [] ∨ ∃ c bs n, p.toStream = .ok bs ∧ (rawInvoke a env).2.wire = [(c, bs.take n)] := by
  rcases (C53_at_most_once a p hp env).2.2 with ⟨h, -⟩ | ⟨c, b, h, -, -, -, bs, n, h1, -, rfl⟩
  · exact .inl h
  · exact .inr ⟨c, bs, n, h1, h⟩

/-- the frame of a synchronous call -/
theorem sync_frame {a : CallArgs} {p : Pkg} {bs : Bytes} (hp : a.request = .ok p) (hs : p.toStream = .ok bs) :
    ∃ q : AnyFrame, RequestOf a q ∧ FrameOf p q ∧ q.bytes = bs ∧ q.f.ptype = a.ptype.code := by
  unfold CallArgs.request at hp
  split at hp
  · cases hp
  · next b hb =>
    cases hh : buildHeader a.heap b a.interface a.method a.targetApp a.uid a.extra with
    | error e => rw [hh] at hp; cases hp
    | ok hd =>
      rw [hh] at hp
      obtain ⟨q, h1, h2⟩ := newRequest_frame hh hp hs
      exact ⟨q, newRequest_requestOf hb hh hp h1, h1, h2, by rw [h1.ptype, newRequest_ptype hp]⟩

/-- C86. A synchronous client makes a call on a connection to an asyncio listener on which there is nothing else. Whatever
the two do and however the bytes are cut: if `invoke_sync` returns, the listener has made exactly one call, the one
asked for, and `invoke_sync` returns the bytes this call returned. -/
theorem C86_returns_result {C : Type} (svc : Services) (reg : Registry) (levs : List LEv) (a : CallArgs) (t : TimeoutArg)
    (env : Nat → Attempt C) (registers : Bool) (stream : Bytes) (evs : List RecvEv) (v : PyObj)
    (hin : received levs <+:
      ((rawInvoke { a with timeout := t.obj, ptype := .request } env).2.wire.map Prod.snd).flatten)
    (hout : stream <+: (lrun svc reg levs).wire)
    (hr : invokeSync a t env registers stream evs = .ended (.ok v)) :
    ∃ (f : Fut) (c : Bytes), (lrun svc reg levs).futs = [f] ∧ f.st = .finished (.ret (.bytes c)) ∧ v = .bytes c ∧
      AskedFor svc reg levs a f := by
  obtain ⟨f, cn, hb, ct, rest, hs, hbf, hfit, hid, hst, rfl⟩ := (C50_own_success a t env registers stream evs).1 v hr
  obtain ⟨o, ho⟩ := found_message (us := []) hout (by simp) (by simpa using hs) hbf
  have hmem := List.mem_of_getElem? ho
  have h := LInv.run svc reg levs
  -- the frames the listener can have received
  have hfr : ∃ qs more, (∀ q ∈ qs, RequestOf a q) ∧ qs.length ≤ 1 ∧ received levs ++ more = framesBytes qs := by
    cases hp : ({ a with timeout := t.obj, ptype := .request } : CallArgs).request with
    | error e =>
      have : (rawInvoke { a with timeout := t.obj, ptype := .request } env).2.wire = [] := by
        unfold rawInvoke; rw [hp]
      rw [this] at hin
      obtain ⟨x, hx⟩ := hin
      exact ⟨[], x, by simp, by simp, hx⟩
    | ok p =>
      rcases raw_wire (env := env) hp with hw | ⟨c, bs, n, hts, hw⟩
      · rw [hw] at hin
        obtain ⟨x, hx⟩ := hin
        exact ⟨[], x, by simp, by simp, hx⟩
      · rw [hw] at hin
        obtain ⟨x, hx⟩ := hin
        obtain ⟨q, h1, -, h3, -⟩ := sync_frame hp hts
        refine ⟨[q], x ++ bs.drop n, ?_, by simp, ?_⟩
        · intro q' hq'
          rw [List.mem_singleton.1 hq']
          exact ⟨h1.ok, h1.id, h1.content, h1.cls, h1.cmd, h1.built⟩
        · rw [← List.append_assoc, hx]
          simp [framesBytes, h3]
  obtain ⟨qs, more, hq, hlen, hb'⟩ := hfr
  obtain ⟨l, l', hl, hacts⟩ := acts_prefix svc reg levs qs more (fun q h => (hq q h).ok) hb'
  have hdisp : ∀ x ∈ (lrun svc reg levs).acts, (∃ i st, x = .close i st) ∨ ∃ q ∈ qs, x = q.verdict := by
    have key : ∀ x ∈ l, ∃ q ∈ qs, x = q.verdict := by
      intro x hx
      have : x ∈ qs.map AnyFrame.verdict := by rw [hl]; exact List.mem_append_left _ hx
      obtain ⟨q, h1, h2⟩ := List.mem_map.1 this
      exact ⟨q, h1, h2.symm⟩
    intro x hx
    rcases hacts with e | ⟨-, i, e⟩
    · rw [e] at hx; exact .inr (key x hx)
    · rw [e] at hx
      rcases List.mem_append.1 hx with hx | hx
      · exact .inr (key x hx)
      · exact .inl ⟨i, _, List.mem_singleton.1 hx⟩
  have hnohb : ∀ x ∈ (lrun svc reg levs).acts, ∀ id, x ≠ .heartbeat id := by
    intro x hx id e
    rcases hdisp x hx with ⟨i, st, e'⟩ | ⟨q, h1, e'⟩
    · rw [e'] at e; cases e
    · rw [e', (hq q h1).verdict] at e; cases e
  obtain ⟨j, tk, r, k, fu, -, h2, h3, h4, h5, h6, h7⟩ := success_task hmem hbf hfit hst (.inr hnohb)
  -- there is only one task
  have hkinds : (lrun svc reg levs).tasks.length ≤ 1 := by
    have e := congrArg List.length h.kinds
    rw [List.length_map] at e
    have hll : l.length ≤ 1 := by
      have := congrArg List.length hl
      rw [List.length_map, List.length_append] at this
      omega
    rcases hacts with ha | ⟨-, i, ha⟩
    · rw [ha] at e
      have := List.length_filterMap_le actTask l
      omega
    · rw [ha, List.filterMap_append] at e
      have := List.length_filterMap_le actTask l
      have h0 : ([Act.close i RespStatus.connectionClosed].filterMap actTask) = [] := rfl
      rw [h0, List.append_nil] at e
      omega
  obtain ⟨x, hx, hxk, -⟩ := task_act h h2
  rw [h3] at hxk
  have hreq : ∃ q ∈ qs, r = ⟨q.f.ptype, q.f.requestId, q.header, q.content, q.f.seventh⟩ := by
    rcases hdisp x hx with ⟨i, st, rfl⟩ | ⟨q, hq1, rfl⟩
    · cases hxk
    · rw [(hq q hq1).verdict] at hxk
      injection hxk with hxk
      injection hxk with hxk
      exact ⟨q, hq1, hxk.symm⟩
  obtain ⟨q, hq1, rfl⟩ := hreq
  refine ⟨fu, ct, ?_, h7, rfl, askedFor_of_task (hq q hq1) h2 h3 h5 h6⟩
  have hk0 : ∀ k', k' < (lrun svc reg levs).futs.length → k' = k := by
    intro k' hk'
    obtain ⟨i, t', g1, g2⟩ := h.futOwner k' hk'
    have i1 := (List.getElem?_eq_some_iff.1 g1).1
    have i2 := (List.getElem?_eq_some_iff.1 h2).1
    have : i = j := by omega
    subst this
    rw [h2] at g1
    cases g1
    rw [h5] at g2
    injection g2 with g2
    exact g2.symm
  have hklt := (List.getElem?_eq_some_iff.1 h6).1
  have e0 := hk0 0 (by omega)
  subst e0
  match hfu : (lrun svc reg levs).futs with
  | [] => rw [hfu] at hklt; cases hklt
  | [y] => rw [hfu] at h6; injection h6 with h6; rw [h6]
  | y :: z :: ys => have := hk0 1 (by rw [hfu]; simp); omega

/-- what the synchronous client makes of a reply to its own request -/
theorem responseOutcome_reply (id : Int) (st : RespStatus) (c : Bytes) (hid : IdOk id) (hc : c.length < 4294967296) :
    Spec.responseOutcome id (reply id st.code c) =
      some (if st = .success then .ok (.bytes c) else .error .serverError) := by
  obtain ⟨p, h1, h2, h3, h4, -⟩ := reply_decodes id st c hid hc
  have hu : RespUnit (reply id st.code c) := frame_unit (reply_body c hc)
  unfold Spec.responseOutcome
  rw [if_neg (by have := hu.1; omega), if_neg (by have := hu.2; omega), ← hu.2, List.take_length, h1]
  dsimp only
  rw [if_pos h2, h3, h4]

/-- what the caller sees, given how the call fared on the listener -/
def Spec.callerSees : Fate → SyncRes
  | .badCarrier | .accepted => .waiting
  | .answered (.ret (.bytes c)) => if c ≠ [] ∧ c.length < 4294967296 then .ended (.ok (.bytes c)) else .waiting
  | .answered (.ret _) => .waiting
  | _ => .ended (.error .serverError)

theorem callerSees_owed (id : Int) (fa : Fate) :
    (owed id fa = none ∧ callerSees fa = .waiting) ∨
    ∃ st c, c.length < 4294967296 ∧ owed id fa = some (reply id (RespStatus.code st) c) ∧
      callerSees fa = .ended (if st = .success then .ok (.bytes c) else .error .serverError) := by
  have n : ([] : Bytes).length < 4294967296 := by decide
  cases fa with
  | badName => exact .inr ⟨.clientSendError, [], n, rfl, rfl⟩
  | badCarrier => exact .inl ⟨rfl, rfl⟩
  | notFound => exact .inr ⟨.noProcessor, [], n, rfl, rfl⟩
  | failed e => exact .inr ⟨.serverException, [], n, rfl, rfl⟩
  | accepted => exact .inl ⟨rfl, rfl⟩
  | expired => exact .inr ⟨.timeout, [], n, rfl, rfl⟩
  | answered o =>
    cases o with
    | raised e =>
      by_cases h1 : e = .timeoutError
      · subst h1; exact .inr ⟨.timeout, [], n, rfl, rfl⟩
      by_cases h2 : e = .cancelledError
      · subst h2; exact .inr ⟨.timeout, [], n, rfl, rfl⟩
      refine .inr ⟨.unknown, [], n, ?_, rfl⟩
      cases e <;> first | rfl | exact absurd rfl h1 | exact absurd rfl h2
    | ret v =>
      cases v with
      | bytes c =>
        by_cases h : c ≠ [] ∧ c.length < 4294967296
        · exact .inr ⟨.success, c, h.2, by simp only [owed, if_pos h]; rfl, by simp only [callerSees, if_pos h]; rfl⟩
        · exact .inl ⟨by simp only [owed, if_neg h], by simp only [callerSees, if_neg h]⟩
      | _ => exact .inl ⟨rfl, rfl⟩

/-- C86, the other direction. When the listener has received the whole request and everything there has settled, the call
has fared in some way, and `invoke_sync` ends accordingly, however the bytes of the response are cut, when as many rounds
as there are bytes have been made: it returns the bytes that the method returned, if these are non-empty bytes; it raises
`ServerError` if the listener has refused the request or the method has failed or timed out; it goes on waiting if the
listener sends nothing. -/
theorem C86_ends_accordingly {C : Type} (svc : Services) (reg : Registry) (levs : List LEv) (a : CallArgs) (t : TimeoutArg)
    (env : Nat → Attempt C) (p : Pkg) (x : Int × C) (ns : List Nat)
    (ht : ∀ o, t ≠ .other o)
    (hp : ({ a with timeout := t.obj, ptype := .request } : CallArgs).request = .ok p)
    (hsent : (rawInvoke { a with timeout := t.obj, ptype := .request } env).1 = .ok x)
    (hin : p.toStream = .ok (received levs)) (he : sawEof levs = false) (hn : .reset ∉ levs)
    (hs : (lrun svc reg levs).settled) (hlen : (lrun svc reg levs).wire.length ≤ ns.length) :
    ∃ (tk : Task) (fa : Fate), (lrun svc reg levs).tasks = [tk] ∧ tk.fate = some fa ∧
      invokeSync a t env true (lrun svc reg levs).wire (chunked ns) = callerSees fa := by
  obtain ⟨q, h1, -, h3, -⟩ := sync_frame hp hin
  have hq : RequestOf a q := ⟨h1.ok, h1.id, h1.content, h1.cls, h1.cmd, h1.built⟩
  obtain ⟨hacts, hcl⟩ := frames_acts svc reg levs [q] (by simpa using hq.ok) (by simp [framesBytes, h3]) he hn hs.1
  rw [List.map_singleton, hq.verdict] at hacts
  have h := LInv.run svc reg levs
  have hk := h.kinds
  rw [hacts] at hk
  obtain ⟨tk, htk, hkind⟩ : ∃ tk, (lrun svc reg levs).tasks = [tk] ∧
      tk.kind = .dispatch ⟨q.f.ptype, q.f.requestId, q.header, q.content, q.f.seventh⟩ := by
    match htt : (lrun svc reg levs).tasks with
    | [] => rw [htt] at hk; simp [actTask] at hk
    | [y] => rw [htt] at hk; exact ⟨y, rfl, by simpa [actTask] using hk⟩
    | y :: z :: ys => rw [htt] at hk; simp [actTask] at hk
  have hend := hs.2 tk (by rw [htk]; simp)
  have htok := h.task 0 tk (by rw [htk]; rfl)
  unfold TaskOk at htok
  rw [hkind] at htok
  obtain ⟨hst, -⟩ := htok
  rw [hend] at hst
  obtain ⟨fa, hfa⟩ := Option.isSome_iff_exists.1 (show tk.fate.isSome from hst)
  refine ⟨tk, fa, htk, hfa, ?_⟩
  have hidok : IdOk a.id := by
    rw [← hq.id]
    exact h.actsOk (.dispatch ⟨q.f.ptype, q.f.requestId, q.header, q.content, q.f.seventh⟩) (by rw [hacts]; simp) _ rfl
  have hrep : taskReply tk = owed a.id fa := by
    unfold taskReply
    rw [hkind, hfa]
    show owed q.f.requestId fa = _
    rw [hq.id]
  have hled := ledger h hs hcl
  unfold owing at hled
  rw [htk, hacts] at hled
  have hxid := rawInvoke_id hsent
  simp only at hxid
  have hinv : ∀ r, (recvRun a.id (lrun svc reg levs).wire (chunked ns)).out = r →
      invokeSync a t env true (lrun svc reg levs).wire (chunked ns) =
        (match r with | none => .waiting | some r => .ended r) := by
    intro r hr
    obtain ⟨i, c⟩ := x
    dsimp only at hxid
    subst hxid
    unfold invokeSync
    cases t with
    | other o => exact absurd rfl (ht o)
    | int _ | float _ =>
      dsimp only
      rw [hsent]
      dsimp only
      rw [hr]
      cases r <;> rfl
  rcases callerSees_owed a.id fa with ⟨h1, h2⟩ | ⟨st, c, hc, h1, h2⟩
  · rw [h2]
    rw [h1] at hrep
    have hw : (lrun svc reg levs).wire = [] := by
      have : List.filterMap taskReply [tk] ++ List.filterMap actReply [Act.dispatch ⟨q.f.ptype, q.f.requestId, q.header, q.content, q.f.seventh⟩] = [] := by
        simp [hrep, actReply]
      rw [this] at hled
      unfold LSt.wire
      rw [List.perm_nil.1 hled]
      rfl
    refine hinv none ?_
    rw [hw]
    exact (C49_segmentation a.id [] ns ns).1 rfl
  · rw [h2]
    rw [h1] at hrep
    have hw : (lrun svc reg levs).wire = reply a.id st.code c := by
      have : List.filterMap taskReply [tk] ++ List.filterMap actReply [Act.dispatch ⟨q.f.ptype, q.f.requestId, q.header, q.content, q.f.seventh⟩] =
          [reply a.id st.code c] := by
        simp [hrep, actReply]
      rw [this] at hled
      unfold LSt.wire
      rw [List.perm_singleton.1 hled]
      simp
    have hu : RespUnit (reply a.id st.code c) := frame_unit (reply_body c hc)
    have ho := responseOutcome_reply a.id st c hidok hc
    refine hinv (some _) ?_
    rw [hw] at hlen ⊢
    rw [(C49_segmentation a.id _ ns ns).2.2.1 (by rw [ho]; simp) (by rw [← hu.2]; exact hlen), ho]

/-- the frame of `exCall` -/
def exCallBytes : Bytes := (exCall.request.toOption.bind fun p => p.toStream.toOption).getD []

set_option maxRecDepth 40000 in
/-- The request arrives in two pieces, the method returns `hi`, the response is read in pieces of three bytes; with a
method that fails the caller gets `ServerError`. Fewer bytes give no result yet. -/
example :
    let env : Nat → Attempt Nat := fun i => ⟨.ok i, .ok 1000⟩
    let levs (o : Outcome) : List LEv := [.data (exCallBytes.take 50), .reader, .data (exCallBytes.drop 50), .reader,
      .reader, .reader, .reader, .run 0 (py "t"), .futStart 0, .futFinish 0 o, .result 0, .write 0]
    (((rawInvoke exCall env).2.wire.map Prod.snd).flatten = exCallBytes ∧ 50 < exCallBytes.length ∧
      received (levs (.ret (.bytes [104, 105]))) = exCallBytes) ∧
    (lrun exServices exReg (levs (.ret (.bytes [104, 105])))).settled ∧
    invokeSync exCall (.int 1000) env true (lrun exServices exReg (levs (.ret (.bytes [104, 105])))).wire
      (chunked (List.replicate 40 2)) = .ended (.ok (.bytes [104, 105])) ∧
    invokeSync exCall (.int 1000) env true ((lrun exServices exReg (levs (.ret (.bytes [104, 105])))).wire.take 60)
      (chunked (List.replicate 15 2)) = .waiting ∧
    invokeSync exCall (.int 1000) env true (lrun exServices exReg (levs (.raised .typeError))).wire
      (chunked (List.replicate 40 2)) = .ended (.error .serverError) := by
  decide +kernel

end Bolt
