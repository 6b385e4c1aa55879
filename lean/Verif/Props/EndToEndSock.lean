import Verif.Props.EndToEnd
import Verif.Props.SockListener
/-!
# C109: the synchronous client and the socket listener together
-/
namespace Bolt
open Spec

/-! ### the handler after it has ended, and resets -/

theorem sdone_step (svc : Services) (s : SSt) (e : SEv) (h : s.phase = .done) :
    (sstep svc s e).phase = .done ∧ (sstep svc s e).out = s.out ∧ (sstep svc s e).calls = s.calls ∧
    (sstep svc s e).result = s.result := by
  cases e with
  | data bs => unfold sstep; dsimp only; split <;> exact ⟨h, rfl, rfl, rfl⟩
  | eof => exact ⟨h, rfl, rfl, rfl⟩
  | reset => exact ⟨h, rfl, rfl, rfl⟩
  | handler fresh => unfold sstep SSt.handler; dsimp only; rw [h]; exact ⟨h, rfl, rfl, rfl⟩
  | finish o => unfold sstep; dsimp only; rw [h]; exact ⟨h, rfl, rfl, rfl⟩
  | register r => exact ⟨h, rfl, rfl, rfl⟩

theorem send_out (s : SSt) (m : Except PyExc Bytes) :
    ((s.send m).out = s.out ∨ s.reset = false) ∧ (s.send m).phase = .done := by
  unfold SSt.send SSt.finish
  split
  · split
    · exact ⟨.inl rfl, rfl⟩
    · next h => exact ⟨.inr (by simpa using h), rfl⟩
  · exact ⟨.inl rfl, rfl⟩

/-- nothing is written except when the handler ends, without a reset -/
def OutStep (s s' : SSt) : Prop := s'.out = s.out ∨ (s.reset = false ∧ s'.phase = .done)

theorem send_outStep (s : SSt) (m : Except PyExc Bytes) : OutStep s (s.send m) := by
  obtain ⟨h1, h2⟩ := send_out s m
  rcases h1 with h1 | h1
  · exact .inl h1
  · exact .inr ⟨h1, h2⟩

theorem serve_outStep (svc : Services) (s : SSt) (fresh : PyStr) (h : ReqHdr) (cn : Bytes) (d : PyDict PyStr PyStr)
    (body : Bytes) : OutStep s (s.serve svc fresh h cn d body) := by
  unfold SSt.serve
  split
  · exact send_outStep _ _
  · split
    · exact .inl rfl
    · split
      · exact .inl rfl
      · cases serviceOf d with
        | none => exact send_outStep _ _
        | some service =>
          cases methodOf d with
          | none => exact send_outStep _ _
          | some method =>
            cases extract s.heap fresh d with
            | error e => exact .inl rfl
            | ok p =>
              dsimp only
              cases findMethod svc s.reg p.1 p.2 service method with
              | error e => exact .inl rfl
              | ok func => exact .inl rfl

theorem readexactly_outStep (s : SSt) (n : Nat) (k : SSt → Bytes → SSt) (hk : ∀ t b, OutStep t (k t b)) :
    OutStep s (s.readexactly n k) := by
  have lift : ∀ (t : SSt) (b : Bytes), t.out = s.out → t.reset = s.reset → OutStep s (k t b) := by
    intro t b h1 h2
    rcases hk t b with h | h
    · exact .inl (h.trans h1)
    · exact .inr ⟨by rw [← h2]; exact h.1, h.2⟩
  unfold SSt.readexactly
  dsimp only
  split
  · split
    · exact .inl rfl
    · split
      · split
        · exact .inl rfl
        · exact lift _ _ rfl rfl
      · exact .inl rfl
  · exact lift _ _ rfl rfl

theorem sstep_outStep (svc : Services) (s : SSt) (e : SEv) : OutStep s (sstep svc s e) := by
  cases e with
  | data bs => unfold sstep; dsimp only; split <;> exact .inl rfl
  | eof => exact .inl rfl
  | reset => exact .inl rfl
  | handler fresh =>
    unfold sstep SSt.handler
    dsimp only
    split
    · refine readexactly_outStep _ _ _ fun t b => ?_
      split <;> exact .inl rfl
    · exact readexactly_outStep _ _ _ fun t b => .inl rfl
    · refine readexactly_outStep _ _ _ fun t b => ?_
      split <;> exact .inl rfl
    · exact readexactly_outStep _ _ _ fun t b => serve_outStep _ _ _ _ _ _ _
    · exact .inl rfl
    · exact .inl rfl
  | finish o =>
    unfold sstep
    dsimp only
    split
    · split
      · exact .inl rfl
      · next v =>
        rcases send_outStep { s with result := some (.ret v) } (resultMsg v _) with h | h
        · exact .inl h
        · exact .inr h
    · exact .inl rfl
  | register r => exact .inl rfl

theorem srun_snoc (svc : Services) (reg : Registry) (evs : List SEv) (e : SEv) :
    srun svc reg (evs ++ [e]) = sstep svc (srun svc reg evs) e := by
  rw [srun_append]; rfl

/-- when something has been written, it was written before any reset, and nothing has changed since -/
theorem written_before_reset (svc : Services) (reg : Registry) (evs : List SEv) (h : (srun svc reg evs).out ≠ []) :
    ∃ pre, pre <+: evs ∧ .reset ∉ pre ∧ (srun svc reg pre).phase = .done ∧ (srun svc reg evs).phase = .done ∧
      (srun svc reg evs).out = (srun svc reg pre).out ∧ (srun svc reg evs).calls = (srun svc reg pre).calls ∧
      (srun svc reg evs).result = (srun svc reg pre).result := by
  induction evs using snoc_induct with
  | nil => exact absurd rfl h
  | snoc evs e ih =>
    by_cases ho : (srun svc reg evs).out = []
    · rw [srun_snoc] at h
      rcases sstep_outStep svc (srun svc reg evs) e with h1 | ⟨h1, h2⟩
      · rw [ho] at h1; exact absurd h1 h
      · refine ⟨evs ++ [e], List.prefix_refl _, ?_, ?_, ?_, rfl, rfl, rfl⟩
        · intro hm
          rcases List.mem_append.1 hm with hm | hm
          · obtain ⟨-, -, e3, -⟩ := srun_env svc reg evs
            rw [e3] at h1
            simp [hm] at h1
          · rw [← List.mem_singleton.1 hm] at h
            exact h ho
        · rw [srun_snoc]; exact h2
        · rw [srun_snoc]; exact h2
    · obtain ⟨pre, h1, h2, h3, h4, h5, h6, h7⟩ := ih ho
      obtain ⟨g1, g2, g3, g4⟩ := sdone_step svc (srun svc reg evs) e h4
      rw [srun_snoc]
      exact ⟨pre, h1.trans (List.prefix_append _ _), h2, h3, g1, g2.trans h5, g3.trans h6, g4.trans h7⟩

theorem sreceived_prefix {pre evs : List SEv} (h : pre <+: evs) : sreceived pre <+: sreceived evs := by
  obtain ⟨post, rfl⟩ := h
  induction pre with
  | nil => exact List.nil_prefix
  | cons e pre ih =>
    cases e with
    | data bs => exact (List.prefix_append_right_inj bs).2 ih
    | eof => exact List.prefix_refl _
    | _ => exact ih

/-! ### the call that was asked for -/

/-- The call `f` made by the socket listener is the one that the client's arguments `a` ask for (compare
`Spec.AskedFor`). -/
structure Spec.SockAskedFor (svc : Services) (reg : Registry) (sevs : List SEv) (a : CallArgs) (f : SCall) : Prop where
  body : a.content = .bytes f.body
  target : ∃ (s m : PyStr) (pre : List SEv), a.interface = .str s ∧ a.method = .str m ∧ pre <+: sevs ∧
    (match lastFor (sregistrations pre) s with
     | some x => serve svc x f.heap f.ctx m
     | none => lookup svc reg f.heap f.ctx s m) = .found f.func
  context : ∀ (ops : List TOp) (b : Baggage), a.ctx = some b → a.heap = (trun ops).heap → b ∈ (trun ops).ctxs →
    Benign b → PyDict.NodupKeys a.extra → (∀ k, PyDict.get? a.extra (py "rpc_trace_context." ++ k) = none) →
    ∀ k, (PyDict.get? f.ctx k).map (BagVal.toStr f.heap) = (PyDict.get? b k).map (BagVal.toStr a.heap)

theorem sockAskedFor {svc : Services} {reg : Registry} {sevs : List SEv} {a : CallArgs} {q : AnyFrame} {f : SCall}
    (hq : RequestOf a q) (hc : CallFor svc reg sevs q f) : SockAskedFor svc reg sevs a f := by
  obtain ⟨h1, ⟨h0, fresh, hx⟩, s, m, pre, hp, hs, hm, hreg, hl⟩ := hc
  refine ⟨by rw [h1]; exact hq.content, ⟨s, m, pre, hq.names.1 s hs, hq.names.2 m hm, hp, ?_⟩, ?_⟩
  · rw [hreg, C79_last_wins] at hl
    exact hl
  · intro ops b hb hheap hmem hben hnx hex key
    obtain ⟨b', args, p, hc, hbh, hmk, hts⟩ := hq.built
    rw [hb] at hc
    cases hc
    rw [hheap] at hbh
    obtain ⟨p', d, h', b', g1, g2, g3, g4⟩ := C20_context_survives_call_partial ops b hmem hben a.interface a.method
      a.targetApp a.uid a.extra hnx hex _ hbh a.content args p q.bytes hmk hts h0 fresh
    have hd : d = q.header := by
      obtain ⟨p'', i1, i2, -⟩ := C01_request_roundtrip .boltRequest rfl _ (buildHeader_names hbh).1 _ _ p q.bytes hmk hts
      rw [i1] at g1
      cases g1
      exact strHeader_inj (g2.symm.trans i2)
    subst hd
    rw [g3] at hx
    cases hx
    rw [hheap]
    exact g4 key

/-- a request of a client is not refused -/
theorem requestOf_plain {a : CallArgs} {q : AnyFrame} (hq : RequestOf a q) : ¬ q.Refused ∧ q.f.cmdcode ≠ 0 := by
  refine ⟨?_, by rw [hq.cmd]; decide⟩
  rintro ⟨-, e | e⟩
  · rw [hq.cmd] at e; cases e
  · exact e hq.cls

/-- a frame that is a reply -/
theorem frame_eq_reply {f : Fields} {cn hb ct c : Bytes} {id : Int} {st : RespStatus}
    (e : reply id st.code c = frame false f cn hb ct) (hfit : Fields.Fit false f) (hbf : BodyFit cn hb ct) (hid : IdOk id)
    (hc : c.length < 4294967296) : f.seventh = st.code ∧ ct = c := by
  obtain ⟨h1, -, -, h4⟩ := frame_inj e (reply_fit id st hid) hfit (reply_body c hc) hbf
  exact ⟨by rw [← h1], h4.symm⟩

/-! ## C109 -/

/-- C109. A synchronous client makes a call on a connection to a socket listener. Whatever the two do and however the
bytes are cut: if `invoke_sync` returns, the listener has made exactly one call, the one asked for, and `invoke_sync`
returns the bytes this call returned. -/
theorem C109_returns_result {C : Type} (svc : Services) (reg : Registry) (sevs : List SEv) (a : CallArgs) (t : TimeoutArg)
    (env : Nat → Attempt C) (registers : Bool) (stream : Bytes) (evs : List RecvEv) (v : PyObj)
    (hin : sreceived sevs <+:
      ((rawInvoke { a with timeout := t.obj, ptype := .request } env).2.wire.map Prod.snd).flatten)
    (hout : stream <+: (srun svc reg sevs).out.flatten)
    (hr : invokeSync a t env registers stream evs = .ended (.ok v)) :
    ∃ (f : SCall) (c : Bytes), (srun svc reg sevs).calls = [f] ∧
      (srun svc reg sevs).result = some (.ret (.bytes c)) ∧ v = .bytes c ∧ SockAskedFor svc reg sevs a f := by
  obtain ⟨f, cn, hb, ct, rest, hs, hbf, hfit, hid, hst, rfl⟩ := (C50_own_success a t env registers stream evs).1 v hr
  have hunit : RespUnit (frame false f cn hb ct) := frame_unit hbf
  have hne : (srun svc reg sevs).out ≠ [] := by
    intro e
    rw [e] at hout
    have h1 := hout.length_le
    rw [hs] at h1
    have := hunit.1
    simp only [List.length_append, List.flatten_nil, List.length_nil] at h1
    omega
  obtain ⟨pre, hpre, hnr, hdone, -, ho, hc, hres⟩ := written_before_reset svc reg sevs hne
  have hrec := (sreceived_prefix hpre).trans hin
  -- nothing or a request has been received
  have hfr : sreceived pre = [] ∨ ∃ q more, RequestOf a q ∧ sreceived pre ++ more = q.bytes := by
    cases hp : ({ a with timeout := t.obj, ptype := .request } : CallArgs).request with
    | error e =>
      have : (rawInvoke { a with timeout := t.obj, ptype := .request } env).2.wire = [] := by
        unfold rawInvoke; rw [hp]
      rw [this] at hrec
      exact .inl (List.prefix_nil.1 hrec)
    | ok p =>
      rcases raw_wire (env := env) hp with hw | ⟨c, bs, n, hts, hw⟩
      · rw [hw] at hrec
        exact .inl (List.prefix_nil.1 hrec)
      · rw [hw] at hrec
        obtain ⟨x, hx⟩ := hrec
        obtain ⟨q, h1, -, h3, -⟩ := sync_frame hp hts
        refine .inr ⟨q, x ++ bs.drop n, ⟨h1.ok, h1.id, h1.content, h1.cls, h1.cmd, h1.built⟩, ?_⟩
        rw [← List.append_assoc, hx, h3]
        simp
  rcases hfr with h0 | ⟨q, more, hq, hqb⟩
  · -- nothing: then nothing is written
    exfalso
    have hok := exReq_ok 3 [1] (by constructor <;> decide) (by decide)
    have hlen : (exReq 3 [1]).any.bytes ≠ [] := by
      intro e
      have := congrArg List.length e
      rw [bytes_parts] at this
      simp [fixOf_length] at this
    exact (C84_never_ends svc reg pre (exReq 3 [1]).any ⟨hok.fit, hok.body, hok.decodes⟩ _ hlen
      (by rw [h0]; rfl) hnr).1 hdone
  · have hi := SInv.run svc reg q hq.ok [] pre hnr more (by rw [List.append_nil]; exact hqb)
    obtain ⟨hnref, hncmd⟩ := requestOf_plain hq
    -- a reply that is no success cannot be the one read
    have one : ∀ m, (srun svc reg sevs).out = [m] → RespUnit m → m = frame false f cn hb ct := by
      intro m hm hu
      rw [hm] at hout
      obtain ⟨more, hmore⟩ := hout
      rw [hs, List.append_assoc] at hmore
      obtain ⟨h1, -⟩ := cut_get [] [m] (frame false f cn hb ct) (rest ++ more) (by simp) (by simpa using hu) hunit
        (by simpa using hmore)
      simpa using h1
    cases hi with
    | reading c hp => rw [hdone] at hp; exact hp.elim
    | calling c hp => rw [hdone] at hp; cases hp
    | done hp hr' hh =>
      rw [ho] at hne one
      rw [hc, hres]
      generalize (srun svc reg pre).calls = cs at *
      generalize (srun svc reg pre).result = res at *
      generalize (srun svc reg pre).out = out at *
      cases hh with
      | heartbeat h => exact absurd h hncmd
      | rejected h => exact absurd h hnref
      | noName h hc' hn =>
        exfalso
        have e := one _ rfl (frame_unit (reply_body [] (by decide)))
        obtain ⟨h1, -⟩ := frame_eq_reply (st := .clientSendError) e hfit hbf hq.ok.fit.requestId (by decide)
        rw [hst] at h1
        cases h1
      | badContext => exact absurd rfl hne
      | notFound => exact absurd rfl hne
      | called h hc' call o hcall =>
        unfold resultReply at hne one
        split at hne
        · next c =>
          split at hne
          · next hlt =>
            have e := one (reply q.f.requestId 0 c) (by simp [hlt]) (frame_unit (reply_body c hlt))
            obtain ⟨-, rfl⟩ := frame_eq_reply (st := .success) e hfit hbf hq.ok.fit.requestId hlt
            refine ⟨call, ct, rfl, rfl, rfl, ?_⟩
            have := sockAskedFor hq hcall
            obtain ⟨i1, ⟨s, m, p0, i2, i3, i4, i5⟩, i6⟩ := this
            exact ⟨i1, ⟨s, m, p0, i2, i3, i4.trans hpre, i5⟩, i6⟩
          · exact absurd rfl hne
        · exact absurd rfl hne

/-- the name is missing in the header only if it is the empty string -/
theorem requestOf_noName {a : CallArgs} {q : AnyFrame} (h : RequestOf a q) :
    (serviceName q.header = none → a.interface = .str []) ∧ (methodName q.header = none → a.method = .str []) := by
  obtain ⟨b, args, p, -, hb, -⟩ := h.built
  obtain ⟨-, h1, h2, h3⟩ := buildHeader_names hb
  rw [mem_strHeader_get?] at h1 h2 h3
  rw [Option.map_eq_some_iff] at h1 h2 h3
  obtain ⟨s1, h1, e1⟩ := h1
  obtain ⟨s3, h3, e3⟩ := h3
  constructor
  · intro hs
    unfold serviceName entry at hs
    rw [h1] at hs
    cases s1 with
    | cons x xs => cases hs
    | nil => exact e1.symm
  · intro hm
    unfold methodName entry at hm
    rw [h3] at hm
    cases s3 with
    | cons x xs => cases hm
    | nil => exact e3.symm

/-- what the caller sees of a method that has ended -/
def Spec.resultSeen : Outcome → SyncRes
  | .ret (.bytes c) => if c.length < 4294967296 then .ended (.ok (.bytes c)) else .waiting
  | _ => .waiting

/-- C109, the other direction. When the socket listener has received the whole request and its handler has ended, then
`invoke_sync` fares accordingly, however the bytes of the response are cut, when as many rounds as there are bytes have
been made: if the method was called, it returns the bytes that the method returned, and goes on waiting if the method
failed or returned something else; if a name in the request is empty, it raises `ServerError`; otherwise the trace
context could not be decoded, or the service or method was not found, and it goes on waiting. -/
theorem C109_ends_accordingly {C : Type} (svc : Services) (reg : Registry) (sevs : List SEv) (a : CallArgs) (t : TimeoutArg)
    (env : Nat → Attempt C) (p : Pkg) (x : Int × C) (ns : List Nat)
    (ht : ∀ o, t ≠ .other o)
    (hp : ({ a with timeout := t.obj, ptype := .request } : CallArgs).request = .ok p)
    (hsent : (rawInvoke { a with timeout := t.obj, ptype := .request } env).1 = .ok x)
    (hin : p.toStream = .ok (sreceived sevs)) (hn : .reset ∉ sevs) (hdone : (srun svc reg sevs).phase = .done)
    (hlen : (srun svc reg sevs).out.flatten.length ≤ ns.length) :
    let seen := invokeSync a t env true (srun svc reg sevs).out.flatten (chunked ns)
    (∃ f o, (srun svc reg sevs).calls = [f] ∧ SockAskedFor svc reg sevs a f ∧ (srun svc reg sevs).result = some o ∧
      seen = resultSeen o) ∨
    ((srun svc reg sevs).calls = [] ∧ (a.interface = .str [] ∨ a.method = .str []) ∧ seen = .ended (.error .serverError)) ∨
    ((srun svc reg sevs).calls = [] ∧ seen = .waiting ∧ ∃ q, RequestOf a q ∧
      ((∃ e h0 fresh, extract h0 fresh q.header = .error e) ∨
       ∃ (s m : PyStr) (pre : List SEv) (h : Heap) (ctx : Baggage) (st : RespStatus), a.interface = .str s ∧
         a.method = .str m ∧ pre <+: sevs ∧
         lookup svc ((sregistrations pre).foldl registerInterface reg) h ctx s m = .refused st)) := by
  obtain ⟨q, h1, -, h3, -⟩ := sync_frame hp hin
  have hq : RequestOf a q := ⟨h1.ok, h1.id, h1.content, h1.cls, h1.cmd, h1.built⟩
  have hi := SInv.run svc reg q hq.ok [] sevs hn [] (by rw [List.append_nil, List.append_nil, h3])
  obtain ⟨hnref, hncmd⟩ := requestOf_plain hq
  have hidok : IdOk a.id := by rw [← hq.id]; exact hq.ok.fit.requestId
  have hxid := rawInvoke_id hsent
  simp only at hxid
  have hinv : ∀ w r, (recvRun a.id w (chunked ns)).out = r →
      invokeSync a t env true w (chunked ns) = (match r with | none => .waiting | some r => .ended r) := by
    intro w r hr
    obtain ⟨i, c⟩ := x
    dsimp only at hxid
    subst hxid
    unfold invokeSync
    cases t with
    | other o => exact absurd rfl (ht o)
    | int _ | float _ =>
      dsimp only
      rw [hsent]
      dsimp only
      rw [hr]
      cases r <;> rfl
  have none' : invokeSync a t env true ([] : List Bytes).flatten (chunked ns) = .waiting :=
    hinv [] none ((C49_segmentation a.id [] ns ns).1 rfl)
  have one : ∀ (st : RespStatus) (c : Bytes), c.length < 4294967296 → [reply a.id st.code c].flatten.length ≤ ns.length →
      invokeSync a t env true [reply a.id st.code c].flatten (chunked ns) =
        .ended (if st = .success then .ok (.bytes c) else .error .serverError) := by
    intro st c hc hl
    have e : [reply a.id st.code c].flatten = reply a.id st.code c := by simp
    rw [e] at hl ⊢
    have hu : RespUnit (reply a.id st.code c) := frame_unit (reply_body c hc)
    have ho := responseOutcome_reply a.id st c hidok hc
    refine hinv _ (some _) ?_
    rw [(C49_segmentation a.id _ ns ns).2.2.1 (by rw [ho]; simp) (by rw [← hu.2]; exact hl), ho]
  dsimp only
  cases hi with
  | reading c hp => rw [hdone] at hp; exact hp.elim
  | calling c hp => rw [hdone] at hp; cases hp
  | done hp' hr' hh =>
    generalize (srun svc reg sevs).calls = cs at *
    generalize (srun svc reg sevs).result = res at *
    generalize (srun svc reg sevs).out = out at *
    cases hh with
    | heartbeat h => exact absurd h hncmd
    | rejected h => exact absurd h hnref
    | noName h hc' hnn =>
      right; left
      refine ⟨rfl, ?_, ?_⟩
      · rcases hnn with e | e
        · exact .inl ((requestOf_noName hq).1 e)
        · exact .inr ((requestOf_noName hq).2 e)
      · rw [hq.id] at hlen ⊢
        exact one .clientSendError [] (by decide) hlen
    | badContext h hc' e h0 fresh he => exact .inr (.inr ⟨rfl, none', q, hq, .inl ⟨e, h0, fresh, he⟩⟩)
    | notFound h hc' s m pre h0 h1 fresh ctx st hs hm hpre he hl =>
      exact .inr (.inr ⟨rfl, none', q, hq, .inr ⟨s, m, pre, h1, ctx, st, hq.names.1 s hs, hq.names.2 m hm, hpre, hl⟩⟩)
    | called h hc' call o hcall =>
      left
      refine ⟨call, o, rfl, sockAskedFor hq hcall, rfl, ?_⟩
      by_cases hb : ∃ c, o = .ret (.bytes c)
      · obtain ⟨c, rfl⟩ := hb
        simp only [resultReply, resultSeen] at hlen ⊢
        rw [hq.id] at hlen ⊢
        by_cases hlt : c.length < 4294967296
        · rw [if_pos hlt] at hlen ⊢
          rw [if_pos hlt]
          exact one .success c hlt hlen
        · rw [if_neg hlt, if_neg hlt]
          exact none'
      · have e1 : resultReply q.f.requestId o = [] := by
          unfold resultReply
          split
          · next c => exact absurd ⟨c, rfl⟩ hb
          · rfl
        have e2 : resultSeen o = .waiting := by
          unfold resultSeen
          split
          · next c => exact absurd ⟨c, rfl⟩ hb
          · rfl
        rw [e1, e2]
        exact none'

set_option maxRecDepth 40000 in
/-- The request arrives in two pieces, the method returns no bytes at all, the response is read in pieces of three bytes;
with a method that fails the caller goes on waiting. -/
example :
    let env : Nat → Attempt Nat := fun i => ⟨.ok i, .ok 1000⟩
    let sevs (o : Outcome) : List SEv := [.data (exCallBytes.take 50), .handler [], .data (exCallBytes.drop 50), .handler [],
      .handler [], .handler [], .handler (py "t"), .finish o]
    (((rawInvoke exCall env).2.wire.map Prod.snd).flatten = exCallBytes ∧ sreceived (sevs (.ret (.bytes []))) = exCallBytes) ∧
    (srun exServices exReg (sevs (.ret (.bytes [])))).phase = .done ∧
    invokeSync exCall (.int 1000) env true (srun exServices exReg (sevs (.ret (.bytes [])))).out.flatten
      (chunked (List.replicate 40 2)) = .ended (.ok (.bytes [])) ∧
    invokeSync exCall (.int 1000) env true (srun exServices exReg (sevs (.raised .typeError))).out.flatten
      (chunked (List.replicate 40 2)) = .waiting := by
  decide +kernel

end Bolt
