import Verif.Props.ListenerCalls
import Verif.Props.Tracer
import Verif.Lemmas.AioRecvd
/-!
# A client and the asyncio listener together: what joins their schedules

A client and a listener run beside each other, each with its own schedule; what joins them is that the listener has
received some beginning of what the client wrote on the connection, and the client has received some beginning of what
the listener wrote.
-/
namespace Bolt
open Spec

/-! ### requests as frames -/

/-- Frame `q` is the request of a call with arguments `a`. -/
structure Spec.RequestOf (a : CallArgs) (q : AnyFrame) : Prop where
  ok : q.Ok
  id : q.f.requestId = a.id
  content : a.content = .bytes q.content
  cls : q.cls = reqClass
  cmd : q.f.cmdcode = 1
  built : ∃ b args p, a.ctx = some b ∧
    buildHeader a.heap b a.interface a.method a.targetApp a.uid a.extra = .ok (strHeader q.header) ∧
    mkPkg .boltRequest (strHeader q.header) a.content args = .ok p ∧ p.toStream = .ok q.bytes

/-- Frame `q` is what the package `p` is sent as. -/
structure Spec.FrameOf (p : Pkg) (q : AnyFrame) : Prop where
  ok : q.Ok
  bytes : p.toStream = .ok q.bytes
  header : strHeader q.header = p.header
  content : p.content = .bytes q.content
  id : p.requestId = .int q.f.requestId
  cls : q.cls = p.cls.className
  cmd : q.f.cmdcode = p.cmdcode.code
  ptype : q.f.ptype = p.ptype.code
  timeout : p.timeout = .int q.f.seventh

/-- a request package that encodes is a frame the listener can read -/
theorem request_frame {p : Pkg} {bs : Bytes} (hreq : p.cls.isRequest = true) (hn : PyDict.NodupKeys p.header)
    (hh : headerToBytes p.header = .ok p.headerBytes) (hs : p.toStream = .ok bs) :
    ∃ q : AnyFrame, FrameOf p q ∧ q.bytes = bs := by
  have hs0 := hs
  rw [toStream_ok_iff, hreq] at hs
  obtain ⟨id, c, t, h1, h2, h3, h4, h5, rfl⟩ := hs
  obtain ⟨d, hd, hd2⟩ := headerFromBytes_toBytes hn hh
  refine ⟨⟨p.fields id t, p.cls.className, p.headerBytes, d, c⟩, ⟨⟨h4, h5, hd⟩, hs0, hd2, h2, h1, rfl, rfl, rfl, ?_⟩, rfl⟩
  simp only [Pkg.seventh, hreq, if_true] at h3
  exact h3

theorem newRequest_requestOf {a : CallArgs} {b : Baggage} {hd : SofaHeader} {pt : PType} {t : PyObj} {p : Pkg}
    {q : AnyFrame} (hc : a.ctx = some b) (hb : buildHeader a.heap b a.interface a.method a.targetApp a.uid a.extra = .ok hd)
    (hp : newRequest hd a.content pt t a.id = .ok p) (hq : FrameOf p q) : RequestOf a q := by
  have hp' := hp
  unfold newRequest at hp'
  rw [mkPkg_ok_iff] at hp'
  obtain ⟨e1, e2, e3, e4, -, e6, e7, -, e9, -⟩ := hp'
  have h3 := hq.header
  rw [e2] at h3
  subst h3
  refine ⟨hq.ok, ?_, by rw [← e4, hq.content], by rw [hq.cls, e1]; rfl, ?_, b, _, p, hc, hb, hp, hq.bytes⟩
  · have h5 := hq.id
    rw [e9] at h5
    injection h5 with h5
    exact h5.symm
  · rw [hq.cmd]
    injection e7 with e7
    exact e7.symm

theorem newRequest_frame {a : CallArgs} {b : Baggage} {hd : SofaHeader} {pt : PType} {t : PyObj} {p : Pkg} {bs : Bytes}
    (hb : buildHeader a.heap b a.interface a.method a.targetApp a.uid a.extra = .ok hd)
    (hp : newRequest hd a.content pt t a.id = .ok p) (hs : p.toStream = .ok bs) :
    ∃ q : AnyFrame, FrameOf p q ∧ q.bytes = bs := by
  have hp' := hp
  unfold newRequest at hp'
  rw [mkPkg_ok_iff] at hp'
  obtain ⟨e1, e2, e3, -⟩ := hp'
  exact request_frame (by rw [e1]; rfl) (by rw [e2]; exact (buildHeader_names hb).1) (by rw [e2]; exact e3) hs

theorem Spec.RequestOf.names {a : CallArgs} {q : AnyFrame} (h : RequestOf a q) :
    (∀ s, serviceName q.header = some s → a.interface = .str s) ∧
    (∀ m, methodName q.header = some m → a.method = .str m) := by
  obtain ⟨b, args, p, -, hb, -⟩ := h.built
  obtain ⟨-, h1, h2, h3⟩ := buildHeader_names hb
  rw [mem_strHeader_get?] at h1 h2 h3
  rw [Option.map_eq_some_iff] at h1 h2 h3
  obtain ⟨s1, h1, e1⟩ := h1
  obtain ⟨s2, h2, e2⟩ := h2
  obtain ⟨s3, h3, e3⟩ := h3
  constructor
  · intro s hs
    unfold serviceName entry at hs
    rw [h1, h2] at hs
    cases s1 with
    | cons x xs => cases hs; exact e1.symm
    | nil =>
      cases s2 with
      | cons x xs => cases hs; exact e2.symm
      | nil => cases hs
  · intro m hm
    unfold methodName entry at hm
    rw [h3] at hm
    cases s3 with
    | cons x xs => cases hm; exact e3.symm
    | nil => cases hm

theorem Spec.RequestOf.verdict {a : CallArgs} {q : AnyFrame} (h : RequestOf a q) :
    q.verdict = .dispatch ⟨q.f.ptype, q.f.requestId, q.header, q.content, q.f.seventh⟩ := by
  unfold AnyFrame.verdict
  rw [if_neg (by rw [h.cmd]; decide), if_neg]
  rintro ⟨-, e | e⟩
  · rw [h.cmd] at e; cases e
  · exact e h.cls

/-! ### what a call on the listener has to do with a call of the client -/

/-- The call `f` submitted by the listener is the one that the client's arguments `a` ask for: its argument is the body,
its method is the named method of the object made by the last registration for the named interface, and its context
carries the baggage of the caller (provided that has no item named like an attribute of RpcTraceContext, see C20, and the
call adds no trace headers of its own; keyword arguments have different names). -/
structure Spec.AskedFor (svc : Services) (reg : Registry) (levs : List LEv) (a : CallArgs) (f : Fut) : Prop where
  body : a.content = .bytes f.body
  target : ∃ (s m : PyStr) (pre post : List LEv) (j : Nat) (fresh : PyStr), a.interface = .str s ∧ a.method = .str m ∧
    levs = pre ++ .run j fresh :: post ∧
    (match lastFor (registrations pre) s with
     | some x => serve svc x f.heap f.ctx m
     | none => lookup svc reg f.heap f.ctx s m) = .found f.func
  context : ∀ (ops : List TOp) (b : Baggage), a.ctx = some b → a.heap = (trun ops).heap → b ∈ (trun ops).ctxs →
    Benign b → PyDict.NodupKeys a.extra → (∀ k, PyDict.get? a.extra (py "rpc_trace_context." ++ k) = none) →
    ∀ k, (PyDict.get? f.ctx k).map (BagVal.toStr f.heap) = (PyDict.get? b k).map (BagVal.toStr a.heap)

theorem strHeader_inj {d e : PyDict PyStr PyStr} (h : strHeader d = strHeader e) : d = e := by
  unfold strHeader at h
  refine List.map_inj_right (f := fun kv : PyStr × PyStr => (kv.1, PyObj.str kv.2)) ?_ |>.1 h
  intro x y hxy
  simp only [Prod.mk.injEq, PyObj.str.injEq] at hxy
  exact Prod.ext hxy.1 hxy.2

theorem askedFor_of_task {svc : Services} {reg : Registry} {levs : List LEv} {a : CallArgs} {q : AnyFrame}
    (hq : RequestOf a q) {j k : Nat} {t : Task} {f : Fut} (ht : (lrun svc reg levs).tasks[j]? = some t)
    (hk : t.kind = .dispatch ⟨q.f.ptype, q.f.requestId, q.header, q.content, q.f.seventh⟩) (hf : t.fut = some k)
    (hff : (lrun svc reg levs).futs[k]? = some f) : AskedFor svc reg levs a f := by
  have htk := (LInv.run svc reg levs).task j t ht
  unfold TaskOk at htk
  rw [hk] at htk
  obtain ⟨f', s', m', g', h0, fresh', e1, e2, -, -, e5, -⟩ := htk.2.2 k hf
  rw [hff] at e1
  cases e1
  obtain ⟨f', s, m, pre, post, fresh, e1, h1, h2, h3, h4⟩ := C79_serving svc reg levs j t _ k ht hk hf
  rw [hff] at e1
  cases e1
  refine ⟨by rw [e2]; exact hq.content, ⟨s, m, pre, post, j, fresh, hq.names.1 s h1, hq.names.2 m h2, h3, h4⟩, ?_⟩
  intro ops b hb hheap hmem hben hnx hex key
  obtain ⟨b', args, p, hc, hbh, hmk, hts⟩ := hq.built
  rw [hb] at hc
  cases hc
  rw [hheap] at hbh
  obtain ⟨p', d, h', b', g1, g2, g3, g4⟩ := C20_context_survives_call_partial ops b hmem hben a.interface a.method
    a.targetApp a.uid a.extra hnx hex _ hbh a.content args p q.bytes hmk hts h0 fresh'
  have hd : d = q.header := by
    obtain ⟨p'', i1, i2, -⟩ := C01_request_roundtrip .boltRequest rfl _ (buildHeader_names hbh).1 _ _ p q.bytes hmk hts
    rw [i1] at g1
    cases g1
    exact strHeader_inj (g2.symm.trans i2)
  subst hd
  rw [show (⟨q.f.ptype, q.f.requestId, q.header, q.content, q.f.seventh⟩ : Req).header = q.header from rfl, g3] at e5
  cases e5
  rw [hheap]
  exact g4 key

/-! ### cutting a stream -/

/-- a stream that begins like a sequence of messages is cut at the same places -/
theorem cut_get (us : List Bytes) : ∀ (ms : List Bytes) (fr rest : Bytes), (∀ u ∈ us, RespUnit u) →
    (∀ m ∈ ms, RespUnit m) → RespUnit fr → us.flatten ++ fr ++ rest = ms.flatten → ms[us.length]? = some fr ∧ us = ms.take us.length := by
  have one : ∀ (u m x y : Bytes), RespUnit u → RespUnit m → u ++ x = m ++ y → u = m ∧ x = y := by
    intro u m x y hu hm e
    have h1 := respUnit_prefix u x hu.1
    have h2 := respUnit_prefix m y hm.1
    rw [e, h2, ← hm.2, ← hu.2] at h1
    exact List.append_inj e h1.symm
  induction us with
  | nil =>
    intro ms fr rest _ hm hf e
    cases ms with
    | nil =>
      have := congrArg List.length e
      have := hf.1
      simp only [List.length_append, List.flatten_nil, List.length_nil] at *
      omega
    | cons m ms =>
      obtain ⟨rfl, -⟩ := one fr m rest ms.flatten hf (hm m (by simp)) (by simpa using e)
      exact ⟨rfl, rfl⟩
  | cons u us ih =>
    intro ms fr rest hu hm hf e
    cases ms with
    | nil =>
      have := congrArg List.length e
      have := hf.1
      simp only [List.length_append, List.flatten_nil, List.length_nil] at *
      omega
    | cons m ms =>
      obtain ⟨rfl, e2⟩ := one u m (us.flatten ++ fr ++ rest) ms.flatten (hu u (by simp)) (hm m (by simp)) (by simpa using e)
      obtain ⟨i1, i2⟩ := ih ms fr rest (fun x hx => hu x (by simp [hx])) (fun x hx => hm x (by simp [hx])) hf e2
      exact ⟨by simpa using i1, by simpa using i2⟩

theorem frame_unit {f : Fields} {cn hb ct : Bytes} (h : BodyFit cn hb ct) : RespUnit (frame false f cn hb ct) := by
  refine ⟨?_, ?_⟩
  · rw [frame_length]; simp; omega
  · have := declaredLength_frame false f cn hb ct h []
    rw [List.append_nil] at this
    exact this.symm

/-- the messages of the listener are units -/
theorem out_units (svc : Services) (reg : Registry) (levs : List LEv) :
    ∀ m ∈ (lrun svc reg levs).out.map Prod.snd, RespUnit m := by
  intro m hm
  obtain ⟨p, hp⟩ := (C77_no_interleaving svc reg levs).2 m hm
  rw [fromStream_ok_iff] at hp
  obtain ⟨f, cn, hb, ct, d, rfl, -, h, -⟩ := hp
  exact frame_unit h

/-- A client that has cut the beginning of the listener's output into units and a frame has found a message of the
listener. -/
theorem found_message {svc : Services} {reg : Registry} {levs : List LEv} {stream : Bytes} {us : List Bytes}
    {f : Fields} {cn hb ct rest : Bytes} (hp : stream <+: (lrun svc reg levs).wire) (hu : ∀ u ∈ us, RespUnit u)
    (hs : stream = us.flatten ++ frame false f cn hb ct ++ rest) (hb' : BodyFit cn hb ct) :
    ∃ o, (lrun svc reg levs).out[us.length]? = some (o, frame false f cn hb ct) := by
  obtain ⟨more, hm⟩ := hp
  unfold LSt.wire at hm
  rw [hs, List.append_assoc] at hm
  obtain ⟨h1, -⟩ := cut_get us _ _ _ hu (out_units svc reg levs) (frame_unit hb') hm
  rw [List.getElem?_map, Option.map_eq_some_iff] at h1
  obtain ⟨⟨o, m⟩, h1, h2⟩ := h1
  exact ⟨o, by rw [h1]; exact congrArg some (Prod.ext rfl h2)⟩

/-- A successful response written by the listener comes from a task that has called something. -/
theorem success_task {svc : Services} {reg : Registry} {levs : List LEv} {o : Origin} {f : Fields} {cn hb ct : Bytes}
    (hm : (o, frame false f cn hb ct) ∈ (lrun svc reg levs).out) (hb' : BodyFit cn hb ct) (hf' : Fields.Fit false f)
    (hs : f.seventh = 0) (hc : f.cmdcode = 2 ∨ ∀ a ∈ (lrun svc reg levs).acts, ∀ id, a ≠ .heartbeat id) :
    ∃ (j : Nat) (t : Task) (r : Req) (k : Nat) (fu : Fut), o = .task j ∧
      (lrun svc reg levs).tasks[j]? = some t ∧ t.kind = .dispatch r ∧ r.id = f.requestId ∧ t.fut = some k ∧
      (lrun svc reg levs).futs[k]? = some fu ∧ fu.st = .finished (.ret (.bytes ct)) := by
  obtain ⟨p, hp⟩ := (C77_no_interleaving svc reg levs).2 _ (List.mem_map.2 ⟨_, hm, rfl⟩)
  have hp0 := hp
  rw [fromStream_ok_iff] at hp
  obtain ⟨f', cn', hb1, ct', d, e, hf, hbf, -, hd⟩ := hp
  obtain ⟨rfl, rfl, rfl, rfl⟩ := frame_inj e hf' hf hb' hbf
  have hsucc : p.respstatus = .success := by
    have := hd.respstatus
    simp only [PkgClass.isRequest, Bool.false_eq_true, if_false] at this
    rw [hs] at this
    revert this
    cases p.respstatus <;> decide
  have hcmd : p.cmdcode = .response := by
    rcases hc with hc | hc
    · have := hd.cmdcode
      rw [hc] at this
      revert this
      cases p.cmdcode <;> decide
    · obtain ⟨a, ha, id, hid, hok, hans⟩ := out_answers (LInv.run svc reg levs) hm
      have dec : ∀ (id : Int) (st : RespStatus) (c : Bytes), IdOk id → c.length < 4294967296 →
          frame false f cn hb ct = reply id st.code c → p.cmdcode = .response := by
        intro id st c hid hc e
        obtain ⟨p', h1, -, -, -, h5, -⟩ := reply_decodes id st c hid hc
        rw [← e, hp0] at h1
        cases h1
        exact h5
      have n : ([] : Bytes).length < 4294967296 := by decide
      have h := LInv.run svc reg levs
      cases o with
      | task j =>
        obtain ⟨t, ht, -, hr⟩ := h.outTask j _ hm
        obtain ⟨a', ha', hk, hid'⟩ := task_act h ht
        unfold taskReply at hr
        cases hkind : t.kind with
        | heartbeat i =>
          rw [hkind] at hk
          cases a' with
          | heartbeat i' => exact absurd rfl (hc _ ha' i')
          | _ => cases hk
        | dispatch r =>
          rw [hkind] at hr hid'
          cases hf : t.fate with
          | none => rw [hf] at hr; cases hr
          | some fa =>
            rw [hf] at hr
            obtain ⟨st, c, h1, h2⟩ := owed_answers (show owed r.id fa = some _ from hr)
            exact dec r.id st c (h.actsOk a' ha' _ hid') h1 h2
      | reader i =>
        obtain ⟨a', ha', hr, -⟩ := h.outReader i _ hm
        have ham := List.mem_of_getElem? ha'
        cases a' with
        | reject i st => injection hr with hr; exact dec i st [] (h.actsOk _ ham _ rfl) n hr.symm
        | close i st =>
          cases i with
          | none => cases hr
          | some i => injection hr with hr; exact dec i st [] (h.actsOk _ ham _ rfl) n hr.symm
        | _ => cases hr
  obtain ⟨j, t, r, k, fu, c, h1, h2, h3, h4, h5, h6, h7, h8, -⟩ := C75_own_result svc reg levs o _ p hm hp0 hsucc hcmd
  refine ⟨j, t, r, k, fu, h1, h2, h3, ?_, h5, h6, ?_⟩
  · exact (PyObj.int.inj (hd.requestId.symm.trans h4)).symm
  · rw [h7, PyObj.bytes.inj (hd.content.symm.trans h8)]

end Bolt
