import Verif.Props.Wire
import Verif.Spec.Listener
/-!
# Lemmas about the reader coroutine and the messages of the listener
-/
namespace Bolt
open Spec

/-! ### the fixed header -/

theorem take_fixedPart (f : Fields) (cl hl nl : Nat) (n : Nat) (h : n = 22) :
    (fixedPart true f cl hl nl).take n = fixedPart true f cl hl nl := by
  apply List.take_of_length_le
  rw [fixedPart_length]; simp [h]

theorem boltRequest_headerSize : PkgClass.boltRequest.headerSize = 22 := rfl

theorem reqHdr_hdrOf (bs : Bytes) (f : Fields) (cl hl nl : Nat)
    (h : boltHeaderFromStream .boltRequest bs = .ok (hdrOf .boltRequest f cl hl nl)) :
    reqHdr bs = .ok ⟨f.ptype, f.cmdcode, f.requestId, f.seventh, cl, hl, nl⟩ := by
  unfold reqHdr
  rw [h]
  rfl

theorem reqHdr_fixed (f : Fields) (cl hl nl : Nat) (hf : Fields.Fit true f) (h8 : cl < 65536) (h9 : hl < 65536)
    (h10 : nl < 4294967296) :
    reqHdr (fixedPart true f cl hl nl) = .ok ⟨f.ptype, f.cmdcode, f.requestId, f.seventh, cl, hl, nl⟩ := by
  apply reqHdr_hdrOf
  rw [boltHeaderFromStream_ok_iff]
  exact ⟨f, cl, hl, nl, rfl, hf, h8, h9, h10, take_fixedPart f cl hl nl _ rfl⟩

/-- every 22 bytes are a fixed header -/
theorem reqHdr_total (bs : Bytes) (h : bs.length = 22) :
    ∃ f cl hl nl, Fields.Fit true f ∧ cl < 65536 ∧ hl < 65536 ∧ nl < 4294967296 ∧
      bs = fixedPart true f cl hl nl ∧
      reqHdr bs = .ok ⟨f.ptype, f.cmdcode, f.requestId, f.seventh, (cl : Nat), (hl : Nat), (nl : Nat)⟩ := by
  obtain ⟨hd, hh⟩ := boltHeaderFromStream_total .boltRequest bs (by rw [boltRequest_headerSize]; omega)
  obtain ⟨f, cl, hl, nl, rfl, hf, h8, h9, h10, e⟩ := (boltHeaderFromStream_ok_iff _ _ _).1 hh
  rw [boltRequest_headerSize, List.take_of_length_le (by omega)] at e
  exact ⟨f, cl, hl, nl, hf, h8, h9, h10, e, reqHdr_hdrOf bs f cl hl nl hh⟩

/-! ### the messages -/

theorem failResponse_eq (id : PyObj) (s : RespStatus) : failResponseTo id s = .ok
    { cls := .failResponse, header := [], headerBytes := [], content := .bytes [], proto := .bolt,
      ptype := .response, cmdcode := .response, ver2 := .remoting, requestId := id, codec := .protobuf,
      timeout := .int 0, respstatus := s } := by
  unfold failResponseTo
  rw [mkPkg_ok_iff]
  exact ⟨rfl, rfl, rfl, rfl, rfl, rfl, rfl, rfl, rfl, rfl, rfl, rfl⟩

theorem boltResponse_eq (v id : PyObj) : boltResponseTo v id = .ok
    { cls := .boltResponse, header := [], headerBytes := [], content := v, proto := .bolt,
      ptype := .response, cmdcode := .response, ver2 := .remoting, requestId := id, codec := .protobuf,
      timeout := .int 0, respstatus := .success } := by
  unfold boltResponseTo
  rw [mkPkg_ok_iff]
  exact ⟨rfl, rfl, rfl, rfl, rfl, rfl, rfl, rfl, rfl, rfl, rfl, rfl⟩

theorem respClass_length : respClass.length < 65536 := by decide

theorem failMsg_ok (id : Int) (h : IdOk id) (s : RespStatus) : failMsg id s = .ok (reply id s.code []) := by
  unfold failMsg
  rw [failResponse_eq]
  simp only [bind, Except.bind]
  rw [toStream_ok_iff]
  refine ⟨id, [], s.code, rfl, rfl, rfl, fit_of_ranges _ id _ h ?_, ⟨respClass_length, by simp, by simp⟩, rfl⟩
  cases s <;> simp [PkgClass.isRequest, RespStatus.code]

theorem heartbeatMsg_ok (id : Int) (h : IdOk id) : heartbeatMsg id = .ok (heartbeatAck id) := by
  unfold heartbeatMsg
  rw [heartbeatResponse_eq]
  simp only [bind, Except.bind]
  rw [toStream_ok_iff]
  refine ⟨id, [], 0, rfl, rfl, rfl, fit_of_ranges _ id _ h ?_, bodyFit_nil, rfl⟩
  simp [PkgClass.isRequest]

theorem resultMsg_bytes (id : Int) (h : IdOk id) (c : Bytes) :
    resultMsg (.bytes c) id = if c.length < 4294967296 then .ok (reply id 0 c) else .error .encodeError := by
  unfold resultMsg
  rw [boltResponse_eq]
  simp only [bind, Except.bind]
  split
  · next hc =>
    rw [toStream_ok_iff]
    refine ⟨id, c, 0, rfl, rfl, rfl, fit_of_ranges _ id _ h ?_, ⟨respClass_length, by simp, hc⟩, rfl⟩
    simp [PkgClass.isRequest]
  · next hc =>
    generalize hr : Pkg.toStream _ = r
    cases r with
    | ok bs =>
      obtain ⟨_, c', _, -, e, -, -, hb, -⟩ := (toStream_ok_iff _ _).1 hr
      cases e
      exact absurd hb.2.2 hc
    | error e =>
      unfold Pkg.toStream Pkg.validate at hr
      simp only [bind, Except.bind] at hr
      split at hr
      · cases hr
      · exact hr.symm

theorem resultMsg_other (id : Int) (v : PyObj) (hv : ∀ c, v ≠ .bytes c) : resultMsg v id = .error .paramTypeError := by
  unfold resultMsg
  rw [boltResponse_eq]
  simp only [bind, Except.bind]
  unfold Pkg.toStream Pkg.validate
  cases v <;> first | rfl | exact absurd rfl (hv _)

/-! ### one step of the reader -/

/-- more bytes do not change what the reader does with the ones it has -/
theorem readerIter_append {r r' : ReadSt} {b b' : Bytes} {a : Option Act} {e : Bool}
    (h : readerIter r b false = some (r', b', a)) (x : Bytes) : readerIter r (b ++ x) e = some (r', b' ++ x, a) := by
  have key : ∀ n, n ≤ b.length → n ≤ (b ++ x).length ∧ (b ++ x).take n = b.take n ∧ (b ++ x).drop n = b.drop n ++ x := by
    intro n hn
    refine ⟨by simp; omega, List.take_append_of_le_length hn, List.drop_append_of_le_length hn⟩
  unfold readerIter at h ⊢
  split at h
  all_goals try (next hp => cases h)
  all_goals
    rename_i hp
    rw [hp] at *
    dsimp only at h ⊢
    split at h
    · next hn =>
      obtain ⟨k1, k2, k3⟩ := key _ hn
      rw [if_pos k1, k2, k3]
      revert h
      first
        | (intro h; split at h <;> cases h <;> simp_all)
        | (intro h; cases h; rfl)
    · cases h

theorem readerIter_eof {r : ReadSt} {b : Bytes} {x} (h : readerIter r b false = some x) :
    readerIter r b true = some x := by
  obtain ⟨r', b', a⟩ := x
  have := readerIter_append (e := true) h []
  simpa using this

theorem readerIter_eof_none {r : ReadSt} {b : Bytes} (h : readerIter r b false = none) (hp : r.phase ≠ .stopped) :
    readerIter r b true = some (⟨.stopped, r.last⟩, b, some (.close r.last .connectionClosed)) := by
  unfold readerIter at h ⊢
  split at h
  all_goals try (next hh => exact absurd hh hp)
  all_goals
    dsimp only at h ⊢
    split at h
    · first | (split at h <;> cases h) | cases h
    · next hn => rw [if_neg hn, if_pos rfl]

theorem readerIter_stopped {r : ReadSt} (hp : r.phase = .stopped) (b : Bytes) (e : Bool) : readerIter r b e = none := by
  unfold readerIter; rw [hp]

/-! ### runs of the reader -/

/-- any number of steps of the reader on a buffer, before the end of the stream -/
inductive RSteps : ReadSt → Bytes → List Act → ReadSt → Bytes → Prop
  | refl (r : ReadSt) (b : Bytes) : RSteps r b [] r b
  | step {r r' r'' : ReadSt} {b b' b'' : Bytes} {a : Option Act} {l : List Act}
      (h : readerIter r b false = some (r', b', a)) (t : RSteps r' b' l r'' b'') : RSteps r b (a.toList ++ l) r'' b''

theorem RSteps.append {r r' : ReadSt} {b b' : Bytes} {l : List Act} (h : RSteps r b l r' b') (x : Bytes) :
    RSteps r (b ++ x) l r' (b' ++ x) := by
  induction h with
  | refl r b => exact .refl _ _
  | step h t ih => exact .step (readerIter_append h x) ih

theorem RSteps.trans {r r' r'' : ReadSt} {b b' b'' : Bytes} {l l' : List Act} (h : RSteps r b l r' b')
    (h' : RSteps r' b' l' r'' b'') : RSteps r b (l ++ l') r'' b'' := by
  induction h with
  | refl r b => exact h'
  | step h t ih => rw [List.append_assoc]; exact .step h (ih h')

theorem RSteps.one {r r' : ReadSt} {b b' : Bytes} {a : Option Act} (h : readerIter r b false = some (r', b', a)) :
    RSteps r b a.toList r' b' := by
  have := RSteps.step h (.refl _ _)
  simpa using this

/-- two runs from the same point: one goes on where the other stops -/
theorem RSteps.confluent {r r1 r2 : ReadSt} {b b1 b2 : Bytes} {l1 l2 : List Act} (h1 : RSteps r b l1 r1 b1)
    (h2 : RSteps r b l2 r2 b2) :
    (∃ l, RSteps r1 b1 l r2 b2 ∧ l2 = l1 ++ l) ∨ (∃ l, RSteps r2 b2 l r1 b1 ∧ l1 = l2 ++ l) := by
  induction h1 generalizing l2 with
  | refl r b => exact .inl ⟨l2, h2, rfl⟩
  | step h t ih =>
    cases h2 with
    | refl => exact .inr ⟨_, .step h t, rfl⟩
    | step h' t' =>
      rw [h] at h'
      cases h'
      rcases ih t' with ⟨l, hl, e⟩ | ⟨l, hl, e⟩
      · exact .inl ⟨l, hl, by rw [e, List.append_assoc]⟩
      · exact .inr ⟨l, hl, by rw [e, List.append_assoc]⟩

theorem RSteps.stuck {r r' : ReadSt} {b b' : Bytes} {l : List Act} (h : RSteps r b l r' b')
    (hn : readerIter r b false = none) : l = [] ∧ r' = r ∧ b' = b := by
  cases h with
  | refl => exact ⟨rfl, rfl, rfl⟩
  | step h t => rw [hn] at h; cases h

/-! ### the ids the reader handles fit their field -/

/-- the id of the frame being read is the one in `header`, and fits -/
def RPhase.hdr? : RPhase → Option ReqHdr
  | .cls h | .shdr h _ | .body h _ _ => some h
  | _ => none

structure ReadSt.Ok (r : ReadSt) : Prop where
  cur : ∀ h, r.phase.hdr? = some h → r.last = some h.requestId
  last : ∀ i, r.last = some i → IdOk i

theorem onError_id (e : PyExc) (last : Option Int) (i : Int) (h : actId (onError e last) = some i) : last = some i := by
  unfold onError at h
  split at h
  · split at h
    · simpa [actId] using h
    · cases h
  · split at h
    · split at h
      · simpa [actId] using h
      · cases h
    · simpa [actId] using h

theorem onError_next (e : PyExc) (last : Option Int) : (onError e last).next.hdr? = none := by
  unfold onError
  split
  · split <;> rfl
  · split
    · split <;> rfl
    · rfl

theorem handleFrame_id (h : ReqHdr) (cn : Bytes) (d : PyDict PyStr PyStr) (b : Bytes) (i : Int)
    (hi : actId (handleFrame h cn d b) = some i) : i = h.requestId := by
  unfold handleFrame at hi
  split at hi
  · simpa [actId] using hi.symm
  · split at hi
    · have := onError_id _ _ _ hi; simpa using this.symm
    · split at hi
      · have := onError_id _ _ _ hi; simpa using this.symm
      · simpa [actId] using hi.symm

theorem handleFrame_next (h : ReqHdr) (cn : Bytes) (d : PyDict PyStr PyStr) (b : Bytes) :
    (handleFrame h cn d b).next.hdr? = none := by
  unfold handleFrame
  split
  · rfl
  · split
    · exact onError_next _ _
    · split
      · exact onError_next _ _
      · rfl

theorem readerIter_ok {r r' : ReadSt} {b b' : Bytes} {a : Option Act} {e : Bool} (hr : r.Ok)
    (h : readerIter r b e = some (r', b', a)) :
    r'.Ok ∧ (∀ x i, a = some x → actId x = some i → r'.last = some i) ∧ (∀ x, a = some x → r'.last = r.last) := by
  unfold readerIter at h
  split at h
  · -- hdr
    next hp =>
    dsimp only at h
    split at h
    · next hn =>
      have hl : (b.take PkgClass.boltRequest.headerSize).length = 22 := by
        rw [List.length_take]; rw [boltRequest_headerSize] at *; omega
      obtain ⟨f, cl, hl', nl, hf, -, -, -, -, he⟩ := reqHdr_total _ hl
      rw [he] at h
      cases h
      refine ⟨⟨?_, ?_⟩, ?_, ?_⟩
      · intro h hh; cases hh; rfl
      · intro i hi; cases hi; exact hf.requestId
      · intro x i hx; cases hx
      · intro x hx; cases hx
    · split at h
      · cases h
        refine ⟨⟨?_, hr.last⟩, ?_, ?_⟩
        · intro h hh; cases hh
        · intro x i hx hi; cases hx; exact hi
        · intro x hx; rfl
      · cases h
  · -- cls
    next hd hp =>
    dsimp only at h
    split at h
    · cases h
      refine ⟨⟨?_, hr.last⟩, ?_, ?_⟩
      · intro h hh; cases hh; exact hr.cur hd (by rw [hp]; rfl)
      · intro x i hx; cases hx
      · intro x hx; cases hx
    · split at h
      · cases h
        refine ⟨⟨?_, hr.last⟩, ?_, ?_⟩
        · intro h hh; cases hh
        · intro x i hx hi; cases hx; exact hi
        · intro x hx; rfl
      · cases h
  · -- shdr
    next hd cn hp =>
    dsimp only at h
    split at h
    · split at h
      · cases h
        refine ⟨⟨?_, hr.last⟩, ?_, ?_⟩
        · intro h hh; rw [onError_next] at hh; cases hh
        · intro x i hx hi; cases hx; exact onError_id _ _ _ hi
        · intro x hx; rfl
      · cases h
        refine ⟨⟨?_, hr.last⟩, ?_, ?_⟩
        · intro h hh; cases hh; exact hr.cur hd (by rw [hp]; rfl)
        · intro x i hx; cases hx
        · intro x hx; cases hx
    · split at h
      · cases h
        refine ⟨⟨?_, hr.last⟩, ?_, ?_⟩
        · intro h hh; cases hh
        · intro x i hx hi; cases hx; exact hi
        · intro x hx; rfl
      · cases h
  · -- body
    next hd cn d hp =>
    dsimp only at h
    split at h
    · cases h
      have hc := hr.cur hd (by rw [hp]; rfl)
      refine ⟨⟨?_, hr.last⟩, ?_, ?_⟩
      · intro h hh; rw [handleFrame_next] at hh; cases hh
      · intro x i hx hi; cases hx; rw [handleFrame_id _ _ _ _ _ hi]; exact hc
      · intro x hx; rfl
    · split at h
      · cases h
        refine ⟨⟨?_, hr.last⟩, ?_, ?_⟩
        · intro h hh; cases hh
        · intro x i hx hi; cases hx; exact hi
        · intro x hx; rfl
      · cases h
  · cases h

theorem ReadSt.ok_init : ReadSt.Ok {} := ⟨(by intro h hh; cases hh), (by intro i hi; cases hi)⟩

/-! ### whole frames -/

/-- the reader at the start of an iteration reads a whole frame's fixed part, class name and header bytes -/
theorem reads_prefix (f : Fields) (cn hb : Bytes) (nl : Nat) (hf : Fields.Fit true f) (h8 : cn.length < 65536)
    (h9 : hb.length < 65536) (h10 : nl < 4294967296) (last : Option Int) (rest : Bytes) :
    RSteps ⟨.hdr, last⟩ (fixedPart true f cn.length hb.length nl ++ cn ++ hb ++ rest) []
      ⟨.shdr ⟨f.ptype, f.cmdcode, f.requestId, f.seventh, cn.length, hb.length, nl⟩ cn, some f.requestId⟩
      (hb ++ rest) := by
  have hlen : (fixedPart true f cn.length hb.length nl).length = 22 := by rw [fixedPart_length]; rfl
  have e1 : readerIter ⟨.hdr, last⟩ (fixedPart true f cn.length hb.length nl ++ cn ++ hb ++ rest) false =
      some (⟨.cls ⟨f.ptype, f.cmdcode, f.requestId, f.seventh, cn.length, hb.length, nl⟩, some f.requestId⟩,
        cn ++ hb ++ rest, none) := by
    have := readerIter_append (r := ⟨.hdr, last⟩) (b := fixedPart true f cn.length hb.length nl) (b' := [])
      (r' := ⟨.cls ⟨f.ptype, f.cmdcode, f.requestId, f.seventh, cn.length, hb.length, nl⟩, some f.requestId⟩)
      (a := none) (e := false) ?_ (cn ++ hb ++ rest)
    · simpa [List.append_assoc] using this
    · unfold readerIter
      dsimp only
      rw [if_pos (by rw [hlen, boltRequest_headerSize]; omega), take_fixedPart _ _ _ _ _ boltRequest_headerSize,
        reqHdr_fixed f _ _ _ hf h8 h9 h10, List.drop_eq_nil_of_le (by rw [hlen, boltRequest_headerSize]; omega)]
  have e2 : readerIter ⟨.cls ⟨f.ptype, f.cmdcode, f.requestId, f.seventh, cn.length, hb.length, nl⟩,
        some f.requestId⟩ (cn ++ hb ++ rest) false =
      some (⟨.shdr ⟨f.ptype, f.cmdcode, f.requestId, f.seventh, cn.length, hb.length, nl⟩ cn, some f.requestId⟩,
        hb ++ rest, none) := by
    unfold readerIter
    dsimp only
    rw [if_pos (by simp)]
    simp
  exact .step e1 (.step e2 (.refl _ _))

/-- a whole frame with a decodable header -/
theorem reads_frame (f : Fields) (cn hb ct : Bytes) (d : PyDict PyStr PyStr) (hf : Fields.Fit true f)
    (hfit : BodyFit cn hb ct) (hd : headerFromBytes hb = .ok d) (last : Option Int) (rest : Bytes) :
    RSteps ⟨.hdr, last⟩ (frame true f cn hb ct ++ rest)
      [handleFrame ⟨f.ptype, f.cmdcode, f.requestId, f.seventh, cn.length, hb.length, ct.length⟩ cn d ct]
      ⟨(handleFrame ⟨f.ptype, f.cmdcode, f.requestId, f.seventh, cn.length, hb.length, ct.length⟩ cn d ct).next,
        some f.requestId⟩ rest := by
  have h1 := reads_prefix f cn hb ct.length hf hfit.1 hfit.2.1 hfit.2.2 last (ct ++ rest)
  have e1 : fixedPart true f cn.length hb.length ct.length ++ cn ++ hb ++ (ct ++ rest) =
      frame true f cn hb ct ++ rest := by simp [frame, List.append_assoc]
  rw [e1] at h1
  refine h1.trans (l := []) ?_
  have e2 : readerIter ⟨.shdr ⟨f.ptype, f.cmdcode, f.requestId, f.seventh, cn.length, hb.length, ct.length⟩ cn,
      some f.requestId⟩ (hb ++ (ct ++ rest)) false =
      some (⟨.body ⟨f.ptype, f.cmdcode, f.requestId, f.seventh, cn.length, hb.length, ct.length⟩ cn d,
        some f.requestId⟩, ct ++ rest, none) := by
    unfold readerIter
    dsimp only
    rw [if_pos (by simp)]
    simp [hd]
  have e3 : readerIter ⟨.body ⟨f.ptype, f.cmdcode, f.requestId, f.seventh, cn.length, hb.length, ct.length⟩ cn d,
      some f.requestId⟩ (ct ++ rest) false =
      some (⟨(handleFrame ⟨f.ptype, f.cmdcode, f.requestId, f.seventh, cn.length, hb.length, ct.length⟩ cn d ct).next,
        some f.requestId⟩, rest,
        some (handleFrame ⟨f.ptype, f.cmdcode, f.requestId, f.seventh, cn.length, hb.length, ct.length⟩ cn d ct)) := by
    unfold readerIter
    dsimp only
    rw [if_pos (by simp)]
    simp
  exact .step (a := none) e2 (.one e3)

end Bolt
