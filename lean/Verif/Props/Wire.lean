import Verif.Lemmas.Package
/-!
# C01-C07, C16, C17: frames
-/
namespace Bolt
open Spec

/-- frames with fitting fields and parts are determined by their bytes -/
theorem frame_inj {r : Bool} {f f' : Fields} {cn hb ct cn' hb' ct' : Bytes}
    (h : frame r f cn hb ct = frame r f' cn' hb' ct')
    (hf : Fields.Fit r f) (hf' : Fields.Fit r f') (hb1 : BodyFit cn hb ct) (hb2 : BodyFit cn' hb' ct') :
    f = f' ∧ cn = cn' ∧ hb = hb' ∧ ct = ct' := by
  obtain ⟨c, hc⟩ : ∃ c : PkgClass, c.isRequest = r := by
    cases r
    · exact ⟨.boltResponse, rfl⟩
    · exact ⟨.boltRequest, rfl⟩
  subst hc
  have split (f : Fields) (cn hb ct : Bytes) : frame c.isRequest f cn hb ct =
      fixedPart c.isRequest f cn.length hb.length ct.length ++ (cn ++ hb ++ ct) := by simp [frame]
  rw [split, split] at h
  have hlen : (fixedPart c.isRequest f cn.length hb.length ct.length).length =
      (fixedPart c.isRequest f' cn'.length hb'.length ct'.length).length := by
    rw [fixedPart_length, fixedPart_length]
  obtain ⟨e1, e2⟩ := List.append_inj h hlen
  have p1 := (structPack_fixed c _ _).2 ⟨f, cn.length, hb.length, ct.length, rfl, hf, hb1.1, hb1.2.1, hb1.2.2, rfl⟩
  have p2 := (structPack_fixed c _ _).2
    ⟨f', cn'.length, hb'.length, ct'.length, rfl, hf', hb2.1, hb2.2.1, hb2.2.2, rfl⟩
  have u1 := structUnpack_structPack (fitsAll_fixed c f _ _ _) p1
  have u2 := structUnpack_structPack (fitsAll_fixed c f' _ _ _) p2
  rw [e1, u2] at u1
  simp only [Option.some.injEq, fixedArgs, List.cons.injEq, PyObj.int.injEq, and_true] at u1
  obtain ⟨a1, a2, a3, a4, a5, a6, a7, a8, a9, a10⟩ := u1
  have l8 : cn.length = cn'.length := by omega
  have l9 : hb.length = hb'.length := by omega
  obtain ⟨e3, e4⟩ := List.append_inj e2 (by simp [l8, l9])
  obtain ⟨e5, e6⟩ := List.append_inj e3 l8
  refine ⟨?_, e5, e6, e4⟩
  cases f; cases f'
  simp_all

/-- C01 (request round trip): every BoltRequest (also HeartbeatRequest) object that encodes, decodes back to a
package with the same header mapping (same order), content, proto, ptype, cmdcode, ver2, request id, codec and
timeout. `NodupKeys` is the invariant of every dict. -/
theorem C01_request_roundtrip (cls : PkgClass) (hreq : cls.isRequest = true) (header : SofaHeader)
    (hn : PyDict.NodupKeys header) (content : PyObj) (a : PkgArgs) (p : Pkg) (bs : Bytes)
    (hp : mkPkg cls header content a = .ok p) (hs : p.toStream = .ok bs) :
    ∃ q, fromStream .boltRequest bs = .ok q ∧ q.header = header ∧ q.content = content ∧
      q.proto = p.proto ∧ q.ptype = p.ptype ∧ q.cmdcode = p.cmdcode ∧ q.ver2 = p.ver2 ∧
      q.requestId = p.requestId ∧ q.codec = p.codec ∧ q.timeout = p.timeout ∧
      q.headerBytes = p.headerBytes := by
  rw [mkPkg_ok_iff] at hp
  obtain ⟨h1, h2, h3, h4, -, -, -, -, -, -, -, -⟩ := hp
  rw [toStream_ok_iff, h1, hreq] at hs
  obtain ⟨id, c, t, hid, hc, ht, hf, hbody, rfl⟩ := hs
  obtain ⟨d, hd, hd2⟩ := headerFromBytes_toBytes hn h3
  have ht' : p.timeout = .int t := by simpa [Pkg.seventh, h1, hreq] using ht
  let q : Pkg := { cls := .boltRequest, header := header, headerBytes := p.headerBytes, content := .bytes c,
                   proto := p.proto, ptype := p.ptype, cmdcode := p.cmdcode, ver2 := p.ver2,
                   requestId := .int id, codec := p.codec, timeout := .int t, respstatus := .success }
  refine ⟨q, ?_, rfl, by rw [← h4, hc], rfl, rfl, rfl, rfl, hid.symm, rfl, ht'.symm, rfl⟩
  rw [fromStream_ok_iff]
  refine ⟨p.fields id t, cls.className, p.headerBytes, c, d, rfl, hf, hbody, hd, ?_⟩
  exact ⟨rfl, hd2.symm, by rw [hd2]; exact h3, rfl, rfl, rfl, rfl, rfl, rfl, rfl, rfl, rfl⟩

/-- C02 (response round trip): likewise for BoltResponse, HeartbeatResponse and FailResponse, with the status. -/
theorem C02_response_roundtrip (cls : PkgClass) (hresp : cls.isRequest = false) (header : SofaHeader)
    (hn : PyDict.NodupKeys header) (content : PyObj) (a : PkgArgs) (p : Pkg) (bs : Bytes)
    (hp : mkPkg cls header content a = .ok p) (hs : p.toStream = .ok bs) :
    ∃ q, fromStream .boltResponse bs = .ok q ∧ q.header = header ∧ q.content = content ∧
      q.proto = p.proto ∧ q.ptype = p.ptype ∧ q.cmdcode = p.cmdcode ∧ q.ver2 = p.ver2 ∧
      q.requestId = p.requestId ∧ q.codec = p.codec ∧ q.respstatus = p.respstatus ∧
      q.headerBytes = p.headerBytes := by
  rw [mkPkg_ok_iff] at hp
  obtain ⟨h1, h2, h3, h4, -, -, -, -, -, -, -, -⟩ := hp
  rw [toStream_ok_iff, h1, hresp] at hs
  obtain ⟨id, c, t, hid, hc, ht, hf, hbody, rfl⟩ := hs
  obtain ⟨d, hd, hd2⟩ := headerFromBytes_toBytes hn h3
  have ht' : p.respstatus.code = t := by simpa [Pkg.seventh, h1, hresp] using ht
  let q : Pkg := { cls := .boltResponse, header := header, headerBytes := p.headerBytes, content := .bytes c,
                   proto := p.proto, ptype := p.ptype, cmdcode := p.cmdcode, ver2 := p.ver2,
                   requestId := .int id, codec := p.codec, timeout := .int 0, respstatus := p.respstatus }
  refine ⟨q, ?_, rfl, by rw [← h4, hc], rfl, rfl, rfl, rfl, hid.symm, rfl, rfl, rfl⟩
  rw [fromStream_ok_iff]
  refine ⟨p.fields id t, cls.className, p.headerBytes, c, d, rfl, hf, hbody, hd, ?_⟩
  exact ⟨rfl, hd2.symm, by rw [hd2]; exact h3, rfl, rfl, rfl, rfl, rfl, rfl, rfl, rfl, ht'⟩

/-- C03 (byte layout): the bytes of every encodable package are the hand-written layout `Spec.frame` of its own
class name, header bytes and content, with the package's codes, id and timeout/status; the lengths fit their fields. -/
theorem C03_byte_layout (p : Pkg) (bs : Bytes) (hs : p.toStream = .ok bs) :
    ∃ id c t, p.requestId = .int id ∧ p.content = .bytes c ∧
      (if p.cls.isRequest then p.timeout = .int t else p.respstatus.code = t) ∧
      bs = frame p.cls.isRequest
        { proto := p.proto.code, ptype := p.ptype.code, cmdcode := p.cmdcode.code, ver2 := p.ver2.code,
          requestId := id, codec := p.codec.code, seventh := t } p.cls.className p.headerBytes c ∧
      BodyFit p.cls.className p.headerBytes c := by
  rw [toStream_ok_iff] at hs
  obtain ⟨id, c, t, hid, hc, ht, hf, hbody, rfl⟩ := hs
  refine ⟨id, c, t, hid, hc, ?_, rfl, hbody⟩
  unfold Pkg.seventh at ht
  split at ht
  · next h => rw [if_pos h]; exact ht
  · next h => rw [if_neg h]; exact PyObj.int.inj ht

theorem className_length (c : PkgClass) : c.className.length < 65536 := by cases c <;> decide

theorem fit_of_ranges (p : Pkg) (id t : Int) (hid : -2147483648 ≤ id ∧ id < 2147483648)
    (ht : if p.cls.isRequest then -2147483648 ≤ t ∧ t < 2147483648 else -32768 ≤ t ∧ t < 32768) :
    Fields.Fit p.cls.isRequest (p.fields id t) := by
  refine ⟨?_, ?_, ?_, ?_, hid, ?_, ht⟩
  · show _ ≤ p.proto.code ∧ p.proto.code < _
    cases p.proto <;> decide
  · show _ ≤ p.ptype.code ∧ p.ptype.code < _
    cases p.ptype <;> decide
  · show _ ≤ p.cmdcode.code ∧ p.cmdcode.code < _
    cases p.cmdcode <;> decide
  · show _ ≤ p.ver2.code ∧ p.ver2.code < _
    cases p.ver2 <;> decide
  · show _ ≤ p.codec.code ∧ p.codec.code < _
    cases p.codec <;> decide

/-- C04 (encodability): `to_stream` succeeds exactly on representable packages; otherwise it raises EncodeError or
ParamTypeError. -/
theorem C04_encodable_iff (p : Pkg) :
    ((∃ bs, p.toStream = .ok bs) ↔
      (∃ id : Int, p.requestId = .int id ∧ -2 ^ 31 ≤ id ∧ id < 2 ^ 31) ∧
      (p.cls.isRequest = true → ∃ t : Int, p.timeout = .int t ∧ -2 ^ 31 ≤ t ∧ t < 2 ^ 31) ∧
      (∃ c : Bytes, p.content = .bytes c ∧ c.length < 2 ^ 32) ∧
      p.headerBytes.length < 65536) ∧
    (∀ e, p.toStream = .error e → e = .encodeError ∨ e = .paramTypeError) := by
  refine ⟨⟨?_, ?_⟩, fun e he => toStream_error he⟩
  · rintro ⟨bs, hs⟩
    rw [toStream_ok_iff] at hs
    obtain ⟨id, c, t, hid, hc, ht, hf, hbody, rfl⟩ := hs
    refine ⟨⟨id, hid, ?_, ?_⟩, ?_, ⟨c, hc, ?_⟩, hbody.2.1⟩
    · have := hf.requestId.1; simp only [Pkg.fields] at this; omega
    · have := hf.requestId.2; simp only [Pkg.fields] at this; omega
    · intro hr
      refine ⟨t, by simpa [Pkg.seventh, hr] using ht, ?_⟩
      have := hf.seventh
      rw [hr] at this
      simp only [if_true, Pkg.fields] at this
      omega
    · have := hbody.2.2; omega
  · rintro ⟨⟨id, hid, h1, h2⟩, ht, ⟨c, hc, h3⟩, h4⟩
    have hbody : BodyFit p.cls.className p.headerBytes c := ⟨className_length _, h4, by omega⟩
    cases hr : p.cls.isRequest with
    | true =>
      obtain ⟨t, ht, h5, h6⟩ := ht hr
      refine ⟨_, (toStream_ok_iff p _).2 ⟨id, c, t, hid, hc, by simp [Pkg.seventh, hr, ht],
        fit_of_ranges p id t (by omega) ?_, hbody, rfl⟩⟩
      rw [hr]; simp only [if_true]; omega
    | false =>
      refine ⟨_, (toStream_ok_iff p _).2 ⟨id, c, p.respstatus.code, hid, hc, by simp [Pkg.seventh, hr],
        fit_of_ranges p id _ (by omega) ?_, hbody, rfl⟩⟩
      rw [hr]; simp only [Bool.false_eq_true, if_false]
      cases p.respstatus <;> decide

/-- C05 (decoding is total): every byte string gives a package or DecodeError. (Termination: `fromStream` is a total
function; the only loop, in `_bytes_to_str`, is a well-founded recursion on the number of bytes left.) -/
theorem C05_decode_total (cls : PkgClass) (bs : Bytes) :
    (∃ p, fromStream cls bs = .ok p) ∨ fromStream cls bs = .error .decodeError := by
  cases h : fromStream cls bs with
  | ok p => exact .inl ⟨p, rfl⟩
  | error e => rw [fromStream_error h]; exact .inr rfl

/-- declared body length of a frame, read from the bytes by position -/
def Spec.u16At (bs : Bytes) (i : Nat) : Nat := (bs.getD i 0).toNat * 256 + (bs.getD (i + 1) 0).toNat
def Spec.u32At (bs : Bytes) (i : Nat) : Nat := Spec.u16At bs i * 65536 + Spec.u16At bs (i + 2)
def Spec.declaredLength (isRequest : Bool) (bs : Bytes) : Nat :=
  let o := if isRequest then 14 else 12
  o + 8 + Spec.u16At bs o + Spec.u16At bs (o + 2) + Spec.u32At bs (o + 4)

theorem declaredLength_frame (r : Bool) (f : Fields) (cn hb ct : Bytes) (h : BodyFit cn hb ct) (rest : Bytes) :
    Spec.declaredLength r (frame r f cn hb ct ++ rest) = (frame r f cn hb ct).length := by
  obtain ⟨h1, h2, h3⟩ := h
  rw [frame_length]
  cases r <;>
  · simp only [Spec.declaredLength, Spec.u16At, Spec.u32At, frame, fixedPart, s1, s2, s4, be2, be4,
      List.cons_append, List.nil_append, List.append_assoc, Bool.false_eq_true, if_false, if_true,
      List.getD_cons_zero, List.getD_cons_succ, Nat.reduceAdd]
    rw [u8 (by omega), u8 (by omega), u8 (by omega), u8 (by omega), u8 (by omega), u8 (by omega), u8 (by omega),
      u8 (by omega)]
    omega

/-- C06 (exact length): an accepted byte string has exactly the length its own length fields declare; so neither a
proper prefix nor a proper extension of an accepted frame is accepted. -/
theorem C06_exact_length (cls : PkgClass) (bs : Bytes) (p : Pkg) (h : fromStream cls bs = .ok p) :
    bs.length = Spec.declaredLength cls.isRequest bs ∧
    (∀ ext q, fromStream cls (bs ++ ext) = .ok q → ext = []) ∧
    (∀ pre ext q, bs = pre ++ ext → fromStream cls pre = .ok q → ext = []) := by
  have key : ∀ b q, fromStream cls b = .ok q → ∀ rest, Spec.declaredLength cls.isRequest (b ++ rest) = b.length := by
    intro b q hb rest
    rw [fromStream_ok_iff] at hb
    obtain ⟨f, cn, hb', ct, d, rfl, hf, hbody, -, -⟩ := hb
    exact declaredLength_frame _ f cn hb' ct hbody rest
  refine ⟨?_, ?_, ?_⟩
  · have := key bs p h []
    rw [List.append_nil] at this; exact this.symm
  · intro ext q hq
    have h1 := key bs p h ext
    have h2 := key _ q hq []
    rw [List.append_nil, h1, List.length_append] at h2
    exact List.eq_nil_of_length_eq_zero (by omega)
  · intro pre ext q he hq
    have h1 := key pre q hq ext
    have h2 := key _ p h []
    rw [List.append_nil, he, h1, List.length_append] at h2
    exact List.eq_nil_of_length_eq_zero (by omega)

/-- the codes listed in constants.py -/
def Spec.KnownCodes (isRequest : Bool) (f : Fields) : Prop :=
  f.proto = 1 ∧ (f.ptype = 0 ∨ f.ptype = 1 ∨ f.ptype = 2) ∧ (f.cmdcode = 0 ∨ f.cmdcode = 1 ∨ f.cmdcode = 2) ∧
  f.ver2 = 1 ∧ (f.codec = 1 ∨ f.codec = 11 ∨ f.codec = 2) ∧
  (isRequest = false → f.seventh ∈ ([0, 1, 2, 3, 4, 5, 6, 7, 8, 9, 0x10, 0x11, 0x12] : List Int))

theorem known_of_decodes {c : PkgClass} {f : Fields} {d : PyDict PyStr PyStr} {ct : Bytes} {p : Pkg}
    (h : DecodesTo c f d ct p) : Spec.KnownCodes c.isRequest f := by
  refine ⟨?_, ?_, ?_, ?_, ?_, ?_⟩
  · rw [← h.proto]; cases p.proto <;> rfl
  · rw [← h.ptype]; cases p.ptype <;> decide
  · rw [← h.cmdcode]; cases p.cmdcode <;> decide
  · rw [← h.ver2]; cases p.ver2 <;> rfl
  · rw [← h.codec]; cases p.codec <;> decide
  · intro hr
    have := h.respstatus
    rw [hr] at this
    simp only [Bool.false_eq_true, if_false] at this
    rw [← this]; cases p.respstatus <;> decide

/-- C07 (only protocol codes): an accepted byte string is a frame whose codes are listed in constants.py, and the
package reports exactly these codes; a frame with any other code is rejected with DecodeError. -/
theorem C07_known_codes (cls : PkgClass) :
    (∀ bs p, fromStream cls bs = .ok p → ∃ f cn hb ct, bs = frame cls.isRequest f cn hb ct ∧
      Spec.KnownCodes cls.isRequest f ∧ p.proto.code = f.proto ∧ p.ptype.code = f.ptype ∧
      p.cmdcode.code = f.cmdcode ∧ p.ver2.code = f.ver2 ∧ p.codec.code = f.codec ∧
      p.requestId = .int f.requestId ∧ p.content = .bytes ct ∧
      (if cls.isRequest then p.timeout = .int f.seventh else p.respstatus.code = f.seventh)) ∧
    (∀ f cn hb ct, Fields.Fit cls.isRequest f → BodyFit cn hb ct → ¬ Spec.KnownCodes cls.isRequest f →
      fromStream cls (frame cls.isRequest f cn hb ct) = .error .decodeError) := by
  constructor
  · intro bs p h
    rw [fromStream_ok_iff] at h
    obtain ⟨f, cn, hb, ct, d, rfl, hf, hbody, hd, hp⟩ := h
    refine ⟨f, cn, hb, ct, rfl, known_of_decodes hp, hp.proto, hp.ptype, hp.cmdcode, hp.ver2, hp.codec,
      hp.requestId, hp.content, ?_⟩
    have h1 := hp.timeout
    have h2 := hp.respstatus
    split
    · next hr => rw [hr] at h1; exact h1
    · next hr => rw [if_neg hr] at h2; exact h2
  · intro f cn hb ct hf hbody hk
    rcases C05_decode_total cls (frame cls.isRequest f cn hb ct) with ⟨p, hp⟩ | h
    · exfalso
      rw [fromStream_ok_iff] at hp
      obtain ⟨f', cn', hb', ct', d, e, hf', hbody', hd, hp⟩ := hp
      obtain ⟨rfl, -, -, -⟩ := frame_inj e hf hf' hbody hbody'
      exact hk (known_of_decodes hp)
    · exact h

theorem heartbeatReq_bytes (id : Int) : frame true ⟨1, 1, 0, 1, id, 11, 0⟩ [] [] [] =
    [1, 1, 0, 0, 1] ++ s4 id ++ [11, 0, 0, 0, 0, 0, 0, 0, 0, 0, 0, 0, 0] := by
  have e1 : s1 1 = [1] := by decide
  have e2 : s2 0 = [0, 0] := by decide
  have e3 : s1 11 = [11] := by decide
  have e4 : s4 0 = [0, 0, 0, 0] := by decide
  have e5 : be2 0 = [0, 0] := by decide
  have e6 : be4 0 = [0, 0, 0, 0] := by decide
  simp only [frame, fixedPart, e1, e2, e3, e4, List.length_nil, e5, e6, if_true, List.append_nil, List.append_assoc,
    List.cons_append, List.nil_append]

theorem heartbeatResp_bytes (id : Int) : frame false ⟨1, 0, 0, 1, id, 11, 0⟩ [] [] [] =
    [1, 0, 0, 0, 1] ++ s4 id ++ [11, 0, 0, 0, 0, 0, 0, 0, 0, 0, 0] := by
  have e1 : s1 1 = [1] := by decide
  have e0 : s1 0 = [0] := by decide
  have e2 : s2 0 = [0, 0] := by decide
  have e3 : s1 11 = [11] := by decide
  have e5 : be2 0 = [0, 0] := by decide
  have e6 : be4 0 = [0, 0, 0, 0] := by decide
  simp only [frame, fixedPart, e0, e1, e2, e3, List.length_nil, e5, e6, Bool.false_eq_true, if_false, List.append_nil,
    List.append_assoc, List.cons_append, List.nil_append]

/-- the object `HeartbeatRequest.new_request` builds -/
theorem heartbeatRequest_eq (id : Int) : heartbeatRequest id = .ok
    { cls := .heartbeatRequest, header := [], headerBytes := [], content := .bytes [], proto := .bolt,
      ptype := .request, cmdcode := .heartbeat, ver2 := .remoting, requestId := .int id, codec := .protobuf,
      timeout := .int 0, respstatus := .success } := by
  unfold heartbeatRequest
  rw [mkPkg_ok_iff]
  exact ⟨rfl, rfl, rfl, rfl, rfl, rfl, rfl, rfl, rfl, rfl, rfl, rfl⟩

/-- the object `HeartbeatResponse.response_to` builds -/
theorem heartbeatResponse_eq (id : PyObj) : heartbeatResponseTo id = .ok
    { cls := .heartbeatResponse, header := [], headerBytes := [], content := .bytes [], proto := .bolt,
      ptype := .response, cmdcode := .heartbeat, ver2 := .remoting, requestId := id, codec := .protobuf,
      timeout := .int 0, respstatus := .success } := by
  unfold heartbeatResponseTo
  rw [mkPkg_ok_iff]
  exact ⟨rfl, rfl, rfl, rfl, rfl, rfl, rfl, rfl, rfl, rfl, rfl, rfl⟩

theorem bodyFit_nil : BodyFit [] [] [] := by decide

/-- C16 (heartbeats): heartbeat packets encode to the bare fixed header (22 / 20 bytes, all lengths zero), echoing
the id; the response decodes to that id, SUCCESS, HEARTBEAT, empty header and content. -/
theorem C16_heartbeat (id : Int) (h : -2 ^ 31 ≤ id ∧ id < 2 ^ 31) :
    (∃ p bs, heartbeatRequest id = .ok p ∧ p.toStream = .ok bs ∧ bs.length = 22 ∧
      bs = [1, 1, 0, 0, 1] ++ s4 id ++ [11, 0, 0, 0, 0, 0, 0, 0, 0, 0, 0, 0, 0]) ∧
    (∃ p bs q, heartbeatResponseTo (.int id) = .ok p ∧ p.toStream = .ok bs ∧ bs.length = 20 ∧
      bs = [1, 0, 0, 0, 1] ++ s4 id ++ [11, 0, 0, 0, 0, 0, 0, 0, 0, 0, 0] ∧
      fromStream .boltResponse bs = .ok q ∧ q.requestId = .int id ∧ q.respstatus = .success ∧
      q.cmdcode = .heartbeat ∧ q.ptype = .response ∧ q.header = [] ∧ q.content = .bytes []) := by
  constructor
  · refine ⟨_, frame true ⟨1, 1, 0, 1, id, 11, 0⟩ [] [] [], heartbeatRequest_eq id, ?_, ?_, heartbeatReq_bytes id⟩
    · rw [toStream_ok_iff]
      refine ⟨id, [], 0, rfl, rfl, rfl, fit_of_ranges _ id 0 (by omega) ?_, bodyFit_nil, rfl⟩
      simp [PkgClass.isRequest]
    · rw [frame_length]; rfl
  · have hs : ∀ p, heartbeatResponseTo (.int id) = .ok p →
        p.toStream = .ok (frame false ⟨1, 0, 0, 1, id, 11, 0⟩ [] [] []) := by
      intro p hp
      rw [heartbeatResponse_eq] at hp
      cases hp
      rw [toStream_ok_iff]
      refine ⟨id, [], 0, rfl, rfl, rfl, fit_of_ranges _ id 0 (by omega) ?_, bodyFit_nil, rfl⟩
      simp [PkgClass.isRequest]
    obtain ⟨q, hq, e1, e2, -, e4, e5, -, e7, -, e9, -⟩ :=
      C02_response_roundtrip .heartbeatResponse rfl [] (by simp [PyDict.NodupKeys]) (.bytes []) _ _ _
        (heartbeatResponse_eq (.int id)) (hs _ (heartbeatResponse_eq (.int id)))
    exact ⟨_, _, q, heartbeatResponse_eq (.int id), hs _ (heartbeatResponse_eq (.int id)),
      by rw [frame_length]; rfl, heartbeatResp_bytes id, hq, e7, e9, e5, e4, e1, e2⟩

/-- C17 (failure responses): `FailResponse.response_to(id, s)` encodes, and decodes back to a RESPONSE package with
that id and status, empty header and empty content. -/
theorem C17_fail_response (id : Int) (h : -2 ^ 31 ≤ id ∧ id < 2 ^ 31) (s : RespStatus) :
    ∃ p bs q, failResponseTo (.int id) s = .ok p ∧ p.toStream = .ok bs ∧
      fromStream .boltResponse bs = .ok q ∧ q.requestId = .int id ∧ q.respstatus = s ∧
      q.cmdcode = .response ∧ q.ptype = .response ∧ q.header = [] ∧ q.content = .bytes [] := by
  have hp : failResponseTo (.int id) s = .ok
      { cls := .failResponse, header := [], headerBytes := [], content := .bytes [], proto := .bolt,
        ptype := .response, cmdcode := .response, ver2 := .remoting, requestId := .int id, codec := .protobuf,
        timeout := .int 0, respstatus := s } := by
    unfold failResponseTo
    rw [mkPkg_ok_iff]
    exact ⟨rfl, rfl, rfl, rfl, rfl, rfl, rfl, rfl, rfl, rfl, rfl, rfl⟩
  obtain ⟨bs, hbs⟩ := ((C04_encodable_iff
      { cls := .failResponse, header := [], headerBytes := [], content := .bytes [], proto := .bolt,
        ptype := .response, cmdcode := .response, ver2 := .remoting, requestId := .int id, codec := .protobuf,
        timeout := .int 0, respstatus := s }).1).2 ⟨⟨id, rfl, h⟩, by simp [PkgClass.isRequest], ⟨[], rfl, by decide⟩,
        by simp⟩
  obtain ⟨q, hq, e1, e2, -, e4, e5, -, e7, -, e9, -⟩ :=
    C02_response_roundtrip .failResponse rfl [] (by simp [PyDict.NodupKeys]) (.bytes []) _ _ _ hp hbs
  exact ⟨_, bs, q, hp, hbs, hq, e7, e9, e5, e4, e1, e2⟩

/-! ### the hypotheses are satisfiable: concrete packages -/

/-- a concrete request with a non-trivial header, content, id and timeout -/
def exHeader : SofaHeader := [(py "service", .str (py "com.x.S")), (py "k", .str [0x4e2d, 0x1F600])]

/-- its wire form -/
def exHeaderBytes : Bytes := [0, 0, 0, 7] ++ pyb "service" ++ [0, 0, 0, 7] ++ pyb "com.x.S"
  ++ [0, 0, 0, 1] ++ pyb "k" ++ [0, 0, 0, 7, 0xe4, 0xb8, 0xad, 0xf0, 0x9f, 0x98, 0x80]

example : PyDict.NodupKeys exHeader ∧ ∃ p bs, newRequest exHeader (.bytes [1, 2, 3]) .oneway (.int 3000) 77 = .ok p ∧
    p.toStream = .ok bs := by
  refine ⟨by decide, ⟨.boltRequest, exHeader, exHeaderBytes, .bytes [1, 2, 3], .bolt, .oneway, .request, .remoting,
    .int 77, .protobuf, .int 3000, .success⟩, ?_⟩
  have : (⟨.boltRequest, exHeader, exHeaderBytes, .bytes [1, 2, 3], .bolt, .oneway, .request, .remoting,
    .int 77, .protobuf, .int 3000, .success⟩ : Pkg).headerBytes.length < 65536 := by decide
  obtain ⟨bs, hbs⟩ := (C04_encodable_iff ⟨.boltRequest, exHeader, exHeaderBytes, .bytes [1, 2, 3], .bolt, .oneway,
    .request, .remoting, .int 77, .protobuf, .int 3000, .success⟩).1.2
    ⟨⟨77, rfl, by decide⟩, fun _ => ⟨3000, rfl, by decide⟩, ⟨[1, 2, 3], rfl, by decide⟩, this⟩
  exact ⟨bs, by decide, hbs⟩

/-- a frame with an unknown codec fits the layout and is not a known code (hypotheses of C07's second half) -/
example : Fields.Fit true ⟨1, 1, 1, 1, 5, 9, -1⟩ ∧ BodyFit [] [] [7] ∧
    ¬ Spec.KnownCodes true ⟨1, 1, 1, 1, 5, 9, -1⟩ := by
  refine ⟨⟨?_, ?_, ?_, ?_, ?_, ?_, ?_⟩, ?_, ?_⟩ <;> simp [BodyFit, Spec.KnownCodes]

/-- an accepted byte string (hypothesis of C06) -/
example : ∃ q, fromStream .boltResponse
    ([1, 0, 0, 2, 1, 0, 0, 0, 9, 11, 0, 7, 0, 0, 0, 0, 0, 0, 0, 2] ++ [65, 66]) = .ok q := by
  have h : ([1, 0, 0, 2, 1, 0, 0, 0, 9, 11, 0, 7, 0, 0, 0, 0, 0, 0, 0, 2] ++ [65, 66] : Bytes) =
    frame false ⟨1, 0, 2, 1, 9, 11, 7⟩ [] [] [65, 66] := by decide
  rw [h]
  obtain ⟨q, hq⟩ : ∃ q, mkPkg .boltResponse (strHeader []) (.bytes [65, 66])
      (argsOfHdr (hdrOf .boltResponse ⟨1, 0, 2, 1, 9, 11, 7⟩ 0 0 2)) = .ok q := ⟨_, rfl⟩
  exact ⟨q, (fromStream_ok_iff .boltResponse _ q).2 ⟨⟨1, 0, 2, 1, 9, 11, 7⟩, [], [], [65, 66], [], rfl,
    ⟨by decide, by decide, by decide, by decide, by decide, by decide, by decide⟩, by decide,
    headerFromBytes_flatten (kvs := []) .nil, (mkPkg_decodesTo _ _ _ _ _ _ _ _).1 hq⟩⟩

end Bolt
