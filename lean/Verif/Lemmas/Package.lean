import Verif.Lemmas.Header
import Verif.Model.Package
import Verif.Spec.Wire
namespace Bolt
open Spec

/-! ### generic struct facts -/

theorem Fmt.pack_unpack {f : Fmt} {bs : Bytes} (h : bs.length = f.size) (hp : ∀ n, f ≠ .s n) :
    f.pack (f.unpack bs) = some bs := by
  cases f with
  | s n => exact absurd rfl (hp n)
  | b | h | i | l =>
    simp only [Fmt.unpack, Fmt.pack, Fmt.size] at *
    rw [← h]; exact packSigned_unpackSigned (by omega)
  | H | L =>
    simp only [Fmt.unpack, Fmt.pack, Fmt.size] at *
    rw [← h]; exact packUnsigned_unpackUnsigned

theorem Fmt.pack_unpack' {f : Fmt} {bs : Bytes} (h : bs.length = f.size) :
    f.pack (f.unpack bs) = some bs ∧ f.fits (f.unpack bs) := by
  cases f with
  | s n => simp only [Fmt.unpack, Fmt.pack, Fmt.size, Fmt.fits] at *; subst h; simp [packS_self]
  | _ => exact ⟨Fmt.pack_unpack h (by intro n; simp), by simp [Fmt.unpack, Fmt.fits]⟩

theorem structPack_items {fs : List Fmt} {bs : Bytes} (h : bs.length = calcsize fs) :
    structPack fs (structItems fs bs) = some bs ∧ fitsAll fs (structItems fs bs) := by
  induction fs generalizing bs with
  | nil =>
    have : bs = [] := by simpa [calcsize] using h
    subst this; exact ⟨rfl, trivial⟩
  | cons f fs ih =>
    have hc : calcsize (f :: fs) = f.size + calcsize fs := by simp [calcsize]
    rw [hc] at h
    have h1 := Fmt.pack_unpack' (f := f) (bs := bs.take f.size) (by rw [List.length_take]; omega)
    have h2 := ih (bs := bs.drop f.size) (by rw [List.length_drop]; omega)
    refine ⟨?_, ?_⟩
    · simp only [structItems, structPack, h1.1, h2.1]
      simp
    · exact ⟨h1.2, h2.2⟩

theorem structUnpack_iff {fs : List Fmt} {bs : Bytes} {vs : List PyObj} :
    structUnpack fs bs = some vs ↔ fitsAll fs vs ∧ structPack fs vs = some bs := by
  constructor
  · intro h
    have hl := structUnpack_length h
    unfold structUnpack at h
    rw [if_pos hl] at h
    cases h
    exact (structPack_items hl).symm
  · rintro ⟨h1, h2⟩; exact structUnpack_structPack h1 h2

/-! ### the packed numbers are the specified bytes -/

theorem packSigned1 (v : Int) : packSigned 1 v = if -128 ≤ v ∧ v < 128 then some (s1 v) else none := by
  have e : (256 ^ 1 / 2 : Nat) = 128 := by decide
  unfold packSigned s1
  rw [e]
  congr 1
  simp [beBytes]
  rw [Nat.mod_eq_of_lt (by omega)]

theorem packSigned2 (v : Int) : packSigned 2 v = if -32768 ≤ v ∧ v < 32768 then some (s2 v) else none := by
  have e : (256 ^ 2 / 2 : Nat) = 32768 := by decide
  unfold packSigned s2
  rw [e]
  congr 1

theorem packSigned4' (v : Int) :
    packSigned 4 v = if -2147483648 ≤ v ∧ v < 2147483648 then some (s4 v) else none := by
  have e : (256 ^ 4 / 2 : Nat) = 2147483648 := by decide
  unfold packSigned s4
  rw [e, beBytes4]
  congr 1

theorem packUnsigned2 (n : Nat) : packUnsigned 2 (n : Int) = if n < 65536 then some (be2 n) else none := by
  have e : (256 ^ 2 : Nat) = 65536 := by decide
  unfold packUnsigned
  rw [e]
  by_cases h : n < 65536
  · rw [if_pos h, if_pos (by omega)]; rfl
  · rw [if_neg h, if_neg (by omega)]

theorem packUnsigned4 (n : Nat) : packUnsigned 4 (n : Int) = if n < 4294967296 then some (be4 n) else none := by
  have e : (256 ^ 4 : Nat) = 4294967296 := by decide
  unfold packUnsigned
  rw [e]
  by_cases h : n < 4294967296
  · rw [if_pos h, if_pos (by omega), beBytes4]; rfl
  · rw [if_neg h, if_neg (by omega)]

theorem packUnsigned_nat {k : Nat} {v : Int} {b : Bytes} (h : packUnsigned k v = some b) : ∃ n : Nat, v = n :=
  ⟨v.toNat, by have := packUnsigned_some h; omega⟩

theorem fmt_eq (c : PkgClass) : c.fmt =
    [.b, .b, .h, .b, .l, .b, (if c.isRequest then .l else .h), .H, .H, .L] := by
  cases c <;> rfl

/-- seventh field -/
def s7 (isReq : Bool) (v : Int) : Bytes := if isReq then s4 v else s2 v
def fit7 (isReq : Bool) (v : Int) : Prop :=
  if isReq then -2147483648 ≤ v ∧ v < 2147483648 else -32768 ≤ v ∧ v < 32768

theorem pack7 (isReq : Bool) (o : PyObj) (b : Bytes) :
    (if isReq then Fmt.l else Fmt.h).pack o = some b ↔ ∃ v, o = .int v ∧ fit7 isReq v ∧ b = s7 isReq v := by
  cases isReq <;> cases o <;> simp [Fmt.pack, fit7, s7, packSigned4', packSigned2, eq_comm, and_assoc]

theorem packInt1 (f : Fmt) (hf : f = .b) (o : PyObj) (b : Bytes) :
    f.pack o = some b ↔ ∃ v, o = .int v ∧ (-128 ≤ v ∧ v < 128) ∧ b = s1 v := by
  subst hf
  cases o <;> simp [Fmt.pack, packSigned1, eq_comm, and_assoc]

theorem packInt2 (o : PyObj) (b : Bytes) :
    Fmt.h.pack o = some b ↔ ∃ v, o = .int v ∧ (-32768 ≤ v ∧ v < 32768) ∧ b = s2 v := by
  cases o <;> simp [Fmt.pack, packSigned2, eq_comm, and_assoc]

theorem packInt4 (o : PyObj) (b : Bytes) :
    Fmt.l.pack o = some b ↔ ∃ v, o = .int v ∧ (-2147483648 ≤ v ∧ v < 2147483648) ∧ b = s4 v := by
  cases o <;> simp [Fmt.pack, packSigned4', eq_comm, and_assoc]

theorem packU2 (o : PyObj) (b : Bytes) :
    Fmt.H.pack o = some b ↔ ∃ n : Nat, o = .int n ∧ n < 65536 ∧ b = be2 n := by
  cases o with
  | int v =>
    simp only [Fmt.pack, PyObj.int.injEq]
    constructor
    · intro h
      obtain ⟨n, rfl⟩ := packUnsigned_nat h
      rw [packUnsigned2] at h
      split at h
      · next hn => exact ⟨n, rfl, hn, by cases h; rfl⟩
      · cases h
    · rintro ⟨n, rfl, hn, rfl⟩
      rw [packUnsigned2, if_pos hn]
  | _ => simp [Fmt.pack]

theorem packU4 (o : PyObj) (b : Bytes) :
    Fmt.L.pack o = some b ↔ ∃ n : Nat, o = .int n ∧ n < 4294967296 ∧ b = be4 n := by
  cases o with
  | int v =>
    simp only [Fmt.pack, PyObj.int.injEq]
    constructor
    · intro h
      obtain ⟨n, rfl⟩ := packUnsigned_nat h
      rw [packUnsigned4] at h
      split at h
      · next hn => exact ⟨n, rfl, hn, by cases h; rfl⟩
      · cases h
    · rintro ⟨n, rfl, hn, rfl⟩
      rw [packUnsigned4, if_pos hn]
  | _ => simp [Fmt.pack]

theorem structPack_cons (f : Fmt) (fs : List Fmt) (vs : List PyObj) (bs : Bytes) :
    structPack (f :: fs) vs = some bs ↔
      ∃ v vs' b bs', vs = v :: vs' ∧ f.pack v = some b ∧ structPack fs vs' = some bs' ∧ bs = b ++ bs' := by
  cases vs with
  | nil => simp [structPack]
  | cons v vs =>
    simp only [structPack, Option.bind_eq_bind, Option.bind_eq_some_iff, Option.pure_def, Option.some.injEq,
      List.cons.injEq]
    constructor
    · rintro ⟨b, hb, c, hc, rfl⟩; exact ⟨v, vs, b, c, ⟨rfl, rfl⟩, hb, hc, rfl⟩
    · rintro ⟨v', vs', b, c, ⟨rfl, rfl⟩, hb, hc, rfl⟩; exact ⟨b, hb, c, hc, rfl⟩

theorem structPack_nil (vs : List PyObj) (bs : Bytes) : structPack [] vs = some bs ↔ vs = [] ∧ bs = [] := by
  cases vs <;> simp [structPack, eq_comm]

/-- arguments of the fixed part -/
def fixedArgs (f : Fields) (cl hl nl : Nat) : List PyObj :=
  [.int f.proto, .int f.ptype, .int f.cmdcode, .int f.ver2, .int f.requestId, .int f.codec, .int f.seventh,
   .int cl, .int hl, .int nl]

theorem structPack_fixed (c : PkgClass) (vs : List PyObj) (bs : Bytes) :
    structPack c.fmt vs = some bs ↔ ∃ f cl hl nl, vs = fixedArgs f cl hl nl ∧ Fields.Fit c.isRequest f ∧
      cl < 65536 ∧ hl < 65536 ∧ nl < 4294967296 ∧ bs = fixedPart c.isRequest f cl hl nl := by
  rw [fmt_eq]
  constructor
  · intro h
    simp only [structPack_cons, structPack_nil, pack7, packInt1, packInt2, packInt4, packU2, packU4] at h
    obtain ⟨_, _, _, _, rfl, ⟨v1, rfl, h1, rfl⟩, h, rfl⟩ := h
    obtain ⟨_, _, _, _, rfl, ⟨v2, rfl, h2, rfl⟩, h, rfl⟩ := h
    obtain ⟨_, _, _, _, rfl, ⟨v3, rfl, h3, rfl⟩, h, rfl⟩ := h
    obtain ⟨_, _, _, _, rfl, ⟨v4, rfl, h4, rfl⟩, h, rfl⟩ := h
    obtain ⟨_, _, _, _, rfl, ⟨v5, rfl, h5, rfl⟩, h, rfl⟩ := h
    obtain ⟨_, _, _, _, rfl, ⟨v6, rfl, h6, rfl⟩, h, rfl⟩ := h
    obtain ⟨_, _, _, _, rfl, ⟨v7, rfl, h7, rfl⟩, h, rfl⟩ := h
    obtain ⟨_, _, _, _, rfl, ⟨v8, rfl, h8, rfl⟩, h, rfl⟩ := h
    obtain ⟨_, _, _, _, rfl, ⟨v9, rfl, h9, rfl⟩, h, rfl⟩ := h
    obtain ⟨_, _, _, _, rfl, ⟨v10, rfl, h10, rfl⟩, ⟨rfl, rfl⟩, rfl⟩ := h
    refine ⟨⟨v1, v2, v3, v4, v5, v6, v7⟩, v8, v9, v10, rfl, ⟨h1, h2, h3, h4, h5, h6, h7⟩, h8, h9, h10, ?_⟩
    simp [fixedPart, s7]
  · rintro ⟨f, cl, hl, nl, rfl, hf, h8, h9, h10, rfl⟩
    simp only [structPack_cons, structPack_nil, pack7, packInt1, packInt2, packInt4, packU2, packU4]
    refine ⟨_, _, _, _, rfl, ⟨_, rfl, hf.proto, rfl⟩, ⟨_, _, _, _, rfl, ⟨_, rfl, hf.ptype, rfl⟩,
      ⟨_, _, _, _, rfl, ⟨_, rfl, hf.cmdcode, rfl⟩, ⟨_, _, _, _, rfl, ⟨_, rfl, hf.ver2, rfl⟩,
      ⟨_, _, _, _, rfl, ⟨_, rfl, hf.requestId, rfl⟩, ⟨_, _, _, _, rfl, ⟨_, rfl, hf.codec, rfl⟩,
      ⟨_, _, _, _, rfl, ⟨_, rfl, hf.seventh, rfl⟩, ⟨_, _, _, _, rfl, ⟨_, rfl, h8, rfl⟩,
      ⟨_, _, _, _, rfl, ⟨_, rfl, h9, rfl⟩, ⟨_, _, _, _, rfl, ⟨_, rfl, h10, rfl⟩,
        ⟨rfl, rfl⟩, rfl⟩, rfl⟩, rfl⟩, rfl⟩, rfl⟩, rfl⟩, rfl⟩, rfl⟩, rfl⟩, ?_⟩
    simp [fixedPart, s7]

theorem structPack_body (a b c : Bytes) :
    structPack [.s a.length, .s b.length, .s c.length] [.bytes a, .bytes b, .bytes c] = some (a ++ b ++ c) := by
  simp [structPack, Fmt.pack, packS_self]

theorem fixedPart_length (r : Bool) (f : Fields) (cl hl nl : Nat) :
    (fixedPart r f cl hl nl).length = if r then 22 else 20 := by
  cases r <;> simp [fixedPart, s1, s2, s4, be2, be4]

theorem headerSize_eq (c : PkgClass) : c.headerSize = if c.isRequest then 22 else 20 := by
  cases c <;> rfl

/-! ### to_stream -/

/-- the object in the seventh field -/
def Pkg.seventh (p : Pkg) : PyObj := if p.cls.isRequest then p.timeout else .int p.respstatus.code

/-- the numeric fields of a package with given id and seventh field -/
def Pkg.fields (p : Pkg) (id t : Int) : Fields :=
  ⟨p.proto.code, p.ptype.code, p.cmdcode.code, p.ver2.code, id, p.codec.code, t⟩

theorem toStream_ok_iff (p : Pkg) (bs : Bytes) : p.toStream = .ok bs ↔
    ∃ id c t, p.requestId = .int id ∧ p.content = .bytes c ∧ p.seventh = .int t ∧
      Fields.Fit p.cls.isRequest (p.fields id t) ∧ BodyFit p.cls.className p.headerBytes c ∧
      bs = frame p.cls.isRequest (p.fields id t) p.cls.className p.headerBytes c := by
  constructor
  · intro h
    unfold Pkg.toStream Pkg.validate at h
    split at h
    · next id hid =>
      split at h
      · next c hc =>
        simp only [bind, Except.bind] at h
        split at h
        · next out hp =>
          cases h
          change structPack (p.cls.fmt ++ _) ([_, _, _, _, _, _, p.seventh, _, _, _] ++ [_, _, _]) = _ at hp
          rw [structPack_append (by cases p.cls <;> rfl)] at hp
          simp only [Option.bind_eq_bind, Option.bind_eq_some_iff, Option.pure_def, Option.some.injEq] at hp
          obtain ⟨a, ha, b, hb, rfl⟩ := hp
          rw [structPack_fixed] at ha
          obtain ⟨f, cl, hl, nl, e, hf, h8, h9, h10, rfl⟩ := ha
          simp only [fixedArgs, List.cons.injEq, PyObj.int.injEq, and_true, hid] at e
          obtain ⟨e1, e2, e3, e4, e5, e6, e7, e8, e9, e10⟩ := e
          have hcb : p.contentBytes = c := by simp [Pkg.contentBytes, hc]
          rw [hcb, hc, structPack_body] at hb
          cases hb
          have f8 : cl = p.cls.className.length := by omega
          have f9 : hl = p.headerBytes.length := by omega
          have f10 : nl = c.length := by rw [hcb] at e10; omega
          subst f8 f9 f10
          have hfe : p.fields id f.seventh = f := by
            unfold Pkg.fields; rw [e1, e2, e3, e4, e5, e6]
          refine ⟨id, c, f.seventh, hid, hc, e7, hfe ▸ hf, ⟨h8, h9, h10⟩, ?_⟩
          rw [hfe]
          simp [frame]
        · cases h
      · simp only [bind, Except.bind] at h; cases h
    · simp only [bind, Except.bind] at h; cases h
  · rintro ⟨id, c, t, hid, hc, ht, hf, ⟨h8, h9, h10⟩, rfl⟩
    unfold Pkg.toStream Pkg.validate
    have hcb : p.contentBytes = c := by simp [Pkg.contentBytes, hc]
    have hfix : structPack p.cls.fmt (fixedArgs (p.fields id t) p.cls.className.length p.headerBytes.length c.length)
        = some (fixedPart p.cls.isRequest (p.fields id t) p.cls.className.length p.headerBytes.length c.length) :=
      (structPack_fixed _ _ _).2 ⟨_, _, _, _, rfl, hf, h8, h9, h10, rfl⟩
    have hall : structPack (p.cls.fmt ++ [.s p.cls.className.length, .s p.headerBytes.length, .s c.length])
        (fixedArgs (p.fields id t) p.cls.className.length p.headerBytes.length c.length
          ++ [.bytes p.cls.className, .bytes p.headerBytes, .bytes c])
        = some (frame p.cls.isRequest (p.fields id t) p.cls.className p.headerBytes c) := by
      rw [structPack_append (by cases p.cls <;> rfl), hfix, structPack_body]
      simp [frame]
    simp only [hid, hc, hcb, bind, Except.bind]
    change (match structPack (p.cls.fmt ++ _) ([_, _, _, _, _, _, p.seventh, _, _, _] ++ [_, _, _]) with
      | some bs => _ | none => _) = _
    rw [ht]
    simp only [fixedArgs, Pkg.fields] at hall
    rw [hall]
    rfl

theorem toStream_error {p : Pkg} {e : PyExc} (h : p.toStream = .error e) :
    e = .encodeError ∨ e = .paramTypeError := by
  unfold Pkg.toStream Pkg.validate at h
  split at h
  · split at h
    · simp only [bind, Except.bind] at h
      split at h
      · cases h
      · cases h; exact .inl rfl
    · simp only [bind, Except.bind] at h; cases h; exact .inr rfl
  · simp only [bind, Except.bind] at h; cases h; exact .inr rfl

/-! ### from_stream -/

/-- the dict of the fixed header -/
def hdrOf (c : PkgClass) (f : Fields) (cl hl nl : Nat) : BoltHdr :=
  [(.proto, f.proto), (.ptype, f.ptype), (.cmdcode, f.cmdcode), (.ver2, f.ver2), (.requestId, f.requestId),
   (.codec, f.codec), (if c.isRequest then .timeout else .respstatus, f.seventh), (.classLen, cl), (.headerLen, hl),
   (.contentLen, nl)]

theorem fitsAll_fixed (c : PkgClass) (f : Fields) (cl hl nl : Nat) : fitsAll c.fmt (fixedArgs f cl hl nl) := by
  cases c <;> simp [PkgClass.fmt, PkgClass.isRequest, fixedArgs, fitsAll, Fmt.fits]

theorem hdrOf_ofPairs (c : PkgClass) (f : Fields) (cl hl nl : Nat) :
    PyDict.ofPairs (c.boltHeaders.zip ((fixedArgs f cl hl nl).map PyObj.toInt)) = hdrOf c f cl hl nl := by
  cases c <;> rfl

theorem boltHeaderFromStream_ok_iff (c : PkgClass) (bs : Bytes) (h : BoltHdr) :
    boltHeaderFromStream c bs = .ok h ↔ ∃ f cl hl nl, h = hdrOf c f cl hl nl ∧ Fields.Fit c.isRequest f ∧
      cl < 65536 ∧ hl < 65536 ∧ nl < 4294967296 ∧
      bs.take c.headerSize = fixedPart c.isRequest f cl hl nl := by
  unfold boltHeaderFromStream
  constructor
  · intro hh
    split at hh
    · next vals hv =>
      cases hh
      rw [structUnpack_iff, structPack_fixed] at hv
      obtain ⟨_, f, cl, hl, nl, rfl, hf, h8, h9, h10, hb⟩ := hv
      exact ⟨f, cl, hl, nl, hdrOf_ofPairs c f cl hl nl, hf, h8, h9, h10, hb⟩
    · cases hh
  · rintro ⟨f, cl, hl, nl, rfl, hf, h8, h9, h10, hb⟩
    have : structUnpack c.fmt (bs.take c.headerSize) = some (fixedArgs f cl hl nl) := by
      rw [structUnpack_iff, structPack_fixed]
      exact ⟨fitsAll_fixed c f cl hl nl, f, cl, hl, nl, rfl, hf, h8, h9, h10, hb⟩
    rw [this]
    simp only [hdrOf_ofPairs]

theorem boltHeaderFromStream_error {c : PkgClass} {bs : Bytes} {e : PyExc}
    (h : boltHeaderFromStream c bs = .error e) : e = .decodeError := by
  unfold boltHeaderFromStream at h
  split at h
  · cases h
  · cases h; rfl

/-- the header is parsed on every stream of at least the header size -/
theorem boltHeaderFromStream_total (c : PkgClass) (bs : Bytes) (h : c.headerSize ≤ bs.length) :
    ∃ hd, boltHeaderFromStream c bs = .ok hd := by
  unfold boltHeaderFromStream structUnpack
  rw [if_pos (by rw [List.length_take]; unfold PkgClass.headerSize at *; omega)]
  exact ⟨_, rfl⟩

theorem structUnpack_body (a b c : Bytes) (cl hl nl : Nat) (s : Bytes) :
    structUnpack [.s cl, .s hl, .s nl] s = some [.bytes a, .bytes b, .bytes c] ↔
      a.length = cl ∧ b.length = hl ∧ c.length = nl ∧ s = a ++ b ++ c := by
  rw [structUnpack_iff]
  simp only [fitsAll, Fmt.fits, and_true]
  constructor
  · rintro ⟨⟨rfl, rfl, rfl⟩, h⟩
    rw [structPack_body] at h
    cases h; exact ⟨rfl, rfl, rfl, rfl⟩
  · rintro ⟨rfl, rfl, rfl, rfl⟩
    exact ⟨⟨rfl, rfl, rfl⟩, structPack_body a b c⟩

theorem boltContentRaw_hdrOf (c : PkgClass) (s : Bytes) (f : Fields) (cl hl nl : Nat) :
    boltContentRaw c s (hdrOf c f cl hl nl) =
      match structUnpack [.s cl, .s hl, .s nl] s with
      | some [.bytes _, .bytes header, .bytes content] => do
        let d ← headerFromBytes header
        mkPkg c (strHeader d) (.bytes content) (argsOfHdr (hdrOf c f cl hl nl))
      | _ => .error .structError := by
  cases c <;> rfl

theorem argsOfHdr_hdrOf (c : PkgClass) (f : Fields) (cl hl nl : Nat) :
    argsOfHdr (hdrOf c f cl hl nl) =
      { proto := some f.proto, ptype := some f.ptype, cmdcode := some f.cmdcode, ver2 := some f.ver2,
        requestId := .int f.requestId, codec := some f.codec,
        timeout := if c.isRequest then .int f.seventh else .none,
        respstatus := if c.isRequest then some 0 else some f.seventh } := by
  cases c <;> rfl

/-! ### enums and the constructor -/

theorem Proto.of_iff (i : Int) (x : Proto) : Proto.of i = some x ↔ x.code = i := by
  cases x; simp [Proto.of, Proto.code, eq_comm]
theorem PType.of_iff (i : Int) (x : PType) : PType.of i = some x ↔ x.code = i := by
  unfold PType.of; cases x <;> simp only [PType.code] <;> repeat' split
  all_goals simp <;> omega
theorem CmdCode.of_iff (i : Int) (x : CmdCode) : CmdCode.of i = some x ↔ x.code = i := by
  unfold CmdCode.of; cases x <;> simp only [CmdCode.code] <;> repeat' split
  all_goals simp <;> omega
theorem Ver2.of_iff (i : Int) (x : Ver2) : Ver2.of i = some x ↔ x.code = i := by
  cases x; simp [Ver2.of, Ver2.code, eq_comm]
theorem Codec.of_iff (i : Int) (x : Codec) : Codec.of i = some x ↔ x.code = i := by
  unfold Codec.of; cases x <;> simp only [Codec.code] <;> repeat' split
  all_goals simp <;> omega
theorem RespStatus.of_code (x : RespStatus) : RespStatus.of x.code = some x := by
  cases x <;> rfl
theorem RespStatus.of_iff (i : Int) (x : RespStatus) : RespStatus.of i = some x ↔ x.code = i := by
  constructor
  · intro h
    unfold RespStatus.of at h
    by_cases e0 : i = 0
    · rw [if_pos e0] at h; cases h; exact e0.symm
    rw [if_neg e0] at h
    by_cases e1 : i = 1
    · rw [if_pos e1] at h; cases h; exact e1.symm
    rw [if_neg e1] at h
    by_cases e2 : i = 2
    · rw [if_pos e2] at h; cases h; exact e2.symm
    rw [if_neg e2] at h
    by_cases e3 : i = 3
    · rw [if_pos e3] at h; cases h; exact e3.symm
    rw [if_neg e3] at h
    by_cases e4 : i = 4
    · rw [if_pos e4] at h; cases h; exact e4.symm
    rw [if_neg e4] at h
    by_cases e5 : i = 5
    · rw [if_pos e5] at h; cases h; exact e5.symm
    rw [if_neg e5] at h
    by_cases e6 : i = 6
    · rw [if_pos e6] at h; cases h; exact e6.symm
    rw [if_neg e6] at h
    by_cases e7 : i = 7
    · rw [if_pos e7] at h; cases h; exact e7.symm
    rw [if_neg e7] at h
    by_cases e8 : i = 8
    · rw [if_pos e8] at h; cases h; exact e8.symm
    rw [if_neg e8] at h
    by_cases e9 : i = 9
    · rw [if_pos e9] at h; cases h; exact e9.symm
    rw [if_neg e9] at h
    by_cases e10 : i = 16
    · rw [if_pos e10] at h; cases h; exact e10.symm
    rw [if_neg e10] at h
    by_cases e11 : i = 17
    · rw [if_pos e11] at h; cases h; exact e11.symm
    rw [if_neg e11] at h
    by_cases e12 : i = 18
    · rw [if_pos e12] at h; cases h; exact e12.symm
    rw [if_neg e12] at h
    cases h
  · rintro rfl; exact RespStatus.of_code x

theorem enumOf_iff {α : Type} (f : Int → Option α) (code : α → Int) (hf : ∀ i x, f i = some x ↔ code x = i)
    (o : Option Int) (a : α) : enumOf f o = .ok a ↔ o = some (code a) := by
  unfold enumOf
  cases o with
  | none => simp
  | some i =>
    simp only [Option.bind_some, Option.some.injEq]
    constructor
    · intro h
      split at h
      · next x hx => cases h; exact ((hf _ _).1 hx).symm
      · cases h
    · rintro rfl
      rw [(hf _ _).2 rfl]

theorem mkPkg_ok_iff (cls : PkgClass) (header : SofaHeader) (content : PyObj) (a : PkgArgs) (p : Pkg) :
    mkPkg cls header content a = .ok p ↔
      p.cls = cls ∧ p.header = header ∧ headerToBytes header = .ok p.headerBytes ∧ p.content = content ∧
      a.proto = some p.proto.code ∧ a.ptype = some p.ptype.code ∧ a.cmdcode = some p.cmdcode.code ∧
      a.ver2 = some p.ver2.code ∧ p.requestId = a.requestId ∧ a.codec = some p.codec.code ∧
      p.timeout = PyObj.or a.timeout (.int 0) ∧ a.respstatus = some p.respstatus.code := by
  unfold mkPkg
  simp only [← enumOf_iff _ _ Proto.of_iff, ← enumOf_iff _ _ PType.of_iff, ← enumOf_iff _ _ CmdCode.of_iff,
    ← enumOf_iff _ _ Ver2.of_iff, ← enumOf_iff _ _ Codec.of_iff, ← enumOf_iff _ _ RespStatus.of_iff]
  cases h1 : headerToBytes header with
  | error e => simp [bind, Except.bind]
  | ok hb =>
  cases h2 : enumOf Proto.of a.proto with
  | error e => simp [bind, Except.bind]
  | ok x2 =>
  cases h3 : enumOf PType.of a.ptype with
  | error e => simp [bind, Except.bind]
  | ok x3 =>
  cases h4 : enumOf CmdCode.of a.cmdcode with
  | error e => simp [bind, Except.bind]
  | ok x4 =>
  cases h5 : enumOf Ver2.of a.ver2 with
  | error e => simp [bind, Except.bind]
  | ok x5 =>
  cases h6 : enumOf Codec.of a.codec with
  | error e => simp [bind, Except.bind]
  | ok x6 =>
  cases h7 : enumOf RespStatus.of a.respstatus with
  | error e => simp [bind, Except.bind]
  | ok x7 =>
  obtain ⟨a1, a2, a3, a4, a5, a6, a7, a8, a9, a10, a11, a12⟩ := p
  simp only [bind, Except.bind, pure, Except.pure, Except.ok.injEq, Pkg.mk.injEq]
  constructor
  · rintro ⟨rfl, rfl, rfl, rfl, -, rfl, rfl, -, rfl, rfl, rfl, rfl⟩; simp
  · rintro ⟨rfl, rfl, rfl, rfl, -, rfl, rfl, -, rfl, rfl, rfl, rfl⟩; simp

/-! ### re-serialising a parsed header always works -/

/-- a string the wire format can carry -/
def WireStr (s : PyStr) : Prop := ∃ b, utf8Encode s = some b ∧ b.length < 2 ^ 31

theorem wireStr_of_item {a : Bytes} {s : PyStr} (h : HItem a s) : WireStr s := by
  cases h with
  | str body _ h1 h2 => exact ⟨body, h2, h1⟩
  | null => exact ⟨[], rfl, by decide⟩

theorem wireStr_of_items {b : Bytes} {ss : List PyStr} (h : HItems b ss) : ∀ s ∈ ss, WireStr s := by
  induction h with
  | nil => simp
  | cons ha _ ih =>
    intro s hs
    rcases List.mem_cons.1 hs with rfl | hs
    · exact wireStr_of_item ha
    · exact ih s hs

theorem headerToBytes_of_wireStr {d : PyDict PyStr PyStr} (h : ∀ kv ∈ d, WireStr kv.1 ∧ WireStr kv.2) :
    ∃ b, headerToBytes (strHeader d) = .ok b := by
  induction d with
  | nil => exact ⟨[], rfl⟩
  | cons a d ih =>
    obtain ⟨k, v⟩ := a
    obtain ⟨b, hb⟩ := ih (fun kv hkv => h kv (List.mem_cons_of_mem _ hkv))
    obtain ⟨⟨x, hx1, hx2⟩, ⟨y, hy1, hy2⟩⟩ := h (k, v) (by simp)
    refine ⟨be4 x.length ++ x ++ (be4 y.length ++ y) ++ b, ?_⟩
    change headerToBytes ((k, .str v) :: strHeader d) = _
    rw [headerToBytes_cons_str, strToBytesWithLen_ok hx1 hx2, strToBytesWithLen_ok hy1 hy2, hb]
    rfl

theorem mem_update {K V : Type} [DecidableEq K] {d : PyDict K V} {kvs : List (K × V)} {kv : K × V}
    (h : kv ∈ PyDict.update d kvs) : (kv ∈ d ∨ kv ∈ kvs) ∨
      (∃ v, (kv.1, v) ∈ d) ∧ ∃ k, (k, kv.2) ∈ kvs ∧ k = kv.1 := by
  induction kvs generalizing d with
  | nil => exact .inl (.inl h)
  | cons a kvs ih =>
    obtain ⟨k, v⟩ := a
    rw [PyDict.update_cons] at h
    have hset : ∀ x ∈ PyDict.set d k v, x ∈ d ∨ x = (k, v) := by
      intro x hx
      clear h ih
      induction d with
      | nil => simp [PyDict.set] at hx; exact .inr hx
      | cons b d ihd =>
        obtain ⟨k', v'⟩ := b
        by_cases e : k' = k
        · simp only [PyDict.set, e, if_true] at hx
          rcases List.mem_cons.1 hx with hx | hx
          · exact .inr hx
          · exact .inl (List.mem_cons_of_mem _ hx)
        · simp only [PyDict.set, e, if_false] at hx
          rcases List.mem_cons.1 hx with hx | hx
          · exact .inl (hx ▸ List.mem_cons_self)
          · rcases ihd hx with h | h
            · exact .inl (List.mem_cons_of_mem _ h)
            · exact .inr h
    rcases ih h with (h1 | h1) | ⟨⟨v', h1⟩, k2, h2, h3⟩
    · rcases hset _ h1 with h | h
      · exact .inl (.inl h)
      · exact .inl (.inr (h ▸ List.mem_cons_self))
    · exact .inl (.inr (List.mem_cons_of_mem _ h1))
    · refine .inl (.inr ?_)
      subst h3
      exact List.mem_cons_of_mem _ h2

theorem mem_ofPairs {K V : Type} [DecidableEq K] {kvs : List (K × V)} {kv : K × V}
    (h : kv ∈ PyDict.ofPairs kvs) : kv ∈ kvs := by
  rcases mem_update h with (h | h) | ⟨⟨v, h⟩, _⟩
  · simp at h
  · exact h
  · simp at h

theorem mem_flatten {kvs : List (PyStr × PyStr)} {kv : PyStr × PyStr} (h : kv ∈ kvs) :
    kv.1 ∈ flatten kvs ∧ kv.2 ∈ flatten kvs := by
  induction kvs with
  | nil => simp at h
  | cons a kvs ih =>
    obtain ⟨k, v⟩ := a
    rcases List.mem_cons.1 h with rfl | h
    · simp [flatten]
    · have := ih h
      simp [flatten, this]

theorem headerToBytes_fromBytes {b : Bytes} {d : PyDict PyStr PyStr} (h : headerFromBytes b = .ok d) :
    ∃ b', headerToBytes (strHeader d) = .ok b' := by
  obtain ⟨kvs, h1, rfl⟩ := headerFromBytes_ok h
  apply headerToBytes_of_wireStr
  intro kv hkv
  have hm := mem_flatten (mem_ofPairs hkv)
  exact ⟨wireStr_of_items h1 _ hm.1, wireStr_of_items h1 _ hm.2⟩

/-! ### the decoder accepts exactly the frames -/

/-- `p` is what a frame with fields `f`, header mapping `d` and content `c` decodes to -/
structure DecodesTo (k : PkgClass) (f : Fields) (d : PyDict PyStr PyStr) (c : Bytes) (p : Pkg) : Prop where
  cls : p.cls = k
  header : p.header = strHeader d
  headerBytes : headerToBytes (strHeader d) = .ok p.headerBytes
  content : p.content = .bytes c
  proto : p.proto.code = f.proto
  ptype : p.ptype.code = f.ptype
  cmdcode : p.cmdcode.code = f.cmdcode
  ver2 : p.ver2.code = f.ver2
  requestId : p.requestId = .int f.requestId
  codec : p.codec.code = f.codec
  timeout : p.timeout = .int (if k.isRequest then f.seventh else 0)
  respstatus : p.respstatus.code = if k.isRequest then 0 else f.seventh

theorem mkPkg_decodesTo (cls : PkgClass) (f : Fields) (cl hl nl : Nat) (d : PyDict PyStr PyStr) (c : Bytes)
    (p : Pkg) : mkPkg cls (strHeader d) (.bytes c) (argsOfHdr (hdrOf cls f cl hl nl)) = .ok p ↔
      DecodesTo cls f d c p := by
  rw [mkPkg_ok_iff, argsOfHdr_hdrOf]
  have ht : PyObj.or (if cls.isRequest then PyObj.int f.seventh else .none) (.int 0) =
      .int (if cls.isRequest then f.seventh else 0) := by
    cases cls.isRequest
    · rfl
    · simp only [if_true, PyObj.or, PyObj.truthy]
      by_cases h : f.seventh = 0
      · simp [h]
      · simp [h]
  have hr : ((if cls.isRequest then some (0 : Int) else some f.seventh) = some p.respstatus.code) ↔
      p.respstatus.code = if cls.isRequest then 0 else f.seventh := by
    cases cls.isRequest <;> simp [eq_comm]
  simp only [ht, hr, Option.some.injEq]
  constructor
  · rintro ⟨h1, h2, h3, h4, h5, h6, h7, h8, h9, h10, h11, h12⟩
    exact ⟨h1, h2, h3, h4, h5.symm, h6.symm, h7.symm, h8.symm, h9, h10.symm, h11, h12⟩
  · rintro ⟨h1, h2, h3, h4, h5, h6, h7, h8, h9, h10, h11, h12⟩
    exact ⟨h1, h2, h3, h4, h5.symm, h6.symm, h7.symm, h8.symm, h9, h10.symm, h11, h12⟩

theorem fitsAll_body {cl hl nl : Nat} {vs : List PyObj} {s : Bytes}
    (h : structUnpack [.s cl, .s hl, .s nl] s = some vs) :
    ∃ a b c, vs = [.bytes a, .bytes b, .bytes c] := by
  have h2 := structUnpack_length h
  unfold structUnpack at h
  rw [if_pos h2] at h
  cases h
  exact ⟨_, _, _, rfl⟩

theorem boltContent_ok_iff (c : PkgClass) (s : Bytes) (f : Fields) (cl hl nl : Nat) (p : Pkg) :
    boltContentFromStream c s (hdrOf c f cl hl nl) = .ok p ↔
      ∃ cn hb ct d, s = cn ++ hb ++ ct ∧ cn.length = cl ∧ hb.length = hl ∧ ct.length = nl ∧
        headerFromBytes hb = .ok d ∧ DecodesTo c f d ct p := by
  have key : boltContentFromStream c s (hdrOf c f cl hl nl) = .ok p ↔
      boltContentRaw c s (hdrOf c f cl hl nl) = .ok p := by
    unfold boltContentFromStream
    cases boltContentRaw c s (hdrOf c f cl hl nl) <;> simp
  rw [key, boltContentRaw_hdrOf]
  constructor
  · intro h
    cases hu : structUnpack [.s cl, .s hl, .s nl] s with
    | none => rw [hu] at h; cases h
    | some vs =>
      obtain ⟨cn, hb, ct, rfl⟩ := fitsAll_body hu
      rw [hu] at h
      rw [structUnpack_body] at hu
      obtain ⟨h1, h2, h3, h4⟩ := hu
      cases hd : headerFromBytes hb with
      | error e => simp [hd, bind, Except.bind] at h
      | ok d =>
        simp only [hd, bind, Except.bind] at h
        exact ⟨cn, hb, ct, d, h4, h1, h2, h3, hd, (mkPkg_decodesTo _ _ _ _ _ _ _ _).1 h⟩
  · rintro ⟨cn, hb, ct, d, h4, h1, h2, h3, hd, hp⟩
    rw [(structUnpack_body cn hb ct cl hl nl s).2 ⟨h1, h2, h3, h4⟩]
    simp only [hd, bind, Except.bind]
    exact (mkPkg_decodesTo _ _ _ _ _ _ _ _).2 hp

theorem fromStream_ok_iff (c : PkgClass) (bs : Bytes) (p : Pkg) : fromStream c bs = .ok p ↔
    ∃ f cn hb ct d, bs = frame c.isRequest f cn hb ct ∧ Fields.Fit c.isRequest f ∧ BodyFit cn hb ct ∧
      headerFromBytes hb = .ok d ∧ DecodesTo c f d ct p := by
  unfold fromStream
  constructor
  · intro h
    cases hh : boltHeaderFromStream c bs with
    | error e => simp [hh, bind, Except.bind] at h
    | ok bh =>
      simp only [hh, bind, Except.bind] at h
      rw [boltHeaderFromStream_ok_iff] at hh
      obtain ⟨f, cl, hl, nl, rfl, hf, h8, h9, h10, hb⟩ := hh
      rw [boltContent_ok_iff] at h
      obtain ⟨cn, hb', ct, d, e, rfl, rfl, rfl, hd, hp⟩ := h
      refine ⟨f, cn, hb', ct, d, ?_, hf, ⟨h8, h9, h10⟩, hd, hp⟩
      rw [← List.take_append_drop c.headerSize bs, hb, e]
      simp [frame]
  · rintro ⟨f, cn, hb, ct, d, rfl, hf, ⟨h8, h9, h10⟩, hd, hp⟩
    have hl : (fixedPart c.isRequest f cn.length hb.length ct.length).length = c.headerSize := by
      rw [fixedPart_length, headerSize_eq]
    have hassoc : frame c.isRequest f cn hb ct =
        fixedPart c.isRequest f cn.length hb.length ct.length ++ (cn ++ hb ++ ct) := by simp [frame]
    have hh : boltHeaderFromStream c (frame c.isRequest f cn hb ct) =
        .ok (hdrOf c f cn.length hb.length ct.length) := by
      rw [boltHeaderFromStream_ok_iff]
      refine ⟨f, _, _, _, rfl, hf, h8, h9, h10, ?_⟩
      rw [hassoc, ← hl, List.take_left]
    simp only [hh, bind, Except.bind]
    rw [boltContent_ok_iff]
    refine ⟨cn, hb, ct, d, ?_, rfl, rfl, rfl, hd, hp⟩
    rw [hassoc, ← hl, List.drop_left]

theorem fromStream_error {c : PkgClass} {bs : Bytes} {e : PyExc} (h : fromStream c bs = .error e) :
    e = .decodeError := by
  unfold fromStream at h
  cases hh : boltHeaderFromStream c bs with
  | error e' =>
    simp only [hh, bind, Except.bind] at h
    cases h; exact boltHeaderFromStream_error hh
  | ok bh =>
    simp only [hh, bind, Except.bind] at h
    unfold boltContentFromStream at h
    split at h
    · cases h
    · cases h; rfl

/-- decoding is a function of the frame: the fields and parts are determined -/
theorem frame_length (r : Bool) (f : Fields) (cn hb ct : Bytes) :
    (frame r f cn hb ct).length = (if r then 22 else 20) + cn.length + hb.length + ct.length := by
  simp only [frame, List.length_append, fixedPart_length]

end Bolt
