import Verif.Props.Wire
import Verif.Props.Header
/-!
# C89, C90: re-encoding of received packages, streams of frames
-/
namespace Bolt
open Spec

/-- the wire length of a header mapping -/
def Spec.mapLen (d : List (PyStr × PyStr)) : Nat :=
  (d.map (fun kv => 8 + Spec.utf8Len kv.1 + Spec.utf8Len kv.2)).sum

theorem mapLen_set (d : PyDict PyStr PyStr) (k v : PyStr) :
    mapLen (PyDict.set d k v) ≤ mapLen d + mapLen [(k, v)] := by
  induction d with
  | nil => simp [PyDict.set, mapLen]
  | cons a d ih =>
    obtain ⟨k', v'⟩ := a
    by_cases e : k' = k
    · simp only [PyDict.set, e, if_true, mapLen, List.map_cons, List.sum_cons, List.map_nil, List.sum_nil]
      omega
    · simp only [PyDict.set, e, if_false, mapLen, List.map_cons, List.sum_cons, List.map_nil, List.sum_nil] at ih ⊢
      omega

theorem mapLen_update (d : PyDict PyStr PyStr) (kvs : List (PyStr × PyStr)) :
    mapLen (PyDict.update d kvs) ≤ mapLen d + mapLen kvs := by
  induction kvs generalizing d with
  | nil => exact Nat.le_refl _
  | cons a kvs ih =>
    obtain ⟨k, v⟩ := a
    rw [PyDict.update_cons]
    have h1 := ih (PyDict.set d k v)
    have h2 := mapLen_set d k v
    simp only [mapLen, List.map_cons, List.sum_cons, List.map_nil, List.sum_nil] at h1 h2 ⊢
    omega

theorem mapLen_ofPairs (kvs : List (PyStr × PyStr)) : mapLen (PyDict.ofPairs kvs) ≤ mapLen kvs := by
  have := mapLen_update [] kvs
  simpa [mapLen, PyDict.ofPairs] using this

theorem item_length {a : Bytes} {s : PyStr} (h : HItem a s) : a.length = 4 + Spec.utf8Len s := by
  cases h with
  | str body _ h1 h2 => simp [be4, Spec.utf8Len, h2]; omega
  | null => rfl

theorem items_length {b : Bytes} {ss : List PyStr} (h : HItems b ss) :
    b.length = (ss.map (fun s => 4 + Spec.utf8Len s)).sum := by
  induction h with
  | nil => rfl
  | cons ha _ ih => simp [item_length ha, ih]

theorem flatten_length (kvs : List (PyStr × PyStr)) :
    ((Spec.flatten kvs).map (fun s => 4 + Spec.utf8Len s)).sum = mapLen kvs := by
  induction kvs with
  | nil => rfl
  | cons a kvs ih =>
    obtain ⟨k, v⟩ := a
    simp only [Spec.flatten, List.map_cons, List.sum_cons, ih, mapLen]
    omega

/-- serialising a parsed header never takes more bytes than were parsed -/
theorem reserialised_length {hb b : Bytes} {d : PyDict PyStr PyStr} (h : headerFromBytes hb = .ok d)
    (hb' : headerToBytes (strHeader d) = .ok b) : b.length ≤ hb.length := by
  obtain ⟨kvs, h1, rfl⟩ := headerFromBytes_ok h
  obtain ⟨kvs', e, h2⟩ := headerToBytes_items hb'
  have : kvs' = PyDict.ofPairs kvs := by
    simp only [strHeader] at e
    have inj : ∀ l l' : List (PyStr × PyStr), l.map (fun kv => (kv.1, PyObj.str kv.2)) =
        l'.map (fun kv => (kv.1, PyObj.str kv.2)) → l = l' := by
      intro l
      induction l with
      | nil => intro l' h; cases l' with | nil => rfl | cons _ _ => simp at h
      | cons a l ih =>
        intro l' h
        cases l' with
        | nil => simp at h
        | cons a' l' =>
          simp only [List.map_cons, List.cons.injEq, Prod.mk.injEq, PyObj.str.injEq] at h
          rw [ih l' h.2, Prod.ext h.1.1 h.1.2]
    exact (inj _ _ e).symm
  subst this
  rw [items_length h2, items_length h1, flatten_length, flatten_length]
  exact mapLen_ofPairs kvs

/-- the class name a package object of this class writes on the wire -/
def Spec.standardName (isRequest : Bool) : Bytes :=
  if isRequest then pyb "com.alipay.sofa.rpc.core.request.SofaRequest"
  else pyb "com.alipay.sofa.rpc.core.response.SofaResponse"

/-- C89 (re-encoding): whatever `BoltRequest.from_stream` / `BoltResponse.from_stream` accepts can be encoded again,
never to more header bytes, and decodes to the identical package. The bytes come back unchanged exactly when the sender
used the standard class name and the canonical header encoding (no repeated keys, no nulls). -/
theorem C89_reencode (cls : PkgClass) (hc : cls = .boltRequest ∨ cls = .boltResponse) (bs : Bytes) (p : Pkg)
    (h : fromStream cls bs = .ok p) :
    ∃ bs', p.toStream = .ok bs' ∧ fromStream cls bs' = .ok p ∧
      (∀ f cn hb ct, Fields.Fit cls.isRequest f → BodyFit cn hb ct → bs = frame cls.isRequest f cn hb ct →
        p.headerBytes.length ≤ hb.length ∧
        bs' = frame cls.isRequest f (standardName cls.isRequest) p.headerBytes ct ∧
        (bs' = bs ↔ cn = standardName cls.isRequest ∧ hb = p.headerBytes)) := by
  rw [fromStream_ok_iff] at h
  obtain ⟨f, cn, hb, ct, d, rfl, hf, hbody, hd, hp⟩ := h
  have hlen : p.headerBytes.length ≤ hb.length := reserialised_length hd hp.headerBytes
  have hname : standardName cls.isRequest = cls.className := by
    rcases hc with rfl | rfl <;> rfl
  have hbody' : BodyFit cls.className p.headerBytes ct :=
    ⟨className_length _, Nat.lt_of_le_of_lt hlen hbody.2.1, hbody.2.2⟩
  have hs : p.toStream = .ok (frame cls.isRequest f cls.className p.headerBytes ct) := by
    have hfields : p.fields f.requestId f.seventh = f := by
      cases f
      simp only [Pkg.fields, hp.proto, hp.ptype, hp.cmdcode, hp.ver2, hp.codec]
    rw [toStream_ok_iff]
    refine ⟨f.requestId, ct, f.seventh, hp.requestId, hp.content, ?_, ?_, ?_, ?_⟩
    · unfold Pkg.seventh
      rw [hp.cls]
      have h1 := hp.timeout
      have h2 := hp.respstatus
      split
      · next hr => rw [hr] at h1; exact h1
      · next hr => rw [if_neg hr] at h2; rw [h2]
    · rw [hfields, hp.cls]; exact hf
    · rw [hp.cls]; exact hbody'
    · rw [hfields, hp.cls]
  obtain ⟨d', hd', e⟩ := headerFromBytes_toBytes (hd := strHeader d)
    (by
      obtain ⟨kvs, -, rfl⟩ := headerFromBytes_ok hd
      have := PyDict.nodup_ofPairs kvs
      unfold PyDict.NodupKeys at *
      simpa [strHeader, Function.comp_def] using this) hp.headerBytes
  refine ⟨_, hs, ?_, ?_⟩
  · rw [fromStream_ok_iff]
    refine ⟨f, cls.className, p.headerBytes, ct, d', rfl, hf, hbody', hd', ?_⟩
    exact ⟨hp.cls, by rw [e]; exact hp.header, by rw [e]; exact hp.headerBytes, hp.content, hp.proto, hp.ptype,
      hp.cmdcode, hp.ver2, hp.requestId, hp.codec, hp.timeout, hp.respstatus⟩
  · intro f2 cn2 hb2 ct2 hf2 hbody2 e2
    obtain ⟨rfl, rfl, rfl, rfl⟩ := frame_inj e2 hf hf2 hbody hbody2
    refine ⟨hlen, by rw [hname], ?_, ?_⟩
    · intro e3
      obtain ⟨-, h1, h2, -⟩ := frame_inj e3 hf hf hbody' hbody
      exact ⟨by rw [hname, h1], h2.symm⟩
    · rintro ⟨h1, h2⟩
      rw [h1, hname, ← h2]

/-- C90 (frames delimit themselves): a byte stream is a concatenation of accepted frames in at most one way, so two
sequences of packages with the same stream are the same sequence. -/
theorem C90_unique_split (cls : PkgClass) (l l' : List Bytes)
    (h : ∀ b ∈ l, ∃ p, fromStream cls b = .ok p) (h' : ∀ b ∈ l', ∃ p, fromStream cls b = .ok p)
    (e : l.flatten = l'.flatten) : l = l' ∧ l.map (fromStream cls) = l'.map (fromStream cls) := by
  have dl : ∀ b q, fromStream cls b = .ok q → ∀ rest, Spec.declaredLength cls.isRequest (b ++ rest) = b.length := by
    intro b q hb rest
    rw [fromStream_ok_iff] at hb
    obtain ⟨f, cn, hb', ct, d, rfl, hf, hbody, -, -⟩ := hb
    exact declaredLength_frame _ f cn hb' ct hbody rest
  have pos : ∀ b q, fromStream cls b = .ok q → b ≠ [] := by
    intro b q hb e
    subst e
    rw [fromStream_ok_iff] at hb
    obtain ⟨f, cn, hb', ct, d, e, -⟩ := hb
    have := congrArg List.length e
    rw [frame_length] at this
    simp only [List.length_nil] at this
    split at this <;> omega
  have key : l = l' := by
    induction l generalizing l' with
    | nil =>
      cases l' with
      | nil => rfl
      | cons b l' =>
        obtain ⟨q, hq⟩ := h' b (by simp)
        exact absurd (List.append_eq_nil_iff.1 e.symm).1 (pos b q hq)
    | cons a l ih =>
      obtain ⟨p, hp⟩ := h a (by simp)
      cases l' with
      | nil => exact absurd (List.append_eq_nil_iff.1 e).1 (pos a p hp)
      | cons b l' =>
        obtain ⟨q, hq⟩ := h' b (by simp)
        simp only [List.flatten_cons] at e
        have h1 := dl a p hp l.flatten
        have h2 := dl b q hq l'.flatten
        rw [← e, h1] at h2
        obtain ⟨rfl, e2⟩ := List.append_inj e h2
        rw [ih l' (fun b hb => h b (List.mem_cons_of_mem _ hb)) (fun b hb => h' b (List.mem_cons_of_mem _ hb)) e2]
  exact ⟨key, by rw [key]⟩

/-- a response with a foreign class name and a header that repeats a key and has a null: accepted, and re-encoded to
shorter bytes -/
example : ∃ p, fromStream .boltResponse (frame false ⟨1, 0, 2, 1, 9, 11, 7⟩ [65]
      ([0, 0, 0, 1, 97, 0, 0, 0, 1, 98] ++ [0, 0, 0, 1, 97, 0xff, 0xff, 0xff, 0xff]) [66]) = .ok p ∧
    p.headerBytes = [0, 0, 0, 1, 97, 0, 0, 0, 0] := by
  have hi : HItems ([0, 0, 0, 1, 97, 0, 0, 0, 1, 98] ++ [0, 0, 0, 1, 97, 0xff, 0xff, 0xff, 0xff])
      (Spec.flatten [([97], [98]), ([97], [])]) := by
    have := HItems.cons (.str [97] [97] (by decide) (by decide)) (.cons (.str [98] [98] (by decide) (by decide))
      (.cons (.str [97] [97] (by decide) (by decide)) (.cons .null .nil)))
    exact this
  obtain ⟨q, hq, hb⟩ : ∃ q, mkPkg .boltResponse (strHeader (PyDict.ofPairs [([97], [98]), ([97], [])])) (.bytes [66])
      (argsOfHdr (hdrOf .boltResponse ⟨1, 0, 2, 1, 9, 11, 7⟩ 1 19 1)) = .ok q ∧
      q.headerBytes = [0, 0, 0, 1, 97, 0, 0, 0, 0] := ⟨_, rfl, rfl⟩
  exact ⟨q, (fromStream_ok_iff .boltResponse _ q).2 ⟨⟨1, 0, 2, 1, 9, 11, 7⟩, _, _, _, _, rfl,
    ⟨by decide, by decide, by decide, by decide, by decide, by decide, by decide⟩, by decide,
    headerFromBytes_flatten hi, (mkPkg_decodesTo _ _ _ _ _ _ _ _).1 hq⟩, hb⟩

end Bolt
