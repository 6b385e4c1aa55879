import Verif.Lemmas.Package
/-!
# C08-C13, C18: header mappings
-/
namespace Bolt
open Spec

/-- C08 (header round trip): parsing the serialised form gives back the same mapping in the same order, for every
header that serialises. -/
theorem C08_header_roundtrip (hd : SofaHeader) (hn : PyDict.NodupKeys hd) (b : Bytes)
    (h : headerToBytes hd = .ok b) : ∃ d, headerFromBytes b = .ok d ∧ strHeader d = hd :=
  headerFromBytes_toBytes hn h

/-- ... and every mapping of UTF-8 encodable strings shorter than 2 GiB serialises (surrogates excluded). -/
theorem C08_header_serialises (d : PyDict PyStr PyStr)
    (h : ∀ kv ∈ d, (∃ b, utf8Encode kv.1 = some b ∧ b.length < 2 ^ 31) ∧
      (∃ b, utf8Encode kv.2 = some b ∧ b.length < 2 ^ 31)) :
    ∃ b, headerToBytes (strHeader d) = .ok b :=
  headerToBytes_of_wireStr h

example : ∃ b, headerToBytes [(py "", .str (py "")), (py "k", .str [0x4e2d, 0x1F600])] = .ok b := ⟨_, rfl⟩

/-- C09 (grammar): parsing returns a mapping exactly when the bytes are an even-length concatenation of items of the
format `Spec.HItem`; every other input raises DecodeError or UnicodeDecodeError; at most one item per four bytes is
read (termination bound). -/
theorem C09_parse_grammar (b : Bytes) :
    ((∃ d, headerFromBytes b = .ok d) ↔ ∃ kvs, HItems b (flatten kvs)) ∧
    (∀ kvs, HItems b (flatten kvs) → headerFromBytes b = .ok (PyDict.ofPairs kvs)) ∧
    (∀ e, headerFromBytes b = .error e → e = .decodeError ∨ e = .unicodeDecodeError) ∧
    (∀ ss, bytesToStr b = .ok ss → 4 * ss.length ≤ b.length) := by
  refine ⟨⟨?_, ?_⟩, fun kvs h => headerFromBytes_flatten h, fun e h => headerFromBytes_error h, ?_⟩
  · rintro ⟨d, hd⟩
    obtain ⟨kvs, h, -⟩ := headerFromBytes_ok hd
    exact ⟨kvs, h⟩
  · rintro ⟨kvs, h⟩; exact ⟨_, headerFromBytes_flatten h⟩
  · intro ss h
    exact (items_of_bytesToStr b h).length_le

/-- `flatten` reaches exactly the even-length lists, so C09 speaks of all even-length item sequences. -/
theorem C09_flatten_even (ss : List PyStr) : (∃ kvs, ss = flatten kvs) ↔ ss.length % 2 = 0 := by
  constructor
  · rintro ⟨kvs, rfl⟩
    induction kvs with
    | nil => rfl
    | cons a r ih => simp only [flatten, List.length_cons]; omega
  · intro h
    have : (evens ss).length = (odds ss).length := by
      fun_induction evens ss with
      | case1 => rfl
      | case2 a => simp at h
      | case3 a b r ih => simp only [odds, List.length_cons]; rw [ih (by simp at h; omega)]
    obtain ⟨kvs, h1, -⟩ := flatten_of_lengths ss this
    exact ⟨kvs, h1⟩

example : HItems ([0, 0, 0, 1, 65] ++ ([0xff, 0xff, 0xff, 0xff] ++ [])) (flatten [(py "A", [])]) :=
  .cons (.str [65] (py "A") (by decide) rfl) (.cons .null .nil)

/-- C10 (Java null): after any well-formed items, the null marker contributes exactly one empty string and consumes
exactly four bytes; any other negative length is DecodeError, whatever follows. -/
theorem C10_java_null (a : Bytes) (ss : List PyStr) (ha : HItems a ss) (r : Bytes) :
    (bytesToStr (a ++ ([0xff, 0xff, 0xff, 0xff] ++ r)) = (bytesToStr r).map (fun rs => ss ++ [] :: rs)) ∧
    (∀ n : Int, -2 ^ 31 ≤ n → n < -1 → bytesToStr (a ++ (s4 n ++ r)) = .error .decodeError ∧
      headerFromBytes (a ++ (s4 n ++ r)) = .error .decodeError) := by
  have skip : ∀ t : Bytes, bytesToStr (a ++ t) = (bytesToStr t).map (fun rs => ss ++ rs) := by
    intro t
    induction ha with
    | nil => cases h : bytesToStr t <;> simp [h, Except.map]
    | cons hi _ ih =>
      rw [List.append_assoc, bytesToStr_item hi, ih]
      cases bytesToStr t <;> rfl
  constructor
  · rw [skip, bytesToStr_item .null]
    cases bytesToStr r <;> rfl
  · intro n h1 h2
    have hu : unpackSigned ((s4 n ++ r).take 4) = n := by
      have : (s4 n ++ r).take 4 = s4 n := by
        rw [List.take_append_of_le_length (by simp [s4, be4]), List.take_of_length_le (by simp [s4, be4])]
      rw [this]
      have hp : packSigned 4 n = some (s4 n) := by
        rw [packSigned4', if_pos (by omega)]
      exact unpackSigned_packSigned (by decide) hp
    have hb : bytesToStr (s4 n ++ r) = .error .decodeError := by
      rw [bytesToStr_step (l := n) (by simp [s4, be4]) hu (by rw [if_neg (by omega)]), if_pos (by omega)]
    have hb2 : bytesToStr (a ++ (s4 n ++ r)) = .error .decodeError := by rw [skip, hb]; rfl
    refine ⟨hb2, ?_⟩
    unfold headerFromBytes
    rw [hb2]; rfl

/-- C11 (duplicate keys): the parsed mapping holds, for every key, the value of its last occurrence, and exactly the
keys that occur, each once. -/
theorem C11_last_wins (b : Bytes) (kvs : List (PyStr × PyStr)) (hb : HItems b (flatten kvs)) :
    ∃ d, headerFromBytes b = .ok d ∧ (∀ k, PyDict.get? d k = lastValue kvs k) ∧
      (∀ k, k ∈ PyDict.keys d ↔ k ∈ kvs.map Prod.fst) ∧ (PyDict.keys d).Nodup := by
  refine ⟨_, headerFromBytes_flatten hb, ?_, ?_, PyDict.nodup_ofPairs kvs⟩
  · intro k
    unfold PyDict.ofPairs
    rw [PyDict.get?_update]
    simp only [PyDict.get?_nil, Option.or_none]
    unfold lastValue
    clear hb
    induction kvs with
    | nil => rfl
    | cons a kvs ih =>
      obtain ⟨k', v'⟩ := a
      rw [List.reverse_cons, PyDict.get?_append, ih, List.filter_cons]
      by_cases e : k' = k
      · subst e
        simp only [beq_self_eq_true, if_true, PyDict.get?]
        cases kvs.filter (fun kv => kv.1 == k') with
        | nil => rfl
        | cons x l =>
          rw [List.getLast?_cons_cons, List.getLast?_eq_some_getLast (by simp : x :: l ≠ [])]; simp
      · have : ((k', v').1 == k) = false := by simpa using e
        rw [this]
        simp [PyDict.get?, e]
  · intro k
    unfold PyDict.keys PyDict.ofPairs
    rw [PyDict.mem_keys_update]; simp

example : HItems ([0, 0, 0, 1, 65, 0, 0, 0, 1, 66] ++ [0, 0, 0, 1, 65, 0, 0, 0, 1, 67])
    (flatten [(py "A", py "B"), (py "A", py "C")]) :=
  .cons (a := [0, 0, 0, 1, 65]) (.str [65] (py "A") (by decide) rfl)
    (.cons (a := [0, 0, 0, 1, 66]) (.str [66] (py "B") (by decide) rfl)
      (.cons (a := [0, 0, 0, 1, 65]) (.str [65] (py "A") (by decide) rfl)
        (.cons (a := [0, 0, 0, 1, 67]) (.str [67] (py "C") (by decide) rfl) .nil)))

/-- The state of a package whose header object is shared with its creator: mutating the object mutates what the
package's `header` attribute refers to (same object), `_header_bytes` is a separate bytes object. -/
def Pkg.mutateHeader (p : Pkg) (ms : List HeaderMut) : Pkg := { p with header := ms.foldl HeaderMut.apply p.header }

/-- C12 (snapshot): after construction, no sequence of mutations of the header object changes the bytes produced;
and item assignment never changes a header. -/
theorem C12_snapshot (cls : PkgClass) (header : SofaHeader) (content : PyObj) (a : PkgArgs) (p : Pkg)
    (hp : mkPkg cls header content a = .ok p) (ms : List HeaderMut) :
    (p.mutateHeader ms).toStream = p.toStream ∧
    headerToBytes header = .ok (p.mutateHeader ms).headerBytes ∧
    (∀ (h : SofaHeader) k v, HeaderMut.apply h (.setitem k v) = h) := by
  rw [mkPkg_ok_iff] at hp
  exact ⟨rfl, hp.2.2.1, fun _ _ _ => rfl⟩

/-- UTF-8 length of a header value -/
def Spec.utf8Len (s : PyStr) : Nat := ((utf8Encode s).getD []).length

/-- C13 (length): `len(header)` is the wire length: 8 per entry plus the UTF-8 lengths, and it is the header length
field of a frame carrying it. -/
theorem C13_len (d : PyDict PyStr PyStr) (b : Bytes) (h : headerToBytes (strHeader d) = .ok b) :
    headerLen (strHeader d) = .ok b.length ∧
    b.length = 8 * d.length + (d.map (fun kv => Spec.utf8Len kv.1 + Spec.utf8Len kv.2)).sum ∧
    (∀ cls content a p bs, mkPkg cls (strHeader d) content a = .ok p → p.toStream = .ok bs →
      ∃ f c, bs = frame cls.isRequest f cls.className b c) := by
  refine ⟨by unfold headerLen; rw [h]; rfl, ?_, ?_⟩
  · induction d generalizing b with
    | nil => cases h; rfl
    | cons x d ih =>
      obtain ⟨k, v⟩ := x
      change headerToBytes ((k, .str v) :: strHeader d) = _ at h
      rw [headerToBytes_cons_str] at h
      have one : ∀ (s : PyStr) (y : Bytes), strToBytesWithLen (.str s) = .ok y → y.length = 4 + Spec.utf8Len s := by
        intro s y hy
        cases hb : utf8Encode s with
        | none => simp [strToBytesWithLen, hb] at hy
        | some body =>
          by_cases hl : body.length < 2 ^ 31
          · rw [strToBytesWithLen_ok hb hl] at hy
            cases hy
            simp [be4_length, Spec.utf8Len, hb]
          · simp only [strToBytesWithLen, hb, int2bytesBe_ge hl] at hy
            cases hy
      cases h1 : strToBytesWithLen (.str k) with
      | error e => rw [h1] at h; cases h
      | ok y1 =>
        cases h2 : strToBytesWithLen (.str v) with
        | error e => rw [h1, h2] at h; cases h
        | ok y2 =>
          cases h3 : headerToBytes (strHeader d) with
          | error e => rw [h1, h2, h3] at h; cases h
          | ok y3 =>
            rw [h1, h2, h3] at h
            cases h
            have := ih y3 h3
            have l1 := one k y1 h1
            have l2 := one v y2 h2
            simp only [List.length_append, List.map_cons, List.sum_cons, List.length_cons]
            omega
  · intro cls content a p bs hp hs
    rw [mkPkg_ok_iff] at hp
    obtain ⟨h1, h2, h3, -⟩ := hp
    rw [toStream_ok_iff] at hs
    obtain ⟨id, c, t, -, -, -, -, -, rfl⟩ := hs
    rw [h] at h3
    cases h3
    subst h1
    exact ⟨_, c, rfl⟩

example : ∃ b, headerToBytes (strHeader [(py "k", [0x4e2d])]) = .ok b ∧ b.length = 12 := ⟨_, rfl, rfl⟩

/-! ### C18: build_header -/

/-- names `build_header` passes itself -/
def Spec.reserved : List PyStr :=
  [py "sofa_head_target_service", py "sofa_head_method_name", py "sofa_head_target_app", py "service", py "uid"]

/-- name of a trace item in the header -/
def Spec.traceName (k : PyStr) : PyStr := py "rpc_trace_context." ++ k

/-- what C18 asks of a successfully built header -/
structure Spec.Built (h : Heap) (b : Baggage) (interface method app uid : PyObj) (extra : PyDict PyStr PyObj)
    (hd : SofaHeader) : Prop where
  target_ok : PyDict.get? hd (py "sofa_head_target_service") = some interface
  service_ok : PyDict.get? hd (py "service") = some interface
  method_ok : PyDict.get? hd (py "sofa_head_method_name") = some method
  app_ok : PyDict.get? hd (py "sofa_head_target_app") = some app
  uid_ok : PyDict.get? hd (py "uid") = some uid
  trace_ok : ∀ k v, PyDict.get? b k = some v → PyDict.get? hd (Spec.traceName k) = some (.str (v.toStr h))
  extra_ok : ∀ k v, PyDict.get? extra k = some v → (∀ k', PyDict.contains b k' = true → k ≠ Spec.traceName k') →
    PyDict.get? hd k = some v
  only_ok : ∀ k, PyDict.contains hd k = true → k ∈ Spec.reserved ∨ PyDict.contains extra k = true ∨
    ∃ k', PyDict.contains b k' = true ∧ k = Spec.traceName k'

/-- C18 at full strength -/
def C18_full : Prop := ∀ (h : Heap) (b : Baggage) (interface method app uid : PyObj) (extra : PyDict PyStr PyObj),
  PyDict.NodupKeys b → PyDict.NodupKeys extra →
  (∀ hd, buildHeader h b interface method app uid extra = .ok hd → Spec.Built h b interface method app uid extra hd) ∧
  ((∃ e, buildHeader h b interface method app uid extra = .error e) ↔
    ∃ k ∈ Spec.reserved, PyDict.contains extra k = true ∨ ∃ k', PyDict.contains b k' = true ∧ k = Spec.traceName k')

/-- C18 is violated: a baggage item called `expand` (which `extract` accepts from the network) makes `build_header`
raise although nothing collides with a reserved name. -/
theorem C18_violated : ¬ C18_full := by
  intro hf
  have := (hf [] [(py "expand", .str [])] (.str (py "I")) (.str (py "m")) (.str []) (.str []) []
    (by decide) (by decide)).2
  have h1 := this.1 ⟨.typeError, by decide⟩
  obtain ⟨k, hk, h | ⟨k', hk', e⟩⟩ := h1
  · simp [PyDict.contains] at h
  · have : k' = py "expand" := by
      rw [PyDict.contains_iff] at hk'
      simpa using hk'
    subst this; subst e
    exact absurd hk (by decide)

/-- attribute names of `RpcTraceContext` objects that no baggage item may have -/
def Spec.specialAttrs : List PyStr :=
  [py "self", py "__class__", py "__dict__", py "__weakref__", py "expand"]

/-- no baggage item is named like a special attribute, and an item called `prefix` does not change the prefix -/
def Spec.Benign (b : Baggage) : Prop :=
  (∀ k ∈ b.map Prod.fst, k ∉ Spec.specialAttrs) ∧
  ∀ v, PyDict.get? b (py "prefix") = some v → v = .str (py "rpc_trace_context.")

theorem not_contains_of_benign {b : Baggage} (hb : Spec.Benign b) {k : PyStr} (hk : k ∈ Spec.specialAttrs) :
    PyDict.contains b k = false := by
  cases h : PyDict.contains b k with
  | false => rfl
  | true => exact absurd hk (hb.1 k ((PyDict.contains_iff b k).1 h))

theorem nodup_mapKeys {K K' V W : Type} [DecidableEq K] [DecidableEq K'] {d : PyDict K V} (hd : PyDict.NodupKeys d)
    (f : K → K') (hf : ∀ a b, f a = f b → a = b) (g : V → W) :
    PyDict.NodupKeys (d.map (fun kv => (f kv.1, g kv.2))) := by
  unfold PyDict.NodupKeys at *
  rw [List.map_map]
  have : (Prod.fst ∘ fun kv : K × V => (f kv.1, g kv.2)) = f ∘ Prod.fst := rfl
  rw [this, ← List.map_map]
  exact List.Pairwise.map f (fun a b hab e => hab (hf a b e)) hd

theorem get?_mapKeys {K K' V W : Type} [DecidableEq K] [DecidableEq K'] (d : PyDict K V)
    (f : K → K') (hf : ∀ a b, f a = f b → a = b) (g : V → W) (k : K) :
    PyDict.get? (d.map (fun kv => (f kv.1, g kv.2))) (f k) = (PyDict.get? d k).map g := by
  induction d with
  | nil => rfl
  | cons a d ih =>
    obtain ⟨k', v'⟩ := a
    simp only [List.map_cons, PyDict.get?]
    by_cases e : k' = k
    · simp [e]
    · have : ¬ f k' = f k := fun h => e (hf _ _ h)
      simp [e, this, ih]

theorem traceName_inj (a b : PyStr) (h : Spec.traceName a = Spec.traceName b) : a = b :=
  List.append_cancel_left h

theorem rpcTraceExpand_benign (h : Heap) (b : Baggage) (hn : PyDict.NodupKeys b) (hb : Spec.Benign b) :
    rpcTraceExpand h b = .ok (b.map (fun kv => (Spec.traceName kv.1, kv.2.toStr h))) := by
  have hf : b.find? (fun kv => decide (kv.1 ∈ [py "__class__", py "__dict__", py "__weakref__"])) = none := by
    rw [List.find?_eq_none]
    intro kv hkv hc
    have := hb.1 kv.1 (List.mem_map.2 ⟨kv, hkv, rfl⟩)
    revert this
    have hc := of_decide_eq_true hc
    simp only [List.mem_cons, List.not_mem_nil, or_false] at hc
    rcases hc with hc | hc | hc <;> rw [hc] <;> decide
  have hof : PyDict.ofPairs (b.map (fun kv => (Spec.traceName kv.1, kv.2.toStr h))) =
      b.map (fun kv => (Spec.traceName kv.1, kv.2.toStr h)) :=
    PyDict.ofPairs_of_nodup (nodup_mapKeys hn _ traceName_inj _)
  unfold rpcTraceExpand
  rw [not_contains_of_benign hb (k := py "self") (by decide), hf, not_contains_of_benign hb (k := py "expand") (by decide)]
  simp only [Bool.false_eq_true, if_false]
  cases hp : PyDict.get? b (py "prefix") with
  | none => exact congrArg Except.ok hof
  | some v => rw [hb.2 v hp]; exact congrArg Except.ok hof

theorem traceName_not_reserved (k : PyStr) : Spec.traceName k ∉ Spec.reserved := by
  intro h
  have hh : (Spec.traceName k).head? = some 114 := rfl
  have : ∀ r ∈ Spec.reserved, r.head? ≠ some 114 := by decide
  exact this _ h hh

theorem namedHeader_keys (i m a u : PyObj) : (namedHeader i m a u).map Prod.fst = Spec.reserved := rfl

/-- the names `build_header` puts into a header, whatever the baggage -/
theorem buildHeader_names {h : Heap} {b : Baggage} {i m app uid : PyObj} {extra : PyDict PyStr PyObj} {hd : SofaHeader}
    (hb : buildHeader h b i m app uid extra = .ok hd) : PyDict.NodupKeys hd ∧
    PyDict.get? hd (py "sofa_head_target_service") = some i ∧ PyDict.get? hd (py "service") = some i ∧
    PyDict.get? hd (py "sofa_head_method_name") = some m := by
  unfold buildHeader at hb
  cases he : rpcTraceExpand h b with
  | error e => rw [he] at hb; cases hb
  | ok x =>
    rw [he] at hb
    simp only [bind, Except.bind] at hb
    split at hb
    · cases hb
    · next hno =>
      cases hb
      have hkw : PyDict.NodupKeys (PyDict.update (PyDict.update ([] : SofaHeader) extra) (strHeader x)) :=
        PyDict.nodup_update (PyDict.nodup_update (by simp [PyDict.NodupKeys]) _) _
      revert hno hkw
      generalize PyDict.update (PyDict.update ([] : SofaHeader) extra) (strHeader x) = kw
      intro hno hkw
      refine ⟨?_, rfl, rfl, rfl⟩
      unfold PyDict.NodupKeys at *
      rw [List.map_append, List.nodup_append]
      refine ⟨(by rw [namedHeader_keys]; decide), hkw, ?_⟩
      intro k hk k' hk' e
      subst e
      apply hno
      rw [List.any_eq_true]
      rw [List.mem_map] at hk'
      obtain ⟨kv, h1, h2⟩ := hk'
      refine ⟨kv, h1, ?_⟩
      rw [h2]
      exact (PyDict.contains_iff _ _).2 hk

/-- C18 (build_header), for benign baggage: the header names the target, carries every
extra and every trace item and nothing else; it raises (TypeError) exactly when an extra collides with a reserved
name. -/
theorem C18_build_header_partial (h : Heap) (b : Baggage) (interface method app uid : PyObj)
    (extra : PyDict PyStr PyObj) (hnb : PyDict.NodupKeys b) (hne : PyDict.NodupKeys extra) (hb : Spec.Benign b) :
    (∀ hd, buildHeader h b interface method app uid extra = .ok hd →
      Spec.Built h b interface method app uid extra hd ∧ PyDict.NodupKeys hd) ∧
    (∀ e, buildHeader h b interface method app uid extra = .error e → e = .typeError) ∧
    ((∃ e, buildHeader h b interface method app uid extra = .error e) ↔
      ∃ k ∈ Spec.reserved, PyDict.contains extra k = true ∨
        ∃ k', PyDict.contains b k' = true ∧ k = Spec.traceName k') := by
  unfold buildHeader
  rw [rpcTraceExpand_benign h b hnb hb]
  simp only [bind, Except.bind]
  generalize htr : strHeader (b.map (fun kv => (Spec.traceName kv.1, kv.2.toStr h))) = tr
  have htr' : tr = b.map (fun kv => (Spec.traceName kv.1, PyObj.str (kv.2.toStr h))) := by
    rw [← htr]; simp [strHeader]
  have hntr : PyDict.NodupKeys tr := by
    rw [htr']
    exact nodup_mapKeys hnb Spec.traceName traceName_inj (fun v => PyObj.str (v.toStr h))
  generalize hkw : PyDict.update (PyDict.update ([] : SofaHeader) extra) tr = kw
  have hnkw : PyDict.NodupKeys kw := by
    rw [← hkw]; exact PyDict.nodup_update (PyDict.nodup_update (by simp [PyDict.NodupKeys]) _) _
  have hget : ∀ k, PyDict.get? kw k = (PyDict.get? tr k).or (PyDict.get? extra k) := by
    intro k
    rw [← hkw, PyDict.get?_update_nodup _ hntr, PyDict.get?_update_nodup _ hne]
    simp
  have htrget : ∀ k, PyDict.get? tr (Spec.traceName k) = (PyDict.get? b k).map (fun v => PyObj.str (v.toStr h)) := by
    intro k
    rw [htr']
    exact get?_mapKeys b Spec.traceName traceName_inj (fun v => PyObj.str (v.toStr h)) k
  have htrkey : ∀ k, k ∈ tr.map Prod.fst ↔ ∃ k', PyDict.contains b k' = true ∧ k = Spec.traceName k' := by
    intro k
    rw [htr', List.map_map]
    constructor
    · intro hk
      obtain ⟨kv, hkv, rfl⟩ := List.mem_map.1 hk
      exact ⟨kv.1, (PyDict.contains_iff b kv.1).2 (List.mem_map.2 ⟨kv, hkv, rfl⟩), rfl⟩
    · rintro ⟨k', hk', rfl⟩
      obtain ⟨kv, hkv, rfl⟩ := List.mem_map.1 ((PyDict.contains_iff b k').1 hk')
      exact List.mem_map.2 ⟨kv, hkv, rfl⟩
  have hkwkey : ∀ k, k ∈ kw.map Prod.fst ↔ PyDict.contains extra k = true ∨
      ∃ k', PyDict.contains b k' = true ∧ k = Spec.traceName k' := by
    intro k
    rw [← hkw, PyDict.mem_keys_update, PyDict.mem_keys_update, htrkey, PyDict.contains_iff]
    simp only [List.map_nil, List.not_mem_nil, or_false]
    exact Or.comm
  have hany : (kw.any (fun kv => PyDict.contains (namedHeader interface method app uid) kv.1) = true) ↔
      ∃ k ∈ Spec.reserved, PyDict.contains extra k = true ∨
        ∃ k', PyDict.contains b k' = true ∧ k = Spec.traceName k' := by
    rw [List.any_eq_true]
    constructor
    · rintro ⟨kv, hkv, hc⟩
      rw [PyDict.contains_iff, namedHeader_keys] at hc
      exact ⟨kv.1, hc, (hkwkey kv.1).1 (List.mem_map.2 ⟨kv, hkv, rfl⟩)⟩
    · rintro ⟨k, hk, hc⟩
      obtain ⟨kv, hkv, rfl⟩ := List.mem_map.1 ((hkwkey k).2 hc)
      refine ⟨kv, hkv, ?_⟩
      rw [PyDict.contains_iff, namedHeader_keys]; exact hk
  by_cases hc : kw.any (fun kv => PyDict.contains (namedHeader interface method app uid) kv.1) = true
  · refine ⟨?_, ?_, ?_⟩
    · intro hd hhd; rw [if_pos hc] at hhd; cases hhd
    · intro e he; rw [if_pos hc] at he; cases he; rfl
    · rw [if_pos hc]; exact ⟨fun _ => hany.1 hc, fun _ => ⟨_, rfl⟩⟩
  · refine ⟨?_, ?_, ?_⟩
    · intro hd hhd
      rw [if_neg hc] at hhd
      cases hhd
      have hdisj : ∀ k ∈ Spec.reserved, PyDict.get? kw k = none := by
        intro k hk
        rw [PyDict.get?_eq_none_iff]
        intro hm
        exact hc (hany.2 ⟨k, hk, (hkwkey k).1 hm⟩)
      have hres : ∀ k, k ∉ Spec.reserved → PyDict.get? (namedHeader interface method app uid ++ kw) k =
          PyDict.get? kw k := by
        intro k hk
        rw [PyDict.get?_append, (PyDict.get?_eq_none_iff _ _).2 (by rw [namedHeader_keys]; exact hk)]
        simp
      refine ⟨⟨rfl, rfl, rfl, rfl, rfl, ?_, ?_, ?_⟩, ?_⟩
      · intro k v hv
        rw [hres _ (traceName_not_reserved k), hget, htrget, hv]; rfl
      · intro k v hv hnt
        have hkr : k ∉ Spec.reserved := by
          intro hk
          have h1 := hdisj k hk
          rw [hget, hv] at h1
          cases h2 : PyDict.get? tr k <;> rw [h2] at h1 <;> cases h1
        have htn : PyDict.get? tr k = none := by
          rw [PyDict.get?_eq_none_iff, htrkey]
          rintro ⟨k', hk', e⟩
          exact hnt k' hk' e
        rw [hres k hkr, hget, htn, hv]; rfl
      · intro k hk
        rw [PyDict.contains_iff, List.map_append, List.mem_append, namedHeader_keys] at hk
        rcases hk with hk | hk
        · exact .inl hk
        · exact .inr ((hkwkey k).1 hk)
      · unfold PyDict.NodupKeys
        rw [List.map_append, namedHeader_keys, List.nodup_append]
        refine ⟨by decide, hnkw, ?_⟩
        intro x hx y hy e
        subst e
        exact (PyDict.get?_eq_none_iff _ _).1 (hdisj x hx) hy
    · intro e he; rw [if_neg hc] at he; cases he
    · rw [if_neg hc]
      constructor
      · rintro ⟨e, he⟩; cases he
      · intro hx; exact absurd (hany.2 hx) hc

/-- a concrete call meets the hypotheses and succeeds; one colliding extra makes it fail -/
example : Spec.Benign [(kTraceId, .trace (py "t1")), (kRpcId, .rpc 0)] ∧
    (∃ hd, buildHeader [⟨[.int 1], 0, none⟩] [(kTraceId, .trace (py "t1")), (kRpcId, .rpc 0)] (.str (py "I"))
      (.str (py "m")) (.str []) (.str []) [(py "x", .str (py "1"))] = .ok hd) ∧
    buildHeader [] [] (.str (py "I")) (.str (py "m")) (.str []) (.str []) [(py "uid", .str (py "1"))]
      = .error .typeError := by
  refine ⟨⟨by decide, fun v hv => ?_⟩, ⟨_, rfl⟩, by decide⟩
  exact nomatch (show (none : Option BagVal) = some v from hv)

/-! What happens for all other baggage -/

/-- baggage with one of the forbidden names always makes `build_header` raise, whatever else is passed -/
theorem expand_special {h : Heap} {b : Baggage} {k : PyStr} (hk : k ∈ b.map Prod.fst) (hs : k ∈ Spec.specialAttrs) :
    ∃ e, rpcTraceExpand h b = .error e ∧ (e = .typeError ∨ e = .attributeError) := by
  unfold rpcTraceExpand
  split
  · exact ⟨_, rfl, .inl rfl⟩
  rename_i h1
  split
  · rename_i kv hkv
    split
    · exact ⟨_, rfl, .inr rfl⟩
    · exact ⟨_, rfl, .inl rfl⟩
  rename_i h2
  split
  · exact ⟨_, rfl, .inl rfl⟩
  rename_i h3
  exfalso
  have hc := (PyDict.contains_iff b k).2 hk
  obtain ⟨kv, hkv, rfl⟩ := List.mem_map.1 hk
  have h2' : ¬ kv.1 ∈ [py "__class__", py "__dict__", py "__weakref__"] := by
    intro hm
    cases hf : b.find? (fun kv => decide (kv.1 ∈ [py "__class__", py "__dict__", py "__weakref__"])) with
    | none => exact (List.find?_eq_none.1 hf kv hkv) (decide_eq_true hm)
    | some kv' => exact h2 kv' hf
  simp only [Spec.specialAttrs, List.mem_cons, List.not_mem_nil, or_false, not_or] at hs h2'
  rcases hs with e | e | e | e | e
  · rw [e] at hc; exact h1 hc
  · exact h2'.1 e
  · exact h2'.2.1 e
  · exact h2'.2.2 e
  · rw [e] at hc; exact h3 hc

/-- if every member of a nonempty list, put behind `p`, is some member put behind `q`, then `p = q` -/
theorem prefix_unique (ks : List PyStr) (hne : ks ≠ []) (p q : PyStr)
    (h : ∀ k ∈ ks, ∃ k' ∈ ks, p ++ k = q ++ k') : p = q := by
  have hlong : ∀ ks : List PyStr, ks ≠ [] → ∃ k ∈ ks, ∀ k' ∈ ks, k'.length ≤ k.length := by
    intro ks hne
    induction ks with
    | nil => exact absurd rfl hne
    | cons a b ih =>
      by_cases hb : b = []
      · subst hb; exact ⟨a, by simp, by simp⟩
      · obtain ⟨k, hk, hm⟩ := ih hb
        by_cases hl : a.length ≤ k.length
        · refine ⟨k, by simp [hk], ?_⟩
          intro k' hk'
          rcases List.mem_cons.1 hk' with rfl | hk'
          · exact hl
          · exact hm k' hk'
        · refine ⟨a, by simp, ?_⟩
          intro k' hk'
          rcases List.mem_cons.1 hk' with rfl | hk'
          · exact Nat.le_refl _
          · have := hm k' hk'; omega
  have hshort : ∀ ks : List PyStr, ks ≠ [] → ∃ k ∈ ks, ∀ k' ∈ ks, k.length ≤ k'.length := by
    intro ks hne
    induction ks with
    | nil => exact absurd rfl hne
    | cons a b ih =>
      by_cases hb : b = []
      · subst hb; exact ⟨a, by simp, by simp⟩
      · obtain ⟨k, hk, hm⟩ := ih hb
        by_cases hl : k.length ≤ a.length
        · refine ⟨k, by simp [hk], ?_⟩
          intro k' hk'
          rcases List.mem_cons.1 hk' with rfl | hk'
          · exact hl
          · exact hm k' hk'
        · refine ⟨a, by simp, ?_⟩
          intro k' hk'
          rcases List.mem_cons.1 hk' with rfl | hk'
          · exact Nat.le_refl _
          · have := hm k' hk'; omega
  have hlen : p.length = q.length := by
    rcases Nat.lt_trichotomy p.length q.length with hl | hl | hl
    · obtain ⟨k, hk, hm⟩ := hshort ks hne
      obtain ⟨k', hk', e⟩ := h k hk
      have := congrArg List.length e
      simp only [List.length_append] at this
      have := hm k' hk'
      omega
    · exact hl
    · obtain ⟨k, hk, hm⟩ := hlong ks hne
      obtain ⟨k', hk', e⟩ := h k hk
      have := congrArg List.length e
      simp only [List.length_append] at this
      have := hm k' hk'
      omega
  cases ks with
  | nil => exact absurd rfl hne
  | cons a b =>
    obtain ⟨k', -, e⟩ := h a (by simp)
    exact (List.append_inj e hlen).1

/-- under another prefix, some item that is neither the trace id nor the rpc id has no key of the standard form -/
theorem prefix_missing (ks : List PyStr) (hk : py "prefix" ∈ ks) (p : PyStr) (hp : p ≠ py "rpc_trace_context.") :
    ∃ k ∈ ks, k ≠ kTraceId ∧ k ≠ kRpcId ∧ ∀ k' ∈ ks, Spec.traceName k ≠ p ++ k' := by
  have key : ∀ P : PyStr → Prop, P (py "prefix") → (∀ k, P k → k ≠ kTraceId ∧ k ≠ kRpcId) →
      (∀ k k', P k → Spec.traceName k = p ++ k' → P k') →
      ∃ k ∈ ks, k ≠ kTraceId ∧ k ≠ kRpcId ∧ ∀ k' ∈ ks, Spec.traceName k ≠ p ++ k' := by
    intro P hP hids hcl
    refine Classical.byContradiction fun hn => hp ?_
    classical
    refine (prefix_unique (ks.filter (fun k => decide (P k))) ?_ (py "rpc_trace_context.") p ?_).symm
    · intro he
      have : py "prefix" ∈ ks.filter (fun k => decide (P k)) := List.mem_filter.2 ⟨hk, decide_eq_true hP⟩
      rw [he] at this; cases this
    · intro k hkm
      obtain ⟨h1, h2⟩ := List.mem_filter.1 hkm
      have h2 := of_decide_eq_true h2
      refine Classical.byContradiction fun hno => hn ⟨k, h1, (hids k h2).1, (hids k h2).2, fun k' hk' e => hno ?_⟩
      exact ⟨k', List.mem_filter.2 ⟨hk', decide_eq_true (hcl k k' h2 e)⟩, e⟩
  by_cases hl : p.length ≤ (py "rpc_trace_context.").length
  · refine key (fun k => py "prefix" <:+ k) (List.suffix_refl _) ?_ ?_
    · intro k h
      constructor <;> rintro rfl <;> revert h <;> decide
    · intro k k' h e
      have h1 : k <:+ p ++ k' := ⟨py "rpc_trace_context.", e⟩
      have h2 : k' <:+ p ++ k' := ⟨p, rfl⟩
      have hle : k.length ≤ k'.length := by
        have := congrArg List.length e
        simp only [Spec.traceName, List.length_append] at this
        omega
      exact List.IsSuffix.trans h (List.suffix_of_suffix_length_le h1 h2 hle)
  · refine key (fun k => k <:+ py "prefix") (List.suffix_refl _) ?_ ?_
    · intro k h
      constructor <;> rintro rfl <;> revert h <;> decide
    · intro k k' h e
      have h1 : k <:+ p ++ k' := ⟨py "rpc_trace_context.", e⟩
      have h2 : k' <:+ p ++ k' := ⟨p, rfl⟩
      have hle : k'.length ≤ k.length := by
        have := congrArg List.length e
        simp only [Spec.traceName, List.length_append] at this
        omega
      exact List.IsSuffix.trans (List.suffix_of_suffix_length_le h2 h1 hle) h

/-- a built header with an item called `prefix`: its value is a string, and the items are put behind it -/
theorem buildHeader_prefix {h : Heap} {b : Baggage} {interface method app uid : PyObj} {extra : PyDict PyStr PyObj}
    {hd : SofaHeader} (hnb : PyDict.NodupKeys b) (hbh : buildHeader h b interface method app uid extra = .ok hd)
    {v : BagVal} (hv : PyDict.get? b (py "prefix") = some v) :
    ∃ p, v = .str p ∧ ∀ k, PyDict.contains hd k = true → k ∈ Spec.reserved ∨ PyDict.contains extra k = true ∨
      ∃ k' ∈ b.map Prod.fst, k = p ++ k' := by
  have hexp : ∃ p, v = .str p ∧ rpcTraceExpand h b =
      .ok (PyDict.ofPairs (b.map (fun kv => (p ++ kv.1, kv.2.toStr h)))) := by
    unfold buildHeader at hbh
    cases hx : rpcTraceExpand h b with
    | error e => rw [hx] at hbh; cases hbh
    | ok d =>
      unfold rpcTraceExpand at hx
      rw [hv] at hx
      split at hx
      · cases hx
      split at hx
      · cases hx
      split at hx
      · cases hx
      cases v with
      | str p => exact ⟨p, rfl, hx.symm⟩
      | trace _ => cases hx
      | rpc _ => cases hx
  obtain ⟨p, rfl, hexp⟩ := hexp
  have hinj : ∀ a c : PyStr, p ++ a = p ++ c → a = c := fun a c e => List.append_cancel_left e
  rw [PyDict.ofPairs_of_nodup (nodup_mapKeys hnb (p ++ ·) hinj (BagVal.toStr h))] at hexp
  refine ⟨p, rfl, fun k hk => ?_⟩
  unfold buildHeader at hbh
  rw [hexp] at hbh
  simp only [bind, Except.bind] at hbh
  split at hbh
  · cases hbh
  · cases hbh
    rw [PyDict.contains_iff, List.map_append, List.mem_append, namedHeader_keys, PyDict.mem_keys_update,
      PyDict.mem_keys_update] at hk
    rcases hk with hk | hk | hk | hk
    · exact .inl hk
    · refine .inr (.inr ?_)
      simp only [strHeader, List.map_map, List.mem_map, Function.comp] at hk
      obtain ⟨kv, hkv, rfl⟩ := hk
      exact ⟨kv.1, List.mem_map.2 ⟨kv, hkv, rfl⟩, rfl⟩
    · exact .inr (.inl ((PyDict.contains_iff extra k).2 hk))
    · cases hk

/-- C18, exactly: if no further header is itself a trace key, `build_header` gives the header asked for if and only if
no further header has a reserved name and the baggage is benign. So the hypothesis of `C18_build_header_partial`
cannot be weakened. -/
theorem C18_exact_partial (h : Heap) (b : Baggage) (interface method app uid : PyObj)
    (extra : PyDict PyStr PyObj) (hnb : PyDict.NodupKeys b) (hne : PyDict.NodupKeys extra)
    (hex : ∀ k, PyDict.get? extra (Spec.traceName k) = none) :
    (∃ hd, buildHeader h b interface method app uid extra = .ok hd ∧
      Spec.Built h b interface method app uid extra hd) ↔
    Spec.Benign b ∧ ∀ k ∈ Spec.reserved, PyDict.contains extra k = false := by
  constructor
  · rintro ⟨hd, hbh, hB⟩
    have hspec : ∀ k ∈ b.map Prod.fst, k ∉ Spec.specialAttrs := by
      intro k hk hs
      obtain ⟨e, he, -⟩ := expand_special (h := h) hk hs
      unfold buildHeader at hbh
      rw [he] at hbh; cases hbh
    have hben : Spec.Benign b := by
      refine ⟨hspec, fun v hv => ?_⟩
      obtain ⟨p, rfl, hkeys⟩ := buildHeader_prefix hnb hbh hv
      refine Classical.byContradiction fun hp => ?_
      obtain ⟨k, hk, -, -, hm⟩ := prefix_missing (b.map Prod.fst)
        ((PyDict.contains_iff b _).1 (by unfold PyDict.contains; rw [hv]; rfl)) p (fun e => hp (by rw [e]))
      obtain ⟨w, hw⟩ := Option.isSome_iff_exists.1 ((PyDict.contains_iff b k).2 hk)
      have ht := hB.trace_ok k w hw
      have hc : PyDict.contains hd (Spec.traceName k) = true := by unfold PyDict.contains; rw [ht]; rfl
      rcases hkeys _ hc with h1 | h1 | ⟨k', hk', h1⟩
      · exact absurd h1 (traceName_not_reserved k)
      · unfold PyDict.contains at h1; rw [hex k] at h1; cases h1
      · exact hm k' hk' h1
    refine ⟨hben, fun k hk => ?_⟩
    cases hc : PyDict.contains extra k with
    | false => rfl
    | true =>
      have := (C18_build_header_partial h b interface method app uid extra hnb hne hben).2.2.2 ⟨k, hk, .inl hc⟩
      obtain ⟨e, he⟩ := this
      rw [he] at hbh; cases hbh
  · rintro ⟨hben, hr⟩
    obtain ⟨h1, -, h3⟩ := C18_build_header_partial h b interface method app uid extra hnb hne hben
    cases hb : buildHeader h b interface method app uid extra with
    | ok hd => exact ⟨hd, rfl, (h1 hd hb).1⟩
    | error e =>
      obtain ⟨k, hk, hc | ⟨k', -, rfl⟩⟩ := h3.1 ⟨e, hb⟩
      · rw [hr k hk] at hc; cases hc
      · exact absurd hk (traceName_not_reserved k')

/-- both sides occur: the standard prefix as a baggage item is harmless, another one is not -/
example : Spec.Benign [(py "prefix", .str (py "rpc_trace_context.")), (kTraceId, .trace (py "t"))] ∧
    ¬ Spec.Benign [(py "prefix", .str (py "x.")), (kTraceId, .trace (py "t"))] ∧
    buildHeader [] [(py "__weakref__", .str []), (py "__class__", .str [])] .none .none .none .none [] =
      .error .attributeError ∧
    buildHeader [] [(py "__class__", .str []), (py "__weakref__", .str [])] .none .none .none .none [] =
      .error .typeError := by
  refine ⟨⟨by decide, fun v hv => ?_⟩, fun hb => ?_, by decide, by decide⟩
  · exact (Option.some.inj hv).symm
  · exact absurd (hb.2 _ rfl) (by decide)

end Bolt
