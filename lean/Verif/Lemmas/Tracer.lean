import Verif.Model.Tracer
import Verif.Lemmas.Dict
import Verif.Lemmas.Text
/-! Lemmas and invariants of the tracer model. -/
namespace Bolt

/-! ### segment lists -/

/-- what every RpcId built by the constructor from dot-free strings satisfies -/
def SegsOK (segs : List Seg) : Prop :=
  (∃ i, segs.getLast? = some (.int i)) ∧ ∀ s, Seg.str s ∈ segs → 46 ∉ s ∧ pyInt s = none

theorem SegsOK.ne_nil {segs : List Seg} (h : SegsOK segs) : segs ≠ [] := by
  rintro rfl; obtain ⟨⟨i, hi⟩, -⟩ := h; simp at hi

theorem map_trans_of_ok {segs : List Seg} (h : ∀ s, Seg.str s ∈ segs → 46 ∉ s ∧ pyInt s = none) :
    segs.map Seg.trans = segs := by
  rw [List.map_congr_left (g := id)]
  · simp
  · intro a ha
    cases a with
    | int i => rfl
    | str s => simp [Seg.trans, (h s ha).2]

theorem rpcInit_of_segsOK {segs : List Seg} (h : SegsOK segs) : rpcInit segs = .ok segs := by
  obtain ⟨i, hi⟩ := h.1
  unfold rpcInit
  split
  · simp at hi
  · simp only [map_trans_of_ok h.2, hi]

theorem rpcInit_ok {args segs : List Seg} (hd : ∀ s, Seg.str s ∈ args → 46 ∉ s) (h : rpcInit args = .ok segs) :
    SegsOK segs := by
  unfold rpcInit at h
  split at h
  · cases h; exact ⟨⟨1, rfl⟩, by simp⟩
  · simp only at h
    split at h
    · rename_i i hi
      cases h
      refine ⟨⟨i, hi⟩, ?_⟩
      intro s hs
      obtain ⟨a, ha, he⟩ := List.mem_map.1 hs
      cases a with
      | int j => cases he
      | str t =>
        simp only [Seg.trans] at he
        split at he
        · cases he
        · rename_i hn; cases he; exact ⟨hd _ ha, hn⟩
    · cases h

theorem SegsOK.toStr_no_dot {segs : List Seg} (h : SegsOK segs) : ∀ w ∈ segs.map Seg.toStr, 46 ∉ w := by
  intro w hw
  obtain ⟨a, ha, rfl⟩ := List.mem_map.1 hw
  cases a with
  | int i => exact intStr_no_dot i
  | str s => exact (h.2 s ha).1

theorem SegsOK.split_str {segs : List Seg} (h : SegsOK segs) : pySplit 46 (rpcStr segs) = segs.map Seg.toStr :=
  pySplit_pyJoin (by simpa using h.ne_nil) h.toStr_no_dot

theorem SegsOK.trans_toStr {segs : List Seg} (h : SegsOK segs) :
    ((segs.map Seg.toStr).map Seg.str).map Seg.trans = segs := by
  simp only [List.map_map]
  rw [List.map_congr_left (g := id)]
  · simp
  · intro a ha
    cases a with
    | int i => simp [Seg.trans, Seg.toStr, pyInt_intStr]
    | str s => simp [Seg.trans, Seg.toStr, (h.2 s ha).2]

theorem SegsOK.roundtrip {segs : List Seg} (h : SegsOK segs) :
    rpcInit ((pySplit 46 (rpcStr segs)).map Seg.str) = .ok segs := by
  obtain ⟨i, hi⟩ := h.1
  rw [h.split_str]
  unfold rpcInit
  split
  · rename_i he; simp at he; exact absurd he h.ne_nil
  · simp only [h.trans_toStr, hi]

theorem rpcStr_inj {a b : List Seg} (ha : SegsOK a) (hb : SegsOK b) (h : rpcStr a = rpcStr b) : a = b := by
  have h1 := ha.roundtrip
  rw [h, hb.roundtrip] at h1
  exact (Except.ok.inj h1).symm

theorem SegsOK.snoc {segs : List Seg} (h : ∀ s, Seg.str s ∈ segs → 46 ∉ s ∧ pyInt s = none) (i : Int) :
    SegsOK (segs ++ [.int i]) := by
  refine ⟨⟨i, by simp⟩, ?_⟩
  intro s hs
  simp at hs
  exact h s hs

theorem getLast?_decomp {segs : List Seg} {x : Seg} (h : segs.getLast? = some x) : segs = segs.dropLast ++ [x] := by
  have hne : segs ≠ [] := by rintro rfl; simp at h
  have := List.dropLast_concat_getLast hne
  rw [List.getLast?_eq_some_getLast hne] at h
  rw [← Option.some.inj h]; exact this.symm

/-! ### the heap of RpcId objects -/

theorem newRpc_ok {h : Heap} {args segs : List Seg} (hi : rpcInit args = .ok segs) :
    newRpc h args = .ok (h ++ [⟨segs, 0, none⟩], h.length) := by
  simp [newRpc, hi, bind, Except.bind, pure, Except.pure]

@[simp] theorem bumpChild_length (h : Heap) (r : Nat) : (bumpChild h r).length = h.length := by
  simp [bumpChild]

theorem bumpChild_getElem? (h : Heap) (r k : Nat) :
    (bumpChild h r)[k]? = if k = r then (h[k]?).map (fun o => { o with childCount := o.childCount + 1 }) else h[k]? := by
  simp only [bumpChild, List.getElem?_modify]
  by_cases e : k = r
  · subst e; simp
  · rw [if_neg e]
    cases h[k]? <;> simp [Ne.symm e]

theorem bumpChild_parents (h : Heap) (r : Nat) : (bumpChild h r).map RpcObj.parent = h.map RpcObj.parent := by
  apply List.ext_getElem?
  intro k
  simp only [List.getElem?_map, bumpChild_getElem?]
  split
  · cases h[k]? <;> simp
  · rfl

theorem setParent_append (h : Heap) (o : RpcObj) (p : Nat) :
    setParent (h ++ [o]) h.length p = h ++ [{ o with parent := some p }] := by
  apply List.ext_getElem?
  intro k
  rw [setParent, List.getElem?_modify]
  rcases Nat.lt_trichotomy k h.length with hk | hk | hk
  · rw [List.getElem?_append_left hk, List.getElem?_append_left hk]
    cases h[k]? <;> simp [Nat.ne_of_gt hk]
  · subst hk; simp
  · have h1 : ∀ x : RpcObj, (h ++ [x])[k]? = none := by
      intro x; rw [List.getElem?_eq_none]; simp; omega
    rw [h1, h1]; simp

theorem bumpChild_append {h : Heap} {p : Nat} (hp : p < h.length) (o : RpcObj) :
    bumpChild (h ++ [o]) p = bumpChild h p ++ [o] := by
  apply List.ext_getElem?
  intro k
  simp only [bumpChild_getElem?, List.getElem?_append, bumpChild_length]
  by_cases e : k = p
  · subst e; simp [hp]
  · simp [e]

/-- effect of `_new_child_of` -/
theorem newChildOf_eq {h : Heap} {r : Nat} {o : RpcObj} (hr : h[r]? = some o) (ho : SegsOK o.segs) :
    newChildOf h r =
      .ok (bumpChild h r ++ [⟨o.segs ++ [.int ((o.childCount + 1 : Nat) : Int)], 0, some r⟩], h.length) := by
  have h1 : (bumpChild h r)[r]? = some { o with childCount := o.childCount + 1 } := by
    rw [bumpChild_getElem?, if_pos rfl, hr]; rfl
  have h2 := newRpc_ok (h := bumpChild h r)
    (rpcInit_of_segsOK (SegsOK.snoc ho.2 ((o.childCount + 1 : Nat) : Int)))
  unfold newChildOf
  simp only [h1, h2, bind, Except.bind, pure, Except.pure]
  rw [setParent_append]; simp

/-- effect of `_new_follows_from` -/
theorem newFollowsFrom_eq {h : Heap} {r : Nat} {o : RpcObj} (hr : h[r]? = some o) (ho : SegsOK o.segs) {i : Int}
    (hi : o.segs.getLast? = some (.int i)) (hp : ∀ p, o.parent = some p → p < h.length) :
    newFollowsFrom h r =
      .ok ((match o.parent with | none => h | some p => bumpChild h p) ++
        [⟨o.segs.dropLast ++ [.int (i + 1)], 0, o.parent⟩], h.length) := by
  have hdl : ∀ s, Seg.str s ∈ o.segs.dropLast → 46 ∉ s ∧ pyInt s = none := by
    intro s hs; exact ho.2 s (List.dropLast_subset _ hs)
  have h2 := newRpc_ok (h := h) (rpcInit_of_segsOK (SegsOK.snoc hdl (i + 1)))
  unfold newFollowsFrom
  simp only [hr, lastPlusOne, hi, h2, bind, Except.bind, pure, Except.pure]
  cases hpar : o.parent with
  | none => rfl
  | some p =>
    simp only
    rw [bumpChild_append (hp p hpar)]
    have := setParent_append (bumpChild h p) ⟨o.segs.dropLast ++ [.int (i + 1)], 0, none⟩ p
    rw [bumpChild_length] at this
    rw [this]

/-- invariant of the heap -/
structure HeapOK (h : Heap) : Prop where
  segs : ∀ (r : Nat) (o : RpcObj), h[r]? = some o → SegsOK o.segs
  par : ∀ (r : Nat) (o : RpcObj) (p : Nat), h[r]? = some o → o.parent = some p → p < r
  cnt : ∀ (r : Nat) (o : RpcObj), h[r]? = some o → o.childCount = (h.map RpcObj.parent).count (some r)

/-- the parts of existing RpcId objects that never change -/
def HeapExt (h h' : Heap) : Prop :=
  ∀ (r : Nat) (o : RpcObj), h[r]? = some o → ∃ o', h'[r]? = some o' ∧ o'.segs = o.segs ∧ o'.parent = o.parent

theorem HeapExt.refl (h : Heap) : HeapExt h h := fun _ o ho => ⟨o, ho, rfl, rfl⟩

theorem HeapExt.trans {a b c : Heap} (h1 : HeapExt a b) (h2 : HeapExt b c) : HeapExt a c := by
  intro r o ho
  obtain ⟨o1, ho1, e1, e2⟩ := h1 r o ho
  obtain ⟨o2, ho2, e3, e4⟩ := h2 r o1 ho1
  exact ⟨o2, ho2, e3.trans e1, e4.trans e2⟩

theorem HeapExt.append (h t : Heap) : HeapExt h (h ++ t) := by
  intro r o ho
  have hl : r < h.length := (List.getElem?_eq_some_iff.1 ho).1
  exact ⟨o, by rw [List.getElem?_append_left hl]; exact ho, rfl, rfl⟩

theorem HeapExt.bump (h : Heap) (p : Nat) : HeapExt h (bumpChild h p) := by
  intro r o ho
  rw [bumpChild_getElem?, ho]
  split
  · exact ⟨_, rfl, rfl, rfl⟩
  · exact ⟨_, rfl, rfl, rfl⟩

theorem HeapExt.lt {h h' : Heap} (e : HeapExt h h') {r : Nat} (hr : r < h.length) : r < h'.length := by
  obtain ⟨o', ho', -⟩ := e r h[r] (by simp [hr])
  exact (List.getElem?_eq_some_iff.1 ho').1

theorem HeapOK.nil : HeapOK [] := ⟨by simp, by simp, by simp⟩

theorem HeapOK.count_ge {h : Heap} (H : HeapOK h) {r : Nat} (hr : h.length ≤ r) :
    (h.map RpcObj.parent).count (some r) = 0 := by
  rw [List.count_eq_zero]
  intro hm
  obtain ⟨o, ho, he⟩ := List.mem_map.1 hm
  obtain ⟨k, hk, rfl⟩ := List.getElem_of_mem ho
  have := H.par k h[k] r (by simp [hk]) he
  omega

/-- appending an object whose parent's counter was bumped keeps the invariant -/
theorem HeapOK.bump_append {h : Heap} (H : HeapOK h) {segs : List Seg} (hs : SegsOK segs) {p : Nat} (hp : p < h.length) :
    HeapOK (bumpChild h p ++ [⟨segs, 0, some p⟩]) := by
  have key : ∀ r o, (bumpChild h p ++ [⟨segs, 0, some p⟩])[r]? = some o →
      (r < h.length ∧ ∃ o0, h[r]? = some o0 ∧ o.segs = o0.segs ∧ o.parent = o0.parent ∧
        o.childCount = o0.childCount + if r = p then 1 else 0) ∨ (r = h.length ∧ o = ⟨segs, 0, some p⟩) := by
    intro r o ho
    rw [List.getElem?_append, bumpChild_length] at ho
    split at ho
    · rename_i hr
      left
      refine ⟨hr, h[r], by simp [hr], ?_⟩
      rw [bumpChild_getElem?] at ho
      split at ho
      · rename_i e; subst e; simp [hr] at ho; subst ho; simp
      · rename_i e; simp [hr] at ho; subst ho; simp [e]
    · right
      rename_i hr
      rw [List.getElem?_singleton] at ho
      split at ho
      · exact ⟨by omega, (Option.some.inj ho).symm⟩
      · cases ho
  constructor
  · intro r o ho
    rcases key r o ho with ⟨-, o0, h0, e, -⟩ | ⟨-, rfl⟩
    · rw [e]; exact H.segs r o0 h0
    · exact hs
  · intro r o q ho hq
    rcases key r o ho with ⟨-, o0, h0, -, e, -⟩ | ⟨rfl, rfl⟩
    · rw [e] at hq; exact H.par r o0 q h0 hq
    · cases hq; exact hp
  · intro r o ho
    rw [List.map_append, List.count_append, bumpChild_parents]
    rcases key r o ho with ⟨hr, o0, h0, -, -, e⟩ | ⟨rfl, rfl⟩
    · rw [e, H.cnt r o0 h0]
      by_cases hrp : r = p
      · subst hrp; simp
      · simp [hrp, Ne.symm hrp]
    · rw [H.count_ge (Nat.le_refl _)]
      have : p ≠ h.length := by omega
      simp [this]

theorem HeapOK.append_root {h : Heap} (H : HeapOK h) {segs : List Seg} (hs : SegsOK segs) :
    HeapOK (h ++ [⟨segs, 0, none⟩]) := by
  have key : ∀ r o, (h ++ [(⟨segs, 0, none⟩ : RpcObj)])[r]? = some o →
      (r < h.length ∧ h[r]? = some o) ∨ (r = h.length ∧ o = ⟨segs, 0, none⟩) := by
    intro r o ho
    rw [List.getElem?_append] at ho
    split at ho
    · rename_i hr; exact Or.inl ⟨hr, ho⟩
    · right
      rw [List.getElem?_singleton] at ho
      split at ho
      · exact ⟨by omega, (Option.some.inj ho).symm⟩
      · cases ho
  constructor
  · intro r o ho
    rcases key r o ho with ⟨-, h0⟩ | ⟨-, rfl⟩
    · exact H.segs r o h0
    · exact hs
  · intro r o q ho hq
    rcases key r o ho with ⟨-, h0⟩ | ⟨rfl, rfl⟩
    · exact H.par r o q h0 hq
    · cases hq
  · intro r o ho
    rw [List.map_append, List.count_append]
    rcases key r o ho with ⟨hr, h0⟩ | ⟨rfl, rfl⟩
    · rw [H.cnt r o h0]; simp
    · rw [H.count_ge (Nat.le_refl _)]; simp

/-- the object `new_by_reference_type` creates -/
structure Derives (h : Heap) (t : RefType) (r : Nat) (h' : Heap) (n : Nat) : Prop where
  n_eq : n = h.length
  ext : HeapExt h h'
  ok : HeapOK h'
  len : h'.length = h.length + 1

theorem newByRef_ok {h : Heap} (H : HeapOK h) (t : RefType) {r : Nat} (hr : r < h.length) :
    ∃ h', newByRef h t r = .ok (h', h.length) ∧ Derives h t r h' h.length := by
  have ho : h[r]? = some h[r] := by simp [hr]
  have hs := H.segs r _ ho
  cases t with
  | childOf =>
    refine ⟨_, newChildOf_eq ho hs, rfl, (HeapExt.bump h r).trans (HeapExt.append _ _), H.bump_append (SegsOK.snoc hs.2 _) hr, by simp⟩
  | followsFrom =>
    obtain ⟨i, hi⟩ := hs.1
    have hdl : ∀ s, Seg.str s ∈ (h[r]).segs.dropLast → 46 ∉ s ∧ pyInt s = none := by
      intro s hs'; exact hs.2 s (List.dropLast_subset _ hs')
    have hp : ∀ p, (h[r]).parent = some p → p < h.length := fun p hp => by
      have := H.par r _ p ho hp; omega
    refine ⟨_, newFollowsFrom_eq ho hs hi hp, rfl, ?_, ?_, ?_⟩
    · cases hpar : (h[r]).parent with
      | none => exact HeapExt.append _ _
      | some p => exact (HeapExt.bump h p).trans (HeapExt.append _ _)
    · cases hpar : (h[r]).parent with
      | none => exact H.append_root (SegsOK.snoc hdl _)
      | some p => exact H.bump_append (SegsOK.snoc hdl _) (hp p hpar)
    · cases hpar : (h[r]).parent <;> simp

/-! ### contexts -/

/-- invariant of a context -/
structure CtxOK (h : Heap) (b : Baggage) : Prop where
  nodup : PyDict.NodupKeys b
  trace : ∃ t, PyDict.get? b kTraceId = some (.trace t)
  rpc : ∃ r, r < h.length ∧ PyDict.get? b kRpcId = some (.rpc r)
  other : ∀ k v, PyDict.get? b k = some v → k ≠ kTraceId → k ≠ kRpcId → ∃ s, v = .str s
  noRef : PyDict.get? b (py "reference") = none
  noSelf : PyDict.get? b (py "self") = none

theorem CtxOK.mono {h h' : Heap} {b : Baggage} (c : CtxOK h b) (e : HeapExt h h') : CtxOK h' b := by
  obtain ⟨r, hr, hb⟩ := c.rpc
  exact ⟨c.nodup, c.trace, ⟨r, e.lt hr, hb⟩, c.other, c.noRef, c.noSelf⟩

theorem kTrace_ne_kRpc : kTraceId ≠ kRpcId := by decide

/-- `extractItems`: exactly the items whose key has the prefix, without it -/
theorem afterDot_prefix (k : PyStr) : afterDot (tracerPrefix ++ k) = k := rfl

theorem extract_pairs_get? (carrier : PyDict PyStr PyStr) (k : PyStr) :
    PyDict.get? ((carrier.filter (fun kv => pyStartsWith kv.1 tracerPrefix)).map (fun kv => (afterDot kv.1, kv.2))) k
      = PyDict.get? carrier (tracerPrefix ++ k) := by
  induction carrier with
  | nil => rfl
  | cons a c ih =>
    obtain ⟨k', v'⟩ := a
    by_cases hp : pyStartsWith k' tracerPrefix = true
    · obtain ⟨t, rfl⟩ := pyStartsWith_iff.1 hp
      simp only [List.filter_cons, hp, if_true, List.map_cons, PyDict.get?_cons, afterDot_prefix, ih,
        List.append_cancel_left_eq]
    · have : ¬ (k' = tracerPrefix ++ k) := fun e => hp (pyStartsWith_iff.2 ⟨k, e⟩)
      simp only [List.filter_cons, hp, PyDict.get?_cons, if_neg this]
      simp [ih]

theorem extract_pairs_nodup {carrier : PyDict PyStr PyStr} (hc : PyDict.NodupKeys carrier) :
    PyDict.NodupKeys ((carrier.filter (fun kv => pyStartsWith kv.1 tracerPrefix)).map (fun kv => (afterDot kv.1, kv.2))) := by
  induction carrier with
  | nil => simp [PyDict.NodupKeys]
  | cons a c ih =>
    obtain ⟨k', v'⟩ := a
    have hc' : PyDict.NodupKeys c := by
      simp only [PyDict.NodupKeys, List.map_cons, List.nodup_cons] at hc ⊢; exact hc.2
    have hk : k' ∉ c.map Prod.fst := by
      simp only [PyDict.NodupKeys, List.map_cons, List.nodup_cons] at hc; exact hc.1
    by_cases hp : pyStartsWith k' tracerPrefix = true
    · obtain ⟨t, rfl⟩ := pyStartsWith_iff.1 hp
      simp only [List.filter_cons, hp, if_true, List.map_cons, PyDict.NodupKeys, afterDot_prefix, List.nodup_cons]
      refine ⟨?_, ih hc'⟩
      rw [← PyDict.get?_eq_none_iff, extract_pairs_get?, PyDict.get?_eq_none_iff]
      exact hk
    · simp only [List.filter_cons, hp]
      simpa using ih hc'

theorem extractItems_eq {carrier : PyDict PyStr PyStr} (hc : PyDict.NodupKeys carrier) :
    extractItems carrier = (carrier.filter (fun kv => pyStartsWith kv.1 tracerPrefix)).map (fun kv => (afterDot kv.1, kv.2)) :=
  PyDict.ofPairs_of_nodup (extract_pairs_nodup hc)

theorem extractItems_get? {carrier : PyDict PyStr PyStr} (hc : PyDict.NodupKeys carrier) (k : PyStr) :
    PyDict.get? (extractItems carrier) k = PyDict.get? carrier (tracerPrefix ++ k) := by
  rw [extractItems_eq hc, extract_pairs_get?]

theorem extractItems_nodup (carrier : PyDict PyStr PyStr) : PyDict.NodupKeys (extractItems carrier) :=
  PyDict.nodup_ofPairs _

/-! ### creating contexts -/

/-- what `SpanContext(None, **kwargs)` stores -/
theorem spanCtxFromKwargs_ok {h h' : Heap} {fresh : PyStr} {kw : PyDict PyStr PyStr} {b : Baggage}
    (hn : PyDict.NodupKeys kw) (he : spanCtxFromKwargs h fresh kw = .ok (h', b)) :
    (PyDict.get? kw (py "reference") = none ∧ PyDict.get? kw (py "self") = none) ∧
    ∃ segs, rpcInit ((pySplit 46 ((PyDict.get? kw kRpcId).getD (py "1"))).map Seg.str) = .ok segs ∧
      h' = h ++ [⟨segs, 0, none⟩] ∧ PyDict.NodupKeys b ∧
      ∀ k, PyDict.get? b k =
        if k = kTraceId then some (.trace ((PyDict.get? kw kTraceId).getD fresh))
        else if k = kRpcId then some (.rpc h.length)
        else (PyDict.get? kw k).map BagVal.str := by
  unfold spanCtxFromKwargs at he
  simp only [bind, Except.bind, pure, Except.pure] at he
  split at he
  · cases he
  · rename_i hc
    simp only [Bool.or_eq_true, not_or, PyDict.contains] at hc
    refine ⟨⟨by simpa using hc.1, by simpa using hc.2⟩, ?_⟩
    cases hr : rpcInit ((pySplit 46 ((PyDict.get? kw kRpcId).getD (py "1"))).map Seg.str) with
    | error e => simp [newRpc, hr, bind, Except.bind] at he
    | ok segs =>
      rw [newRpc_ok hr] at he
      simp only [Except.ok.injEq, Prod.mk.injEq] at he
      obtain ⟨rfl, rfl⟩ := he
      refine ⟨segs, rfl, rfl, ?_, ?_⟩
      · have h1 := PyDict.nodup_erase (PyDict.nodup_erase hn kTraceId) kRpcId
        simp only [PyDict.NodupKeys, List.map_append, List.map_map, List.map_cons, List.map_nil]
        rw [List.nodup_append]
        refine ⟨?_, by decide, ?_⟩
        · simpa [PyDict.NodupKeys, Function.comp_def] using h1
        · intro x hx y hy e
          subst e
          have hx' : x ∈ (PyDict.erase (PyDict.erase kw kTraceId) kRpcId).map Prod.fst := by
            simpa [Function.comp_def] using hx
          rw [← PyDict.get?_isSome_iff, PyDict.get?_erase (PyDict.nodup_erase hn kTraceId), PyDict.get?_erase hn] at hx'
          simp at hy
          rcases hy with rfl | rfl <;> simp at hx'
      · intro k
        rw [PyDict.get?_append, PyDict.get?_map, PyDict.get?_erase (PyDict.nodup_erase hn kTraceId), PyDict.get?_erase hn]
        by_cases h1 : k = kTraceId
        · subst h1
          simp [PyDict.get?]
        · by_cases h2 : k = kRpcId
          · subst h2
            simp [PyDict.get?, if_neg kTrace_ne_kRpc, if_neg (Ne.symm kTrace_ne_kRpc)]
          · simp [PyDict.get?, h1, h2, Ne.symm h1, Ne.symm h2]

/-- ... and when it fails -/
theorem spanCtxFromKwargs_error {h : Heap} {fresh : PyStr} {kw : PyDict PyStr PyStr} {e : PyExc}
    (he : spanCtxFromKwargs h fresh kw = .error e) :
    (PyDict.get? kw (py "reference")).isSome ∨ (PyDict.get? kw (py "self")).isSome ∨
    ∃ e', rpcInit ((pySplit 46 ((PyDict.get? kw kRpcId).getD (py "1"))).map Seg.str) = .error e' := by
  unfold spanCtxFromKwargs at he
  simp only [bind, Except.bind, pure, Except.pure] at he
  split at he
  · rename_i hc
    simp only [Bool.or_eq_true, PyDict.contains] at hc
    rcases hc with hc | hc
    · exact Or.inl hc
    · exact Or.inr (Or.inl hc)
  · cases hr : rpcInit ((pySplit 46 ((PyDict.get? kw kRpcId).getD (py "1"))).map Seg.str) with
    | error e => exact Or.inr (Or.inr ⟨e, rfl⟩)
    | ok segs => rw [newRpc_ok hr] at he; cases he

theorem split_args_no_dot (ids : PyStr) : ∀ s, Seg.str s ∈ (pySplit 46 ids).map Seg.str → 46 ∉ s := by
  intro s hs
  obtain ⟨w, hw, he⟩ := List.mem_map.1 hs
  cases he
  exact pySplit_mem_no_sep _ hw

/-- rebuilding from a dotted string succeeds exactly when the last segment is an integer -/
theorem rpcInit_split_ok_iff (ids : PyStr) (segs : List Seg) :
    rpcInit ((pySplit 46 ids).map Seg.str) = .ok segs ↔
      segs = ((pySplit 46 ids).map Seg.str).map Seg.trans ∧
        ∃ w i, (pySplit 46 ids).getLast? = some w ∧ pyInt w = some i := by
  have hne := pySplit_ne_nil 46 ids
  generalize pySplit 46 ids = ws at hne
  unfold rpcInit
  split
  · rename_i h; simp at h; exact absurd h hne
  · simp only [List.getLast?_map]
    rw [List.getLast?_eq_some_getLast hne]
    simp only [Option.map_some, Seg.trans]
    cases hp : pyInt (ws.getLast hne) with
    | none =>
      simp only [reduceCtorEq, false_iff, not_and, not_exists]
      rintro - w i e h; cases e; rw [hp] at h; cases h
    | some i =>
      simp only [Except.ok.injEq]
      constructor
      · rintro rfl; exact ⟨rfl, _, i, rfl, hp⟩
      · rintro ⟨rfl, -⟩; rfl

/-- what `SpanContext(reference)` stores -/
theorem spanCtxFromRef_ok {h : Heap} (H : HeapOK h) {b : Baggage} (C : CtxOK h b) (t : RefType) :
    ∃ r h' b', PyDict.get? b kRpcId = some (.rpc r) ∧ r < h.length ∧ newByRef h t r = .ok (h', h.length) ∧
      spanCtxFromRef h t b = .ok (h', b') ∧ Derives h t r h' h.length ∧ PyDict.NodupKeys b' ∧
      ∀ k, PyDict.get? b' k = if k = kRpcId then some (.rpc h.length) else PyDict.get? b k := by
  obtain ⟨r, hr, hb⟩ := C.rpc
  obtain ⟨h', hnew, D⟩ := newByRef_ok H t hr
  refine ⟨r, h', PyDict.update [(kRpcId, BagVal.rpc h.length)] (PyDict.erase b kRpcId), hb, hr, hnew, ?_, D, ?_, ?_⟩
  · simp only [spanCtxFromRef, hb, hnew, bind, Except.bind, pure, Except.pure]
  · exact PyDict.nodup_update (by simp [PyDict.NodupKeys]) _
  · intro k
    rw [PyDict.get?_update_nodup _ (PyDict.nodup_erase C.nodup _), PyDict.get?_erase C.nodup]
    by_cases e : k = kRpcId
    · subst e; simp [PyDict.get?]
    · simp [PyDict.get?, e, Ne.symm e]

theorem spanCtxFromRef_ctxOK {h h' : Heap} {b b' : Baggage} (C : CtxOK h b) (hl : h'.length = h.length + 1)
    (hn : PyDict.NodupKeys b')
    (hg : ∀ k, PyDict.get? b' k = if k = kRpcId then some (.rpc h.length) else PyDict.get? b k) : CtxOK h' b' := by
  refine ⟨hn, ?_, ⟨h.length, by omega, by rw [hg, if_pos rfl]⟩, ?_, ?_, ?_⟩
  · obtain ⟨t, ht⟩ := C.trace
    exact ⟨t, by rw [hg, if_neg kTrace_ne_kRpc, ht]⟩
  · intro k v hv h1 h2
    rw [hg, if_neg h2] at hv
    exact C.other k v hv h1 h2
  · rw [hg, if_neg (by decide)]; exact C.noRef
  · rw [hg, if_neg (by decide)]; exact C.noSelf

theorem spanCtxFromKwargs_ctxOK {h h' : Heap} {fresh : PyStr} {kw : PyDict PyStr PyStr} {b : Baggage} (H : HeapOK h)
    (hn : PyDict.NodupKeys kw) (he : spanCtxFromKwargs h fresh kw = .ok (h', b)) :
    HeapOK h' ∧ CtxOK h' b ∧ HeapExt h h' := by
  obtain ⟨⟨hr, hs⟩, segs, hi, rfl, hnb, hg⟩ := spanCtxFromKwargs_ok hn he
  refine ⟨H.append_root (rpcInit_ok (split_args_no_dot _) hi), ?_, HeapExt.append _ _⟩
  refine ⟨hnb, ⟨_, by rw [hg, if_pos rfl]⟩, ⟨h.length, by simp, by rw [hg, if_neg (Ne.symm kTrace_ne_kRpc), if_pos rfl]⟩, ?_, ?_, ?_⟩
  · intro k v hv h1 h2
    rw [hg, if_neg h1, if_neg h2] at hv
    obtain ⟨s, -, rfl⟩ := Option.map_eq_some_iff.1 hv
    exact ⟨s, rfl⟩
  · rw [hg, if_neg (by decide), if_neg (by decide), hr]; rfl
  · rw [hg, if_neg (by decide), if_neg (by decide), hs]; rfl

/-! ### histories -/

/-- invariant of every history -/
structure TInv (s : TState) : Prop where
  heap : HeapOK s.heap
  ctxs : ∀ b ∈ s.ctxs, CtxOK s.heap b

/-- what a step may change: objects and contexts are only added -/
structure TExt (s s' : TState) : Prop where
  heap : HeapExt s.heap s'.heap
  ctxs : ∃ l, s'.ctxs = s.ctxs ++ l

theorem TExt.refl (s : TState) : TExt s s := ⟨HeapExt.refl _, [], by simp⟩

theorem TExt.trans {a b c : TState} (h1 : TExt a b) (h2 : TExt b c) : TExt a c := by
  obtain ⟨l1, e1⟩ := h1.ctxs
  obtain ⟨l2, e2⟩ := h2.ctxs
  exact ⟨h1.heap.trans h2.heap, l1 ++ l2, by rw [e2, e1, List.append_assoc]⟩

theorem keep_startSpan {V : Type} {s : TState} (I : TInv s) (fresh : PyStr) (c : Option Baggage)
    (refs : List (RefType × Baggage)) (tags : PyDict PyStr V) (hc : ∀ b, c = some b → CtxOK s.heap b)
    (hr : ∀ t b, (t, b) ∈ refs → CtxOK s.heap b) :
    TInv (s.keep (startSpan s.heap fresh c refs tags)) ∧ TExt s (s.keep (startSpan s.heap fresh c refs tags)) := by
  have fin : ∀ h1 b1, HeapOK h1 → CtxOK h1 b1 → HeapExt s.heap h1 → ∀ (tg : Except PyExc (PyDict PyStr PyStr)),
      TInv (s.keep (match tg with | .error e => (h1, .error e) | .ok tg => (h1, .ok ⟨b1, tg⟩))) ∧
      TExt s (s.keep (match tg with | .error e => (h1, .error e) | .ok tg => (h1, .ok ⟨b1, tg⟩))) := by
    intro h1 b1 H1 C1 E1 tg
    cases tg with
    | error e =>
      exact ⟨⟨H1, fun b hb => (I.ctxs b hb).mono E1⟩, E1, [], by simp [TState.keep]⟩
    | ok tg =>
      refine ⟨⟨H1, ?_⟩, E1, [b1], by simp [TState.keep]⟩
      intro b hb
      simp only [TState.keep, List.mem_append, List.mem_singleton] at hb
      rcases hb with hb | rfl
      · exact (I.ctxs b hb).mono E1
      · exact C1
  unfold startSpan
  cases hch : chooseRef c refs with
  | none =>
    simp only
    cases hk : spanCtxFromKwargs s.heap fresh [] with
    | error e => exact ⟨⟨I.heap, I.ctxs⟩, TExt.refl _⟩
    | ok p =>
      obtain ⟨h1, b1⟩ := p
      obtain ⟨H1, C1, E1⟩ := spanCtxFromKwargs_ctxOK I.heap (by simp [PyDict.NodupKeys]) hk
      exact fin h1 b1 H1 C1 E1 _
  | some p =>
    obtain ⟨t, b⟩ := p
    have hb : CtxOK s.heap b := by
      unfold chooseRef at hch
      cases c with
      | some b0 => simp at hch; obtain ⟨-, rfl⟩ := hch; exact hc _ rfl
      | none => exact hr t b (List.mem_of_head? hch)
    obtain ⟨r, h1, b1, -, -, -, he, D, hn, hg⟩ := spanCtxFromRef_ok I.heap hb t
    simp only [he]
    exact fin h1 b1 D.ok (spanCtxFromRef_ctxOK hb D.len hn hg) D.ext _

theorem tstep_inv {s : TState} (I : TInv s) (op : TOp) : TInv (tstep s op) ∧ TExt s (tstep s op) := by
  cases op with
  | root fresh => simpa only [tstep] using keep_startSpan (V := PyStr) I fresh none [] [] (by simp) (by simp)
  | extract fresh carrier =>
    simp only [tstep, extract]
    cases hk : spanCtxFromKwargs s.heap fresh (extractItems carrier) with
    | error e => exact ⟨I, TExt.refl _⟩
    | ok p =>
      obtain ⟨h1, b1⟩ := p
      obtain ⟨H1, C1, E1⟩ := spanCtxFromKwargs_ctxOK I.heap (extractItems_nodup _) hk
      refine ⟨⟨H1, ?_⟩, E1, [b1], rfl⟩
      intro b hb
      simp only [List.mem_append, List.mem_singleton] at hb
      rcases hb with hb | rfl
      · exact (I.ctxs b hb).mono E1
      · exact C1
  | child i tags =>
    simp only [tstep]
    cases hi : s.ctxs[i]? with
    | none => exact ⟨I, TExt.refl _⟩
    | some b =>
      exact keep_startSpan I [] (some b) [] tags
        (by intro b' e; cases e; exact I.ctxs b (List.mem_of_getElem? hi)) (by simp)
  | ref t i tags =>
    simp only [tstep]
    cases hi : s.ctxs[i]? with
    | none => exact ⟨I, TExt.refl _⟩
    | some b =>
      exact keep_startSpan I [] none [(t, b)] tags (by simp)
        (by intro t' b' e; simp at e; obtain ⟨-, rfl⟩ := e; exact I.ctxs _ (List.mem_of_getElem? hi))
  | inject i carrier => exact ⟨I, TExt.refl _⟩
  | setBaggage i k v =>
    simp only [tstep]
    cases hi : s.ctxs[i]? with
    | none => exact ⟨I, TExt.refl _⟩
    | some b => exact ⟨I, TExt.refl _⟩

theorem foldl_inv {s : TState} (I : TInv s) (ops : List TOp) :
    TInv (ops.foldl tstep s) ∧ TExt s (ops.foldl tstep s) := by
  induction ops generalizing s with
  | nil => exact ⟨I, TExt.refl _⟩
  | cons op ops ih =>
    obtain ⟨I1, E1⟩ := tstep_inv I op
    obtain ⟨I2, E2⟩ := ih I1
    exact ⟨I2, E1.trans E2⟩

theorem trun_inv (ops : List TOp) : TInv (trun ops) :=
  (foldl_inv ⟨HeapOK.nil, by simp⟩ ops).1

end Bolt
