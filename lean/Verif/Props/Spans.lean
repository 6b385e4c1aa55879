import Verif.Props.Tracer
/-!
# C23-C28: spans, rpc ids, trace ids, tags
-/
namespace Bolt

theorem pyJoin_snoc (sep : Nat) (w : PyStr) : ∀ ws : List PyStr, ws ≠ [] →
    pyJoin sep (ws ++ [w]) = pyJoin sep ws ++ sep :: w
  | [], h => absurd rfl h
  | [a], _ => rfl
  | a :: b :: r, _ => by
    have := pyJoin_snoc sep w (b :: r) (by simp)
    simp only [List.cons_append, pyJoin] at this ⊢
    rw [this]; simp

theorem rpcStr_snoc {segs : List Seg} (h : segs ≠ []) (i : Int) :
    rpcStr (segs ++ [.int i]) = rpcStr segs ++ py "." ++ intStr i := by
  unfold rpcStr
  rw [List.map_append, List.map_cons, List.map_nil, pyJoin_snoc _ _ _ (by simpa using h)]
  simp [Seg.toStr]
  rfl

/-- segments of all objects -/
def segsOf (h : Heap) : List (List Seg) := h.map RpcObj.segs
/-- parents of all objects -/
def parentsOf (h : Heap) : List (Option Nat) := h.map RpcObj.parent

theorem segsOf_bump (h : Heap) (r : Nat) : segsOf (bumpChild h r) = segsOf h := by
  apply List.ext_getElem?
  intro k
  simp only [segsOf, List.getElem?_map, bumpChild_getElem?]
  split
  · cases h[k]? <;> simp
  · rfl

theorem parentsOf_bump (h : Heap) (r : Nat) : parentsOf (bumpChild h r) = parentsOf h := bumpChild_parents h r

/-- What a span derivation must do to the collection of rpc ids: exactly one new id is added, whose parent and segments
are as documented; all others keep theirs. `newest` says which id the new context refers to. -/
structure Spec.NewId (h h' : Heap) (parent : Option Nat) (segs : List Seg) : Prop where
  segs_ok : segsOf h' = segsOf h ++ [segs]
  parents_ok : parentsOf h' = parentsOf h ++ [parent]

/-- context `b` of `s` has rpc id object number `r` -/
def Spec.RpcOf (b : Baggage) (r : Nat) : Prop := PyDict.get? b (py "sofaRpcId") = some (.rpc r)

theorem newByRef_newId {h : Heap} (H : HeapOK h) {r : Nat} (hr : r < h.length) {t : RefType} {h' : Heap} {n : Nat}
    (he : newByRef h t r = .ok (h', n)) :
    n = h.length ∧
    (t = .childOf → Spec.NewId h h' (some r)
      ((h[r]).segs ++ [.int (((parentsOf h).count (some r) + 1 : Nat) : Int)])) ∧
    (t = .followsFrom → ∃ i, (h[r]).segs.getLast? = some (.int i) ∧
      Spec.NewId h h' (h[r]).parent ((h[r]).segs.dropLast ++ [.int (i + 1)])) := by
  have ho : h[r]? = some h[r] := by simp [hr]
  have hs := H.segs r _ ho
  cases t with
  | childOf =>
    rw [newByRef, newChildOf_eq ho hs] at he
    cases he
    refine ⟨rfl, fun _ => ⟨?_, ?_⟩, (fun e => nomatch e)⟩
    · simp only [segsOf, List.map_append, List.map_cons, List.map_nil]
      rw [show List.map RpcObj.segs (bumpChild h r) = segsOf h from segsOf_bump h r, H.cnt r _ ho]
      rfl
    · simp only [parentsOf, List.map_append, List.map_cons, List.map_nil]
      rw [show List.map RpcObj.parent (bumpChild h r) = parentsOf h from parentsOf_bump h r]
      rfl
  | followsFrom =>
    obtain ⟨i, hi⟩ := hs.1
    have hp : ∀ p, (h[r]).parent = some p → p < h.length := fun p hp => by
      have := H.par r _ p ho hp; omega
    rw [newByRef, newFollowsFrom_eq ho hs hi hp] at he
    cases he
    refine ⟨rfl, (fun e => nomatch e), fun _ => ⟨i, hi, ?_, ?_⟩⟩
    · cases (h[r]).parent with
      | none => simp [segsOf]
      | some p =>
        have := segsOf_bump h p
        simp only [segsOf, List.map_append] at this ⊢
        rw [this]; rfl
    · cases (h[r]).parent with
      | none => simp [parentsOf]
      | some p =>
        have := parentsOf_bump h p
        simp only [parentsOf, List.map_append] at this ⊢
        rw [this]; rfl

theorem startSpan_of_ref {V : Type} {h h' : Heap} {fresh : PyStr} {c : Option Baggage} {refs : List (RefType × Baggage)}
    {t : RefType} {b b' : Baggage} (hc : chooseRef c refs = some (t, b)) (he : spanCtxFromRef h t b = .ok (h', b'))
    (tags : PyDict PyStr V) :
    (startSpan h fresh c refs tags).1 = h' ∧ ∀ sp, (startSpan h fresh c refs tags).2 = .ok sp → sp.ctx = b' := by
  unfold startSpan
  simp only [hc, he]
  cases tagLoop tags [] with
  | error e => exact ⟨rfl, fun sp h => nomatch h⟩
  | ok tg => exact ⟨rfl, fun sp h => by cases h; rfl⟩

/-- C23 (shape of rpc ids). After any history, for any context `b` (with rpc id object `r`):
* `start_span(child_of=b)` adds one id, under parent `r`, whose segments are those of `r` followed by one more than the
  number of ids already created under `r`, and whose string is the parent's string, a dot and that number;
* `start_span(references=[follows_from b])` adds one id, under the parent of `r`, whose segments are those of `r` with
  the last one incremented.
Nothing else changes, and the id's parent is recorded, so the parents counted are exactly those of earlier calls. -/
theorem C23_rpcid_shape (ops : List TOp) (b : Baggage) (hb : b ∈ (trun ops).ctxs) (fresh : PyStr)
    (tags : PyDict PyStr PyStr) :
    ∃ r, ∃ hr : r < (trun ops).heap.length, Spec.RpcOf b r ∧
    (let h := (trun ops).heap
     let n := (parentsOf h).count (some r) + 1
     let res := startSpan h fresh (some b) [] tags
     Spec.NewId h res.1 (some r) ((h[r]).segs ++ [.int (n : Nat)]) ∧
     rpcStr ((h[r]).segs ++ [.int (n : Nat)]) = rpcStr (h[r]).segs ++ py "." ++ natStr n ∧
     ∀ sp, res.2 = .ok sp → Spec.RpcOf sp.ctx h.length) ∧
    (let h := (trun ops).heap
     let res := startSpan h fresh none [(.followsFrom, b)] tags
     ∃ i, (h[r]).segs.getLast? = some (.int i) ∧
     Spec.NewId h res.1 (h[r]).parent ((h[r]).segs.dropLast ++ [.int (i + 1)]) ∧
     ∀ sp, res.2 = .ok sp → Spec.RpcOf sp.ctx h.length) := by
  have I := trun_inv ops
  have C := I.ctxs b hb
  obtain ⟨r, hr, hbr⟩ := C.rpc
  refine ⟨r, hr, hbr, ?_, ?_⟩
  · obtain ⟨r', h', b', hb1, -, hnew, he, D, -, hg⟩ := spanCtxFromRef_ok I.heap C .childOf
    rw [hbr] at hb1; cases hb1
    have hN := (newByRef_newId I.heap hr hnew).2.1 rfl
    obtain ⟨e1, e2⟩ := startSpan_of_ref (V := PyStr) (fresh := fresh) (c := some b) (refs := []) rfl he tags
    refine ⟨?_, ?_, ?_⟩
    · rw [e1]; exact hN
    · rw [rpcStr_snoc (I.heap.segs r _ (by simp [hr])).ne_nil]
      rfl
    · intro sp hsp
      rw [e2 sp hsp]
      show PyDict.get? b' kRpcId = _
      rw [hg, if_pos rfl]
  · obtain ⟨r', h', b', hb1, -, hnew, he, D, -, hg⟩ := spanCtxFromRef_ok I.heap C .followsFrom
    rw [hbr] at hb1; cases hb1
    obtain ⟨i, hi, hN⟩ := (newByRef_newId I.heap hr hnew).2.2 rfl
    obtain ⟨e1, e2⟩ := startSpan_of_ref (V := PyStr) (fresh := fresh) (c := none) (refs := [(.followsFrom, b)]) rfl he tags
    refine ⟨i, hi, ?_, ?_⟩
    · rw [e1]; exact hN
    · intro sp hsp
      rw [e2 sp hsp]
      show PyDict.get? b' kRpcId = _
      rw [hg, if_pos rfl]

/-- new root ids (`start_span` without reference, `extract`) have no parent, so the parents recorded are exactly those
described by `C23_rpcid_shape` -/
theorem C23_roots (ops : List TOp) (fresh : PyStr) (carrier : PyDict PyStr PyStr) :
    Spec.NewId (trun ops).heap (startSpan (V := PyStr) (trun ops).heap fresh none [] []).1 none [.int 1] ∧
    (∀ h' b', extract (trun ops).heap fresh carrier = .ok (h', b') →
      ∃ segs, Spec.NewId (trun ops).heap h' none segs ∧ Spec.RpcOf b' (trun ops).heap.length) := by
  constructor
  · simp only [startSpan, chooseRef, List.head?_nil]
    cases hk : spanCtxFromKwargs (trun ops).heap fresh [] with
    | error e =>
      rcases spanCtxFromKwargs_error hk with h | h | ⟨e', h⟩
      · cases h
      · cases h
      · rw [show PyDict.get? ([] : PyDict PyStr PyStr) kRpcId = none from rfl, rpcInit_default] at h; cases h
    | ok p =>
      obtain ⟨h', b'⟩ := p
      obtain ⟨-, segs, hi, rfl, -⟩ := spanCtxFromKwargs_ok (by simp [PyDict.NodupKeys]) hk
      rw [show PyDict.get? ([] : PyDict PyStr PyStr) kRpcId = none from rfl, rpcInit_default] at hi
      cases hi
      simp only [tagLoop]
      exact ⟨by simp [segsOf], by simp [parentsOf]⟩
  · intro h' b' he
    unfold extract at he
    cases hk : spanCtxFromKwargs (trun ops).heap fresh (extractItems carrier) with
    | error e => rw [hk] at he; cases he
    | ok p =>
      rw [hk] at he; cases he
      obtain ⟨-, segs, hi, rfl, -, hg⟩ := spanCtxFromKwargs_ok (extractItems_nodup carrier) hk
      refine ⟨segs, ⟨by simp [segsOf], by simp [parentsOf]⟩, ?_⟩
      show PyDict.get? b' kRpcId = _
      rw [hg, if_neg (Ne.symm kTrace_ne_kRpc), if_pos rfl]

/-- a history with children, grandchildren and follow-ups: the ids are as documented -/
example : let s := trun [.root (py "t"), .child 0 [], .child 0 [], .ref .followsFrom 2 [], .child 1 [], .child 0 []]
    s.ctxs.length = 6 ∧ segsOf s.heap = [[.int 1], [.int 1, .int 1], [.int 1, .int 2], [.int 1, .int 3],
      [.int 1, .int 1, .int 1], [.int 1, .int 4]] := by decide

/-! ## C24 -/

/-- the rpc id string of the `i`-th context -/
def Spec.idStr (s : TState) (i : Nat) : Option PyStr :=
  (s.ctxs[i]?).bind (fun b => (PyDict.get? b (py "sofaRpcId")).map (BagVal.toStr s.heap))

/-- span derivations only -/
def Spec.isDerivation : TOp → Bool
  | .child _ _ => true
  | .ref _ _ _ => true
  | _ => false

/-- C24 as stated -/
def C24_full : Prop := ∀ (fresh : PyStr) (ops : List TOp), ops.all Spec.isDerivation = true →
  let s := ops.foldl tstep (trun [.root fresh])
  ∀ i j x y, Spec.idStr s i = some x → Spec.idStr s j = some y → i ≠ j → x ≠ y

/-- C24 fails: two children, then a follow-up of the first one, which gets the id of the second. -/
theorem C24_violated : ¬ C24_full := by
  intro hf
  exact hf (py "t") [.child 0 [], .child 0 [], .ref .followsFrom 1 []] (by decide) 2 3 (py "1.2") (py "1.2")
    (by decide) (by decide) (by decide) rfl

/-- Every `follows_from` in the history refers to the newest id under its parent. -/
def Spec.Disciplined (s : TState) : List TOp → Prop
  | [] => True
  | op :: ops =>
    Spec.isDerivation op = true ∧
    (∀ i tags b r o, op = .ref .followsFrom i tags → s.ctxs[i]? = some b → Spec.RpcOf b r → s.heap[r]? = some o →
      ∀ r' o', r < r' → s.heap[r']? = some o' → o'.parent ≠ o.parent) ∧
    Spec.Disciplined (tstep s op) ops

/-- how many of the first `r + 1` objects have the parent of object `r` -/
def rank (h : Heap) (r : Nat) (p : Option Nat) : Nat := ((parentsOf h).take (r + 1)).count p

/-- invariant: ids enumerate the children of each parent in creation order, starting from `R ++ [l + 1]` at top level -/
structure TreeInv (R : List Seg) (l : Int) (h : Heap) : Prop where
  ok : HeapOK h
  top : ∀ (r : Nat) (o : RpcObj), h[r]? = some o → o.parent = none → o.segs = R ++ [.int (l + rank h r none)]
  sub : ∀ (r p : Nat) (o q : RpcObj), h[r]? = some o → o.parent = some p → h[p]? = some q →
    o.segs = q.segs ++ [.int (rank h r (some p))]

theorem getElem?_segsOf {h : Heap} {r : Nat} {o : RpcObj} (ho : h[r]? = some o) : (segsOf h)[r]? = some o.segs := by
  simp [segsOf, ho]

theorem getElem?_parentsOf {h : Heap} {r : Nat} {o : RpcObj} (ho : h[r]? = some o) :
    (parentsOf h)[r]? = some o.parent := by simp [parentsOf, ho]

theorem obj_of_segs {h : Heap} {r : Nat} {x : List Seg} (hx : (segsOf h)[r]? = some x) :
    ∃ o, h[r]? = some o ∧ o.segs = x := by
  simp only [segsOf, List.getElem?_map] at hx
  exact Option.map_eq_some_iff.1 hx

/-- an object of `h` after one more id was added -/
theorem newId_cases {h h' : Heap} {p : Option Nat} {segs : List Seg} (N : Spec.NewId h h' p segs) {r : Nat} {o : RpcObj}
    (ho : h'[r]? = some o) :
    (r < h.length ∧ ∃ o0, h[r]? = some o0 ∧ o0.segs = o.segs ∧ o0.parent = o.parent) ∨
    (r = h.length ∧ o.segs = segs ∧ o.parent = p) := by
  have h1 := getElem?_segsOf ho
  have h2 := getElem?_parentsOf ho
  rw [N.segs_ok, List.getElem?_append] at h1
  rw [N.parents_ok, List.getElem?_append] at h2
  have l1 : (segsOf h).length = h.length := by simp [segsOf]
  have l2 : (parentsOf h).length = h.length := by simp [parentsOf]
  rw [l1] at h1
  rw [l2] at h2
  split at h1
  · rename_i hr
    rw [if_pos hr] at h2
    left
    refine ⟨hr, h[r], by simp [hr], ?_, ?_⟩
    · simpa [segsOf, hr] using h1
    · simpa [parentsOf, hr] using h2
  · rename_i hr
    rw [if_neg hr] at h2
    right
    rw [List.getElem?_singleton] at h1 h2
    split at h1
    · rename_i e
      rw [if_pos e] at h2
      exact ⟨by omega, (Option.some.inj h1).symm, (Option.some.inj h2).symm⟩
    · cases h1

theorem rank_old {h h' : Heap} {p : Option Nat} {segs : List Seg} (N : Spec.NewId h h' p segs) {r : Nat}
    (hr : r < h.length) (q : Option Nat) : rank h' r q = rank h r q := by
  unfold rank
  rw [N.parents_ok, List.take_append_of_le_length (by simp [parentsOf]; omega)]

theorem rank_new {h h' : Heap} {p : Option Nat} {segs : List Seg} (N : Spec.NewId h h' p segs) (q : Option Nat) :
    rank h' h.length q = (parentsOf h).count q + if p = q then 1 else 0 := by
  unfold rank
  rw [N.parents_ok, List.take_of_length_le (by simp [parentsOf]), List.count_append]
  by_cases e : p = q
  · subst e; simp
  · simp [e]

/-- ids in a tree are distinct -/
theorem TreeInv.length_lt {R : List Seg} {l : Int} {h : Heap} (T : TreeInv R l h) : ∀ (r : Nat) (o : RpcObj),
    h[r]? = some o → R.length < o.segs.length ∧ (∀ p, o.parent = some p → R.length + 1 < o.segs.length) := by
  intro r
  induction r using Nat.strongRecOn with
  | ind r ih =>
    intro o ho
    cases hp : o.parent with
    | none =>
      rw [T.top r o ho hp]
      refine ⟨by simp, fun p h => nomatch h⟩
    | some p =>
      have hlt := T.ok.par r o p ho hp
      have hrl : r < h.length := (List.getElem?_eq_some_iff.1 ho).1
      have hq : h[p]? = some (h[p]'(by omega)) := by simp
      have := (ih p hlt _ hq).1
      rw [T.sub r p o _ ho hp hq]
      refine ⟨by simp; omega, fun _ _ => by simp; omega⟩

theorem rank_lt {h : Heap} {a b : Nat} (hab : a < b) {o : RpcObj} (hb : h[b]? = some o) :
    rank h a o.parent < rank h b o.parent := by
  unfold rank
  have hp := getElem?_parentsOf hb
  rw [List.take_add_one (i := b), hp]
  have : ((parentsOf h).take (a + 1)).count o.parent ≤ ((parentsOf h).take b).count o.parent := by
    have : (parentsOf h).take (a + 1) = ((parentsOf h).take b).take (a + 1) := by
      rw [List.take_take]; congr 1; omega
    rw [this]
    exact (List.take_sublist _ _).count_le _
  simp
  omega

theorem TreeInv.distinct {R : List Seg} {l : Int} {h : Heap} (T : TreeInv R l h) :
    ∀ (a b : Nat) (oa ob : RpcObj), h[a]? = some oa → h[b]? = some ob → a < b → oa.segs ≠ ob.segs := by
  intro a b
  induction b using Nat.strongRecOn generalizing a with
  | ind b ih =>
    intro oa ob ha hb hab heq
    have la := T.length_lt a oa ha
    have lb := T.length_lt b ob hb
    have hal : a < h.length := (List.getElem?_eq_some_iff.1 ha).1
    have hbl : b < h.length := (List.getElem?_eq_some_iff.1 hb).1
    cases hpa : oa.parent with
    | none =>
      cases hpb : ob.parent with
      | none =>
        rw [T.top a oa ha hpa, T.top b ob hb hpb] at heq
        have := List.append_cancel_left heq
        simp only [List.cons.injEq, Seg.int.injEq, and_true] at this
        have h1 := rank_lt hab hb
        rw [hpb] at h1
        omega
      | some p =>
        have h1 := lb.2 p hpb
        have h2 : oa.segs.length = R.length + 1 := by rw [T.top a oa ha hpa]; simp
        rw [heq] at h2; omega
    | some p =>
      cases hpb : ob.parent with
      | none =>
        have h1 := la.2 p hpa
        have h2 : ob.segs.length = R.length + 1 := by rw [T.top b ob hb hpb]; simp
        rw [← heq] at h2; omega
      | some q =>
        have hpl := T.ok.par a oa p ha hpa
        have hql := T.ok.par b ob q hb hpb
        have hp : h[p]? = some (h[p]'(by omega)) := by simp
        have hq : h[q]? = some (h[q]'(by omega)) := by simp
        have e1 := T.sub a p oa _ ha hpa hp
        have e2 := T.sub b q ob _ hb hpb hq
        rw [e1, e2] at heq
        have e3 := List.append_inj_left' heq rfl
        have e4 := List.append_inj_right' heq rfl
        simp only [List.cons.injEq, Seg.int.injEq, and_true] at e4
        have hpq : p = q := by
          rcases Nat.lt_trichotomy p q with hlt | he | hlt
          · exact absurd e3 (ih q hql p _ _ hp hq hlt)
          · exact he
          · exact absurd e3.symm (ih p (by omega) q _ _ hq hp hlt)
        subst hpq
        have h1 := rank_lt hab hb
        rw [hpb] at h1
        omega

/-- adding a well-placed id keeps the tree -/
theorem TreeInv.add {R : List Seg} {l : Int} {h h' : Heap} (T : TreeInv R l h) (H' : HeapOK h') {p : Option Nat}
    {segs : List Seg} (N : Spec.NewId h h' p segs)
    (htop : p = none → segs = R ++ [.int (l + ((parentsOf h).count none + 1 : Nat))])
    (hsub : ∀ (q : Nat) (o : RpcObj), p = some q → h[q]? = some o →
      segs = o.segs ++ [.int ((parentsOf h).count (some q) + 1 : Nat)]) : TreeInv R l h' := by
  refine ⟨H', ?_, ?_⟩
  · intro r o ho hp
    rcases newId_cases N ho with ⟨hr, o0, h0, e1, e2⟩ | ⟨rfl, e1, e2⟩
    · rw [rank_old N hr, ← e1]; exact T.top r o0 h0 (by rw [e2, hp])
    · rw [e2] at hp
      rw [rank_new N, if_pos hp, e1]; exact htop hp
  · intro r q o oq ho hp hq
    have hqr := H'.par r o q ho hp
    rcases newId_cases N ho with ⟨hr, o0, h0, e1, e2⟩ | ⟨rfl, e1, e2⟩
    · have hq0 : ∃ q0, h[q]? = some q0 ∧ q0.segs = oq.segs := by
        rcases newId_cases N hq with ⟨-, q0, h1, h2, -⟩ | ⟨h1, -⟩
        · exact ⟨q0, h1, h2⟩
        · omega
      obtain ⟨q0, hq1, hq2⟩ := hq0
      rw [rank_old N hr, ← e1, ← hq2]
      exact T.sub r q o0 q0 h0 (by rw [e2, hp]) hq1
    · have hq0 : ∃ q0, h[q]? = some q0 ∧ q0.segs = oq.segs := by
        rcases newId_cases N hq with ⟨-, q0, h1, h2, -⟩ | ⟨h1, -⟩
        · exact ⟨q0, h1, h2⟩
        · omega
      obtain ⟨q0, hq1, hq2⟩ := hq0
      rw [rank_new N, if_pos (by rw [← e2, hp]), e1, ← hq2]
      exact hsub q q0 (by rw [← e2, hp]) hq1

/-- the newest id under a parent has rank = number of ids under it -/
theorem rank_newest {h : Heap} {r : Nat} {o : RpcObj} (_ho : h[r]? = some o)
    (hnew : ∀ (r' : Nat) (o' : RpcObj), r < r' → h[r']? = some o' → o'.parent ≠ o.parent) :
    rank h r o.parent = (parentsOf h).count o.parent := by
  unfold rank
  have := List.take_append_drop (r + 1) (parentsOf h)
  conv => rhs; rw [← this, List.count_append]
  have : ((parentsOf h).drop (r + 1)).count o.parent = 0 := by
    rw [List.count_eq_zero]
    intro hm
    obtain ⟨k, hk, he⟩ := List.getElem_of_mem hm
    rw [List.getElem_drop] at he
    simp only [parentsOf, List.length_drop, List.length_map] at hk
    have hlt : r + 1 + k < h.length := by omega
    refine hnew (r + 1 + k) (h[r + 1 + k]) (by omega) (by simp [hlt]) ?_
    simpa [parentsOf] using he
  omega

theorem derive_tree {R : List Seg} {l : Int} {s : TState} (I : TInv s) (T : TreeInv R l s.heap) {b : Baggage}
    (hb : b ∈ s.ctxs) (t : RefType)
    (hd : t = .followsFrom → ∀ (r : Nat) (o : RpcObj), Spec.RpcOf b r → s.heap[r]? = some o →
      ∀ (r' : Nat) (o' : RpcObj), r < r' → s.heap[r']? = some o' → o'.parent ≠ o.parent)
    {h' : Heap} {b' : Baggage} (he : spanCtxFromRef s.heap t b = .ok (h', b')) : TreeInv R l h' := by
  obtain ⟨r, h1, b1, hbr, hr, hnew, he1, D, -, -⟩ := spanCtxFromRef_ok I.heap (I.ctxs b hb) t
  rw [he] at he1; cases he1
  obtain ⟨-, hc, hf⟩ := newByRef_newId I.heap hr hnew
  have ho : s.heap[r]? = some s.heap[r] := by simp [hr]
  cases t with
  | childOf =>
    refine T.add D.ok (hc rfl) (fun h => nomatch h) ?_
    intro q o hq hoq; cases hq; rw [ho] at hoq; cases hoq; rfl
  | followsFrom =>
    obtain ⟨i, hi, N⟩ := hf rfl
    have hrank := rank_newest ho (hd rfl r _ hbr ho)
    refine T.add D.ok N ?_ ?_
    · intro hp
      have e := T.top r _ ho hp
      rw [hp] at hrank
      rw [e] at hi ⊢
      simp only [List.getLast?_append, List.getLast?_singleton, Option.some_or, Option.some.injEq, Seg.int.injEq] at hi
      rw [List.dropLast_concat, ← hi, hrank]
      congr 3
      omega
    · intro q o hp hq
      have e := T.sub r q _ o ho hp hq
      rw [hp] at hrank
      rw [e] at hi ⊢
      simp only [List.getLast?_append, List.getLast?_singleton, Option.some_or, Option.some.injEq, Seg.int.injEq] at hi
      rw [List.dropLast_concat, ← hi, hrank]
      congr 3

/-- contexts refer to different objects -/
def DistinctRpcs (s : TState) : Prop := ∀ (i j : Nat) (b b' : Baggage) (r : Nat), s.ctxs[i]? = some b → s.ctxs[j]? = some b' →
  Spec.RpcOf b r → Spec.RpcOf b' r → i = j

theorem keep_ref {V : Type} {R : List Seg} {l : Int} {s : TState} (I : TInv s) (T : TreeInv R l s.heap)
    (hdist : DistinctRpcs s) {b : Baggage} (hb : b ∈ s.ctxs) (t : RefType) (fresh : PyStr) (c : Option Baggage)
    (refs : List (RefType × Baggage)) (hch : chooseRef c refs = some (t, b)) (tags : PyDict PyStr V)
    (hd : t = .followsFrom → ∀ (r : Nat) (o : RpcObj), Spec.RpcOf b r → s.heap[r]? = some o →
      ∀ (r' : Nat) (o' : RpcObj), r < r' → s.heap[r']? = some o' → o'.parent ≠ o.parent) :
    TreeInv R l (s.keep (startSpan s.heap fresh c refs tags)).heap ∧
      DistinctRpcs (s.keep (startSpan s.heap fresh c refs tags)) := by
  obtain ⟨r, h1, b1, hbr, hr, hnew, he1, D, -, hg⟩ := spanCtxFromRef_ok I.heap (I.ctxs b hb) t
  have T1 := derive_tree I T hb t hd he1
  unfold startSpan
  simp only [hch, he1]
  cases tagLoop tags [] with
  | error e => exact ⟨T1, hdist⟩
  | ok tg =>
    refine ⟨T1, ?_⟩
    intro i j bi bj ri hi hj hri hrj
    simp only [TState.keep, List.getElem?_append] at hi hj
    have hold : ∀ (k : Nat) (bk : Baggage), s.ctxs[k]? = some bk → Spec.RpcOf bk ri → ri < s.heap.length := by
      intro k bk hk hrk
      obtain ⟨r0, hr0, hb0⟩ := (I.ctxs bk (List.mem_of_getElem? hk)).rpc
      have : PyDict.get? bk kRpcId = some (.rpc ri) := hrk
      rw [hb0] at this; cases this; exact hr0
    have hnewr : ∀ (bk : Baggage), bk = b1 → Spec.RpcOf bk ri → ri = s.heap.length := by
      intro bk e hrk
      subst e
      have : PyDict.get? bk kRpcId = some (.rpc ri) := hrk
      rw [hg, if_pos rfl] at this; cases this; rfl
    split at hi
    · split at hj
      · exact hdist i j bi bj ri hi hj hri hrj
      · rw [List.getElem?_singleton] at hj
        split at hj
        · have := hold i bi hi hri
          have := hnewr bj (Option.some.inj hj).symm hrj
          omega
        · cases hj
    · rw [List.getElem?_singleton] at hi
      split at hi
      · have h2 := hnewr bi (Option.some.inj hi).symm hri
        split at hj
        · have := hold j bj hj hrj; omega
        · rw [List.getElem?_singleton] at hj
          split at hj
          · omega
          · cases hj
      · cases hi

theorem disciplined_tree {R : List Seg} {l : Int} (ops : List TOp) : ∀ {s : TState}, TInv s → TreeInv R l s.heap →
    DistinctRpcs s → Spec.Disciplined s ops →
    TreeInv R l (ops.foldl tstep s).heap ∧ DistinctRpcs (ops.foldl tstep s) := by
  induction ops with
  | nil => intro s _ T D _; exact ⟨T, D⟩
  | cons op ops ih =>
    intro s I T D hdisc
    obtain ⟨h1, h2, h3⟩ := hdisc
    have I' := (tstep_inv I op).1
    suffices h : TreeInv R l (tstep s op).heap ∧ DistinctRpcs (tstep s op) from ih I' h.1 h.2 h3
    cases op with
    | child i tags =>
      simp only [tstep]
      cases hi : s.ctxs[i]? with
      | none => exact ⟨T, D⟩
      | some b =>
        exact keep_ref I T D (List.mem_of_getElem? hi) .childOf [] (some b) [] rfl tags (fun h => nomatch h)
    | ref t i tags =>
      simp only [tstep]
      cases hi : s.ctxs[i]? with
      | none => exact ⟨T, D⟩
      | some b =>
        refine keep_ref I T D (List.mem_of_getElem? hi) t [] none [(t, b)] rfl tags ?_
        intro ht r o hr ho
        subst ht
        exact h2 i tags b r o rfl hi hr ho
    | root _ => simp [Spec.isDerivation] at h1
    | extract _ _ => simp [Spec.isDerivation] at h1
    | inject _ _ => simp [Spec.isDerivation] at h1
    | setBaggage _ _ _ => simp [Spec.isDerivation] at h1

/-- the first context starts a tree -/
theorem first_tree (first : TOp) (hfirst : (∃ f, first = .root f) ∨ ∃ f c, first = .extract f c) :
    ∃ R l, TreeInv R l (trun [first]).heap ∧ DistinctRpcs (trun [first]) := by
  have I0 := trun_inv [first]
  have hN : (trun [first]).heap = [] ∧ (trun [first]).ctxs = [] ∨
      ∃ segs b, (trun [first]).heap = [⟨segs, 0, none⟩] ∧ (trun [first]).ctxs = [b] := by
    have hkw : ∀ (f : PyStr) (kw : PyDict PyStr PyStr) (h' : Heap) (b' : Baggage), PyDict.NodupKeys kw →
        spanCtxFromKwargs [] f kw = .ok (h', b') → ∃ segs, h' = [⟨segs, 0, none⟩] := by
      intro f kw h' b' hn hk
      obtain ⟨-, segs, -, rfl, -⟩ := spanCtxFromKwargs_ok hn hk
      exact ⟨segs, rfl⟩
    rcases hfirst with ⟨f, rfl⟩ | ⟨f, c, rfl⟩
    · simp only [trun, List.foldl_cons, List.foldl_nil, tstep, startSpan, chooseRef, List.head?_nil, tagLoop]
      cases hk : spanCtxFromKwargs [] f [] with
      | error e => left; exact ⟨rfl, rfl⟩
      | ok p =>
        obtain ⟨h', b'⟩ := p
        obtain ⟨segs, rfl⟩ := hkw f [] h' b' (by simp [PyDict.NodupKeys]) hk
        right; exact ⟨segs, b', rfl, rfl⟩
    · simp only [trun, List.foldl_cons, List.foldl_nil, tstep, extract]
      cases hk : spanCtxFromKwargs [] f (extractItems c) with
      | error e => left; exact ⟨rfl, rfl⟩
      | ok p =>
        obtain ⟨h', b'⟩ := p
        obtain ⟨segs, rfl⟩ := hkw f _ h' b' (extractItems_nodup c) hk
        right; exact ⟨segs, b', rfl, rfl⟩
  rcases hN with ⟨e1, e2⟩ | ⟨segs, b, e1, e2⟩
  · exact ⟨[], 0, ⟨I0.heap, by rw [e1]; simp, by rw [e1]; simp⟩, by intro i j b b' r hi; rw [e2] at hi; simp at hi⟩
  · have hs := I0.heap.segs 0 ⟨segs, 0, none⟩ (by rw [e1]; rfl)
    obtain ⟨k, hk⟩ := hs.1
    refine ⟨segs.dropLast, k - 1, ⟨I0.heap, ?_, ?_⟩, ?_⟩
    · intro r o ho hp
      rw [e1] at ho ⊢
      rw [List.getElem?_singleton] at ho
      split at ho
      · cases ho
        rename_i hr
        subst hr
        simp only [rank, parentsOf, List.map_cons, List.map_nil]
        have := getLast?_decomp hk
        conv => lhs; rw [show segs = segs.dropLast ++ [.int k] from this]
        simp
      · cases ho
    · intro r p o q ho hp
      rw [e1, List.getElem?_singleton] at ho
      split at ho
      · cases ho; cases hp
      · cases ho
    · intro i j b1 b2 r hi hj _ _
      rw [e2, List.getElem?_singleton] at hi hj
      split at hi
      · split at hj
        · omega
        · cases hj
      · cases hi

/-- C24 for histories in which follow-ups are only made from the newest id under a parent (in particular all histories
without `follows_from`), starting from a new trace or from an extracted context. -/
theorem C24_rpcids_unique_partial (first : TOp) (hfirst : (∃ f, first = .root f) ∨ ∃ f c, first = .extract f c)
    (ops : List TOp) (hd : Spec.Disciplined (trun [first]) ops) :
    let s := ops.foldl tstep (trun [first])
    ∀ i j x y, Spec.idStr s i = some x → Spec.idStr s j = some y → i ≠ j → x ≠ y := by
  intro s i j x y hx hy hij hxy
  obtain ⟨R, l, T0, D0⟩ := first_tree first hfirst
  obtain ⟨T, D⟩ := disciplined_tree ops (trun_inv [first]) T0 D0 hd
  have I : TInv s := (foldl_inv (trun_inv [first]) ops).1
  have get : ∀ k z, Spec.idStr s k = some z → ∃ b r o, s.ctxs[k]? = some b ∧ Spec.RpcOf b r ∧ s.heap[r]? = some o ∧
      z = rpcStr o.segs := by
    intro k z hz
    unfold Spec.idStr at hz
    obtain ⟨b, hb, hz⟩ := Option.bind_eq_some_iff.1 hz
    obtain ⟨r, hr, hbr⟩ := (I.ctxs b (List.mem_of_getElem? hb)).rpc
    have hz' : (PyDict.get? b kRpcId).map (BagVal.toStr s.heap) = some z := hz
    rw [hbr] at hz'
    have ho : s.heap[r]? = some s.heap[r] := by simp [hr]
    refine ⟨b, r, _, hb, hbr, ho, ?_⟩
    simp only [Option.map_some, Option.some.injEq, BagVal.toStr, ho, Option.getD_some] at hz'
    exact hz'.symm
  obtain ⟨b1, r1, o1, hb1, hr1, ho1, rfl⟩ := get i x hx
  obtain ⟨b2, r2, o2, hb2, hr2, ho2, rfl⟩ := get j y hy
  have hseg := rpcStr_inj (I.heap.segs r1 o1 ho1) (I.heap.segs r2 o2 ho2) hxy
  rcases Nat.lt_trichotomy r1 r2 with h | h | h
  · exact T.distinct r1 r2 o1 o2 ho1 ho2 h hseg
  · subst h; exact hij (D i j b1 b2 r1 hb1 hb2 hr1 hr2)
  · exact T.distinct r2 r1 o2 o1 ho2 ho1 h hseg.symm

/-- no tags are given -/
def Spec.untagged : TOp → Bool
  | .child _ tags => tags.isEmpty
  | .ref _ _ tags => tags.isEmpty
  | _ => true

/-- every id belongs to a context -/
def Covered (s : TState) : Prop := ∀ (r : Nat), r < s.heap.length → ∃ (j : Nat) (b : Baggage), s.ctxs[j]? = some b ∧ Spec.RpcOf b r

theorem keep_untagged {s : TState} (I : TInv s) {b : Baggage} (hb : b ∈ s.ctxs) (t : RefType) (fresh : PyStr)
    (c : Option Baggage) (refs : List (RefType × Baggage)) (hch : chooseRef c refs = some (t, b)) :
    ∃ b' : Baggage, (s.keep (startSpan s.heap fresh c refs ([] : PyDict PyStr PyStr))).ctxs = s.ctxs ++ [b'] ∧
      Spec.RpcOf b' s.heap.length ∧
      (s.keep (startSpan s.heap fresh c refs ([] : PyDict PyStr PyStr))).heap.length = s.heap.length + 1 ∧
      spanCtxFromRef s.heap t b = .ok ((s.keep (startSpan s.heap fresh c refs ([] : PyDict PyStr PyStr))).heap, b') := by
  obtain ⟨r, h1, b1, hbr, hr, hnew, he1, D, -, hg⟩ := spanCtxFromRef_ok I.heap (I.ctxs b hb) t
  unfold startSpan
  simp only [hch, he1, tagLoop]
  refine ⟨b1, rfl, ?_, ?_, rfl⟩
  · show PyDict.get? b1 kRpcId = _
    rw [hg, if_pos rfl]
  · show h1.length = _
    obtain ⟨-, hc, hf⟩ := newByRef_newId I.heap hr hnew
    have len : ∀ p segs, Spec.NewId s.heap h1 p segs → h1.length = s.heap.length + 1 := by
      intro p segs N
      have := congrArg List.length N.segs_ok
      simpa [segsOf] using this
    cases t with
    | childOf => exact len _ _ (hc rfl)
    | followsFrom => obtain ⟨i, -, N⟩ := hf rfl; exact len _ _ N

theorem covered_step {s : TState} (I : TInv s) (C : Covered s) (op : TOp) (h1 : Spec.isDerivation op = true)
    (h2 : Spec.untagged op = true) : Covered (tstep s op) := by
  have key : ∀ (b : Baggage) (t : RefType) (c : Option Baggage) (refs : List (RefType × Baggage)), b ∈ s.ctxs →
      chooseRef c refs = some (t, b) → Covered (s.keep (startSpan s.heap [] c refs ([] : PyDict PyStr PyStr))) := by
    intro b t c refs hb hch
    obtain ⟨b', e1, hb', e2, -⟩ := keep_untagged I hb t [] c refs hch
    intro r hr
    rw [e2] at hr
    by_cases h : r < s.heap.length
    · obtain ⟨j, bj, hj, hrj⟩ := C r h
      refine ⟨j, bj, ?_, hrj⟩
      rw [e1, List.getElem?_append_left (List.getElem?_eq_some_iff.1 hj).1]
      exact hj
    · obtain rfl : r = s.heap.length := by omega
      exact ⟨s.ctxs.length, b', by rw [e1]; simp, hb'⟩
  cases op with
  | child i tags =>
    obtain rfl : tags = [] := List.isEmpty_iff.1 h2
    simp only [tstep]
    cases hi : s.ctxs[i]? with
    | none => exact C
    | some b => exact key b .childOf (some b) [] (List.mem_of_getElem? hi) rfl
  | ref t i tags =>
    obtain rfl : tags = [] := List.isEmpty_iff.1 h2
    simp only [tstep]
    cases hi : s.ctxs[i]? with
    | none => exact C
    | some b => exact key b t none [(t, b)] (List.mem_of_getElem? hi) rfl
  | root _ => simp [Spec.isDerivation] at h1
  | extract _ _ => simp [Spec.isDerivation] at h1
  | inject _ _ => simp [Spec.isDerivation] at h1
  | setBaggage _ _ _ => simp [Spec.isDerivation] at h1

theorem disciplined_derivations {s : TState} {ops : List TOp} (h : Spec.Disciplined s ops) :
    ops.all Spec.isDerivation = true := by
  induction ops generalizing s with
  | nil => rfl
  | cons op ops ih => simp only [List.all_cons, Bool.and_eq_true]; exact ⟨h.1, ih h.2.2⟩

theorem covered_run {s : TState} (I : TInv s) (C : Covered s) (ops : List TOp) (h1 : ops.all Spec.isDerivation = true)
    (h2 : ops.all Spec.untagged = true) : Covered (ops.foldl tstep s) := by
  induction ops generalizing s with
  | nil => exact C
  | cons op ops ih =>
    simp only [List.all_cons, Bool.and_eq_true] at h1 h2
    exact ih (tstep_inv I op).1 (covered_step I C op h1.1 h2.1) h1.2 h2.2

/-- the next object after `r` with the same parent -/
theorem next_sibling {h : Heap} {r : Nat} {o : RpcObj} : ∀ (d r' : Nat) (o' : RpcObj), r' = r + 1 + d → h[r']? = some o' →
    o'.parent = o.parent →
    ∃ (n : Nat) (on : RpcObj), h[n]? = some on ∧ on.parent = o.parent ∧ rank h n o.parent = rank h r o.parent + 1 := by
  intro d
  induction d using Nat.strongRecOn with
  | ind d ih =>
    intro r' o' hr' ho' hp
    by_cases hmid : ∃ (m : Nat) (om : RpcObj), r < m ∧ m < r' ∧ h[m]? = some om ∧ om.parent = o.parent
    · obtain ⟨m, om, h1, h2, h3, h4⟩ := hmid
      exact ih (m - (r + 1)) (by omega) m om (by omega) h3 h4
    · refine ⟨r', o', ho', hp, ?_⟩
      have hl : r' < h.length := (List.getElem?_eq_some_iff.1 ho').1
      unfold rank
      rw [List.take_add_one (i := r'), getElem?_parentsOf ho', List.count_append]
      have e : (parentsOf h).take r' = (parentsOf h).take (r + 1) ++ ((parentsOf h).drop (r + 1)).take d := by
        subst hr'; exact List.take_add
      have e0 : (((parentsOf h).drop (r + 1)).take d).count o.parent = 0 := by
        rw [List.count_eq_zero]
        intro hm
        obtain ⟨k, hk, he⟩ := List.getElem_of_mem hm
        simp only [List.length_take, List.length_drop, parentsOf, List.length_map] at hk
        rw [List.getElem_take, List.getElem_drop] at he
        have hlt : r + 1 + k < h.length := by omega
        exact hmid ⟨r + 1 + k, h[r + 1 + k], by omega, by omega, by simp [hlt], by simpa [parentsOf] using he⟩
      rw [e, List.count_append, e0, hp]
      simp

/-- C24, how it fails: as soon as a follow-up is made of an id that is not the newest under its parent, the new context
has the id of an older one. -/
theorem C24_collision (first : TOp) (hfirst : (∃ f, first = .root f) ∨ ∃ f c, first = .extract f c)
    (ops : List TOp) (hd : Spec.Disciplined (trun [first]) ops) (hu : ops.all Spec.untagged = true)
    (i : Nat) (b : Baggage) (r r' : Nat) (o o' : RpcObj) :
    let s := ops.foldl tstep (trun [first])
    s.ctxs[i]? = some b → Spec.RpcOf b r → s.heap[r]? = some o → r < r' → s.heap[r']? = some o' → o'.parent = o.parent →
    ∃ (j : Nat) (x : PyStr), j < s.ctxs.length ∧ Spec.idStr s j = some x ∧
      Spec.idStr (tstep s (.ref .followsFrom i [])) j = some x ∧
      Spec.idStr (tstep s (.ref .followsFrom i [])) s.ctxs.length = some x := by
  intro s hi hbr ho hlt ho' hp
  obtain ⟨R, l, T0, D0⟩ := first_tree first hfirst
  obtain ⟨T, -⟩ := disciplined_tree ops (trun_inv [first]) T0 D0 hd
  have I0 := trun_inv [first]
  have I : TInv s := (foldl_inv I0 ops).1
  have C0 : Covered (trun [first]) := by
    intro q hq
    rcases hfirst with ⟨f, rfl⟩ | ⟨f, c, rfl⟩
    · simp only [trun, List.foldl_cons, List.foldl_nil, tstep, startSpan, chooseRef, List.head?_nil, tagLoop] at hq ⊢
      cases hk : spanCtxFromKwargs [] f [] with
      | error e => rw [hk] at hq; simp [TState.keep] at hq
      | ok p =>
        obtain ⟨h', b'⟩ := p
        rw [hk] at hq
        obtain ⟨-, segs, -, rfl, -, hg⟩ := spanCtxFromKwargs_ok (by simp [PyDict.NodupKeys]) hk
        refine ⟨0, b', by simp [TState.keep], ?_⟩
        have : q = 0 := by simpa [TState.keep] using hq
        subst this
        show PyDict.get? b' kRpcId = _
        rw [hg, if_neg (Ne.symm kTrace_ne_kRpc), if_pos rfl]
        rfl
    · simp only [trun, List.foldl_cons, List.foldl_nil, tstep, extract] at hq ⊢
      cases hk : spanCtxFromKwargs [] f (extractItems c) with
      | error e => rw [hk] at hq; simp at hq
      | ok p =>
        obtain ⟨h', b'⟩ := p
        rw [hk] at hq
        obtain ⟨-, segs, -, rfl, -, hg⟩ := spanCtxFromKwargs_ok (extractItems_nodup c) hk
        refine ⟨0, b', by simp, ?_⟩
        have : q = 0 := by simpa using hq
        subst this
        show PyDict.get? b' kRpcId = _
        rw [hg, if_neg (Ne.symm kTrace_ne_kRpc), if_pos rfl]
        rfl
  have C : Covered s := covered_run I0 C0 ops (disciplined_derivations hd) hu
  obtain ⟨n, on, hn, hpn, hrank⟩ := next_sibling (r := r) (o := o) (r' - (r + 1)) r' o' (by omega) ho' hp
  obtain ⟨j, bj, hj, hrj⟩ := C n (List.getElem?_eq_some_iff.1 hn).1
  have hjl := (List.getElem?_eq_some_iff.1 hj).1
  have hbm := List.mem_of_getElem? hi
  obtain ⟨b', e1, hb', e2, he⟩ := keep_untagged I hbm .followsFrom [] none [(.followsFrom, b)] rfl
  have es : tstep s (.ref .followsFrom i []) = s.keep (startSpan s.heap [] none [(.followsFrom, b)] ([] : PyDict PyStr PyStr)) := by
    simp only [tstep, hi]
  rw [← es] at e1 e2 he
  obtain ⟨r0, h1, b1, hbr0, hr0, hnew, he1, -, -, -⟩ := spanCtxFromRef_ok I.heap (I.ctxs b hbm) .followsFrom
  rw [he] at he1
  obtain ⟨rfl, -⟩ := Prod.mk.inj (Except.ok.inj he1)
  obtain rfl : r0 = r := by
    have : PyDict.get? b kRpcId = some (.rpc r) := hbr
    rw [hbr0] at this; cases this; rfl
  obtain ⟨k, hk, N⟩ := (newByRef_newId I.heap hr0 hnew).2.2 rfl
  have hor : s.heap[r0] = o := by
    rw [List.getElem?_eq_getElem hr0] at ho; exact Option.some.inj ho
  rw [hor] at hk N
  have hsegs : o.segs.dropLast ++ [.int (k + 1)] = on.segs := by
    cases hpo : o.parent with
    | none =>
      rw [hpo] at hrank hpn
      have f1 := T.top r0 o ho hpo
      have f2 := T.top n on hn hpn
      rw [f1] at hk ⊢
      rw [f2]
      simp only [List.getLast?_append, List.getLast?_singleton, Option.some_or, Option.some.injEq, Seg.int.injEq] at hk
      rw [List.dropLast_concat, ← hk, hrank]
      congr 3; show l + ((rank s.heap r0 none : Nat) : Int) + 1 = l + ((rank s.heap r0 none + 1 : Nat) : Int); omega
    | some p =>
      rw [hpo] at hrank hpn
      have hpl := I.heap.par r0 o p ho hpo
      have hq : s.heap[p]? = some (s.heap[p]'(by omega)) := by simp
      have f1 := T.sub r0 p o _ ho hpo hq
      have f2 := T.sub n p on _ hn hpn hq
      rw [f1] at hk ⊢
      rw [f2]
      simp only [List.getLast?_append, List.getLast?_singleton, Option.some_or, Option.some.injEq, Seg.int.injEq] at hk
      rw [List.dropLast_concat, ← hk, hrank]
      congr 3
  have idOf : ∀ (u : TState) (j : Nat) (bj : Baggage) (n : Nat) (on : RpcObj), u.ctxs[j]? = some bj → Spec.RpcOf bj n →
      u.heap[n]? = some on → Spec.idStr u j = some (rpcStr on.segs) := by
    intro u j bj n on hj hr hn
    unfold Spec.idStr Spec.RpcOf at *
    rw [hj]
    simp only [Option.bind_some, hr, Option.map_some, BagVal.toStr, hn, Option.getD_some]
  have keepSegs : ∀ (q : Nat) (x : List Seg), (segsOf (tstep s (.ref .followsFrom i [])).heap)[q]? = some x →
      ∃ ob, (tstep s (.ref .followsFrom i [])).heap[q]? = some ob ∧ ob.segs = x := fun q x hx => obj_of_segs hx
  obtain ⟨on', hn', hsn⟩ := keepSegs n on.segs (by
    rw [N.segs_ok, List.getElem?_append_left (by simpa [segsOf] using (List.getElem?_eq_some_iff.1 hn).1)]
    exact getElem?_segsOf hn)
  obtain ⟨ol, hol, hsl⟩ := keepSegs s.heap.length on.segs (by
    rw [N.segs_ok, hsegs, List.getElem?_append_right (by simp [segsOf])]
    simp [segsOf])
  refine ⟨j, rpcStr on.segs, hjl, idOf s j bj n on hj hrj hn, ?_, ?_⟩
  · rw [← hsn]
    exact idOf _ j bj n on' (by rw [e1, List.getElem?_append_left hjl]; exact hj) hrj hn'
  · rw [← hsl]
    exact idOf _ _ b' _ ol (by rw [e1]; simp) hb' hol

/-- the shortest such history: a root, two children, a follow-up of the first one -/
example : let s := [.child 0 [], .child 0 []].foldl tstep (trun [.root (py "t")])
    (Spec.idStr (tstep s (.ref .followsFrom 1 [])) 2, Spec.idStr (tstep s (.ref .followsFrom 1 [])) 3) =
      (some (py "1.2"), some (py "1.2")) := by decide

/-- a history with children, a follow-up of the newest child and one of the root is disciplined -/
example : Spec.Disciplined (trun [.root (py "t")])
    [.child 0 [], .child 0 [], .ref .followsFrom 2 [], .child 1 [], .ref .followsFrom 0 []] := by
  have key : ∀ (h : Heap) (r : Nat) (o : RpcObj),
      ((h.drop (r + 1)).all (fun o' => decide (o'.parent ≠ o.parent))) = true →
      ∀ (r' : Nat) (o' : RpcObj), r < r' → h[r']? = some o' → o'.parent ≠ o.parent := by
    intro h r o hall r' o' hlt ho'
    have hm : o' ∈ h.drop (r + 1) := by
      obtain ⟨hl, rfl⟩ := List.getElem?_eq_some_iff.1 ho'
      rw [List.mem_iff_getElem]
      refine ⟨r' - (r + 1), by simp; omega, ?_⟩
      rw [List.getElem_drop]; congr 1; omega
    have := List.all_eq_true.1 hall o' hm
    simpa using this
  refine ⟨rfl, (fun _ _ _ _ _ h => nomatch h), rfl, (fun _ _ _ _ _ h => nomatch h), rfl, ?_, rfl,
    (fun _ _ _ _ _ h => nomatch h), rfl, ?_, trivial⟩
  · intro i tags b r o he hb hr ho
    cases he
    have hb' : b = [(kRpcId, .rpc 2), (kTraceId, .trace (py "t"))] := by
      have h1 : (tstep (tstep (trun [.root (py "t")]) (.child 0 [])) (.child 0 [])).ctxs[2]? =
        some [(kRpcId, .rpc 2), (kTraceId, .trace (py "t"))] := by decide
      rw [h1] at hb; cases hb; rfl
    subst hb'
    have : r = 2 := by
      have h1 : PyDict.get? [(kRpcId, BagVal.rpc 2), (kTraceId, .trace (py "t"))] (py "sofaRpcId") = some (.rpc 2) := by decide
      unfold Spec.RpcOf at hr
      rw [h1] at hr; cases hr; rfl
    subst this
    refine key _ _ _ ?_
    have h2 : (tstep (tstep (trun [.root (py "t")]) (.child 0 [])) (.child 0 [])).heap.drop 3 = [] := by decide
    rw [h2]; rfl
  · intro i tags b r o he hb hr ho
    cases he
    have hb' : b = [(kTraceId, .trace (py "t")), (kRpcId, .rpc 0)] := by
      have h1 : (tstep (tstep (tstep (tstep (trun [.root (py "t")]) (.child 0 [])) (.child 0 [])) (.ref .followsFrom 2 []))
          (.child 1 [])).ctxs[0]? = some [(kTraceId, .trace (py "t")), (kRpcId, .rpc 0)] := by decide
      rw [h1] at hb; cases hb; rfl
    subst hb'
    have : r = 0 := by
      have h1 : PyDict.get? [(kTraceId, .trace (py "t")), (kRpcId, BagVal.rpc 0)] (py "sofaRpcId") = some (.rpc 0) := by decide
      unfold Spec.RpcOf at hr
      rw [h1] at hr; cases hr; rfl
    subst this
    have ho' : o = ⟨[.int 1], 3, none⟩ := by
      have h1 : (tstep (tstep (tstep (tstep (trun [.root (py "t")]) (.child 0 [])) (.child 0 [])) (.ref .followsFrom 2 []))
          (.child 1 [])).heap[0]? = some ⟨[.int 1], 3, none⟩ := by decide
      rw [h1] at ho; cases ho; rfl
    subst ho'
    refine key _ _ _ ?_
    decide

/-! ## C25, C26 -/

/-- `b'` was obtained from `b` by a chain of references; other spans may be created in between (any heaps) -/
inductive Spec.Derived : Baggage → Baggage → Prop where
  | refl (b : Baggage) : Spec.Derived b b
  | step {b b1 b2 : Baggage} (h h2 : Heap) (fresh : PyStr) (c : Option Baggage) (refs : List (RefType × Baggage))
      (t : RefType) (tags tg : PyDict PyStr PyStr) (hb : Spec.Derived b b1)
      (hc : (c = some b1) ∨ (c = none ∧ refs.head? = some (t, b1)))
      (hs : startSpan h fresh c refs tags = (h2, .ok ⟨b2, tg⟩)) : Spec.Derived b b2

/-- C25 (derived spans keep trace id and baggage): whatever the chain of `child_of` / `follows_from` references, all
items but the rpc id are unchanged, and the rpc id is present. -/
theorem C25_derived_keeps_baggage (ops : List TOp) (b b' : Baggage) (hb : b ∈ (trun ops).ctxs) (hd : Spec.Derived b b') :
    (∀ k, k ≠ py "sofaRpcId" → PyDict.get? b' k = PyDict.get? b k) ∧
    PyDict.get? b' (py "sofaTraceId") = PyDict.get? b (py "sofaTraceId") ∧
    (∃ t, PyDict.get? b' (py "sofaTraceId") = some (.trace t)) ∧
    (∃ r, PyDict.get? b' (py "sofaRpcId") = some (.rpc r)) := by
  have C := (trun_inv ops).ctxs b hb
  have key : PyDict.NodupKeys b' ∧ (∀ k, k ≠ py "sofaRpcId" → PyDict.get? b' k = PyDict.get? b k) ∧
      (∃ r, PyDict.get? b' (py "sofaRpcId") = some (.rpc r)) := by
    induction hd with
    | refl => obtain ⟨r, -, hr⟩ := C.rpc; exact ⟨C.nodup, fun _ _ => rfl, r, hr⟩
    | step h h2 fresh c refs t tags tg hb1 hc hs ih =>
      rename_i b1 b2
      obtain ⟨hn, ih1, r, ih2⟩ := ih
      have hch : ∃ t, chooseRef c refs = some (t, b1) := by
        rcases hc with rfl | ⟨rfl, h⟩
        · exact ⟨.childOf, rfl⟩
        · exact ⟨t, h⟩
      obtain ⟨t', hch⟩ := hch
      unfold startSpan at hs
      simp only [hch] at hs
      cases he : spanCtxFromRef h t' b1 with
      | error e => rw [he] at hs; cases hs
      | ok p =>
        obtain ⟨h1, b3⟩ := p
        rw [he] at hs
        have hb3 : b3 = b2 := by
          cases ht : tagLoop tags [] with
          | error e => rw [ht] at hs; cases hs
          | ok tg' => rw [ht] at hs; cases hs; rfl
        subst hb3
        simp only [spanCtxFromRef, show PyDict.get? b1 kRpcId = some (.rpc r) from ih2, bind, Except.bind] at he
        cases hnew : newByRef h t' r with
        | error e => rw [hnew] at he; cases he
        | ok p =>
          rw [hnew] at he
          cases he
          have hg : ∀ k, PyDict.get? (PyDict.update [(kRpcId, BagVal.rpc p.2)] (PyDict.erase b1 kRpcId)) k =
              if k = kRpcId then some (.rpc p.2) else PyDict.get? b1 k := by
            intro k
            rw [PyDict.get?_update_nodup _ (PyDict.nodup_erase hn _), PyDict.get?_erase hn]
            by_cases e : k = kRpcId
            · subst e; simp [PyDict.get?]
            · simp [PyDict.get?, e, Ne.symm e]
          refine ⟨PyDict.nodup_update (by simp [PyDict.NodupKeys]) _, ?_, p.2, ?_⟩
          · intro k hk
            have h2 := hg k
            rw [if_neg (show ¬ k = kRpcId from hk)] at h2
            rw [← ih1 k hk, ← h2]
          · exact hg kRpcId
  obtain ⟨-, h1, h2⟩ := key
  refine ⟨h1, h1 _ (by decide), ?_, h2⟩
  obtain ⟨t, ht⟩ := C.trace
  exact ⟨t, by rw [h1 _ (by decide)]; exact ht⟩

/-- a two-step chain -/
example : ∃ b b', b ∈ (trun [.root (py "t")]).ctxs ∧ Spec.Derived b b' ∧ b' ≠ b := by
  refine ⟨[(kTraceId, .trace (py "t")), (kRpcId, .rpc 0)], [(kRpcId, .rpc 2), (kTraceId, .trace (py "t"))], by decide, ?_, by decide⟩
  refine .step (b1 := [(kRpcId, .rpc 1), (kTraceId, .trace (py "t"))])
    [⟨[.int 1], 1, none⟩, ⟨[.int 1, .int 1], 0, some 0⟩] _ [] none [(.followsFrom, _)] .followsFrom [] []
    (.step [⟨[.int 1], 0, none⟩] _ [] (some _) [] .childOf [] [] (.refl _) (.inl rfl) rfl) (.inr ⟨rfl, rfl⟩) rfl

/-- C26 (existing contexts never change): whatever is done afterwards, a context keeps its position, its baggage and the
string form of every item. -/
theorem C26_contexts_immutable (ops1 ops2 : List TOp) (i : Nat) (b : Baggage) (hi : (trun ops1).ctxs[i]? = some b) :
    (trun (ops1 ++ ops2)).ctxs[i]? = some b ∧
    ∀ k v, PyDict.get? b k = some v → v.toStr (trun (ops1 ++ ops2)).heap = v.toStr (trun ops1).heap := by
  have I := trun_inv ops1
  have E := (foldl_inv I ops2).2
  have e : trun (ops1 ++ ops2) = ops2.foldl tstep (trun ops1) := by simp [trun]
  rw [e]
  obtain ⟨l, hl⟩ := E.ctxs
  refine ⟨?_, ?_⟩
  · rw [hl, List.getElem?_append_left (List.getElem?_eq_some_iff.1 hi).1]; exact hi
  · intro k v hv
    cases v with
    | trace s => rfl
    | str s => rfl
    | rpc r =>
      have C := I.ctxs b (List.mem_of_getElem? hi)
      have hr : r < (trun ops1).heap.length := by
        obtain ⟨r0, hr0, hb0⟩ := C.rpc
        by_cases hk : k = kRpcId
        · subst hk; rw [hb0] at hv; cases hv; exact hr0
        · by_cases hk2 : k = kTraceId
          · subst hk2
            obtain ⟨t, ht⟩ := C.trace
            rw [ht] at hv; cases hv
          · obtain ⟨s, hs⟩ := C.other k _ hv hk2 hk
            cases hs
      have ho : (trun ops1).heap[r]? = some (trun ops1).heap[r] := by simp [hr]
      obtain ⟨o', ho', hs, -⟩ := E.heap r _ ho
      simp only [BagVal.toStr, ho, ho', Option.map_some, Option.getD_some, hs]

/-- `set_baggage_item` is refused -/
theorem C26_set_baggage_refused (b : Baggage) (k : PyStr) (v : BagVal) : setBaggageItem b k v = .error .typeError := rfl

example : ∃ b, (trun [.root (py "t")]).ctxs[0]? = some b ∧
    (trun ([.root (py "t")] ++ [.child 0 [], .setBaggage 0 (py "k") (.str []), .ref .followsFrom 0 []])).ctxs.length = 3 :=
  ⟨_, rfl, by decide⟩

/-! ## C27 -/

theorem natStr_length_le (k : Nat) : ∀ n, n < 10 ^ (k + 1) → (natStr n).length ≤ k + 1 := by
  induction k with
  | zero => intro n h; rw [natStr_lt (by simpa using h)]; simp
  | succ k ih =>
    intro n h
    by_cases h10 : n < 10
    · rw [natStr_lt h10]; simp
    · rw [natStr_ge h10]
      have : n / 10 < 10 ^ (k + 1) := by rw [Nat.div_lt_iff_lt_mul (by decide), ← Nat.pow_succ]; exact h
      have := ih _ this
      simp; omega

theorem natStr_length_ge (k : Nat) : ∀ n, 10 ^ k ≤ n → k + 1 ≤ (natStr n).length := by
  induction k with
  | zero =>
    intro n _
    have := natStr_ne_nil n
    cases h : natStr n with
    | nil => exact absurd h this
    | cons => simp
  | succ k ih =>
    intro n h
    have hp : 0 < 10 ^ k := Nat.pow_pos (by decide)
    rw [Nat.pow_succ] at h
    have h10 : ¬ n < 10 := by omega
    rw [natStr_ge h10]
    have : 10 ^ k ≤ n / 10 := by rw [Nat.le_div_iff_mul_le (by decide)]; exact h
    have := ih _ this
    simp; omega

theorem natStr_length {n k : Nat} (h1 : 10 ^ k ≤ n) (h2 : n < 10 ^ (k + 1)) : (natStr n).length = k + 1 := by
  have := natStr_length_le k n h2
  have := natStr_length_ge k n h1
  omega

/-- value of a hexadecimal digit -/
def unhex (c : Nat) : Nat := if c < 58 then c - 48 else c - 87
def hexVal (s : PyStr) : Nat := s.foldl (fun a c => a * 16 + unhex c) 0

theorem unhex_hexDigit {d : Nat} (h : d < 16) : unhex (hexDigit d) = d := by
  unfold unhex hexDigit
  split <;> split <;> omega

theorem hexStrAux_spec (f : Nat) : ∀ n, n < f → hexVal (hexStrAux f n) = n ∧
    ∀ k, n < 16 ^ (k + 1) → (hexStrAux f n).length ≤ k + 1 := by
  induction f with
  | zero => intro n h; omega
  | succ f ih =>
    intro n h
    simp only [hexStrAux]
    by_cases h16 : n < 16
    · simp [h16, hexVal, unhex_hexDigit h16]
    · simp only [if_neg h16]
      have ih := ih (n / 16) (by omega)
      refine ⟨?_, ?_⟩
      · have := ih.1
        unfold hexVal at this ⊢
        rw [List.foldl_append, this]
        simp only [List.foldl_cons, List.foldl_nil]
        rw [unhex_hexDigit (by omega)]; omega
      · intro k hk
        cases k with
        | zero => simp at hk; omega
        | succ k =>
          have : n / 16 < 16 ^ (k + 1) := by rw [Nat.div_lt_iff_lt_mul (by decide), ← Nat.pow_succ]; exact hk
          have := ih.2 k this
          simp; omega

theorem hexVal_zeros (k : Nat) (s : PyStr) : hexVal (List.replicate k 48 ++ s) = hexVal s := by
  induction k with
  | zero => rfl
  | succ k ih =>
    rw [← ih]
    simp [hexVal, List.replicate_succ, unhex]

theorem hex8_length {n : Nat} (h : n < 2 ^ 32) : (hex8 n).length = 8 := by
  have := (hexStrAux_spec (n + 1) n (by omega)).2 7 (by simpa using h)
  simp only [hex8, hexStr, List.length_append, List.length_replicate]
  omega

theorem hex8_inj {a b : Nat} (h : hex8 a = hex8 b) : a = b := by
  have := congrArg hexVal h
  simp only [hex8, hexStr, hexVal_zeros] at this
  rwa [(hexStrAux_spec (a + 1) a (by omega)).1, (hexStrAux_spec (b + 1) b (by omega)).1] at this

theorem traceSeq_eq (n : Nat) : traceSeq n = 1000 + n % 8001 := by
  simp only [traceSeq, List.length_range']
  rw [List.getD_eq_getElem?_getD, List.getElem?_range' (by omega)]
  simp

/-- C27 as stated: equal generated ids come from the same host and process, the same millisecond, and draws a multiple
of 8001 apart (hosts are 32-bit addresses). -/
def C27_full : Prop := ∀ ip1 ts1 n1 pid1 ip2 ts2 n2 pid2, ip1 < 2 ^ 32 → ip2 < 2 ^ 32 →
  traceIdOf none ip1 ts1 n1 pid1 = traceIdOf none ip2 ts2 n2 pid2 →
  ip1 = ip2 ∧ pid1 = pid2 ∧ ts1 = ts2 ∧ n1 % 8001 = n2 % 8001

/-- C27 fails for clock values of different lengths: millisecond 12, draw 2456, pid 7 and millisecond 1, draw 1345,
pid 67 both give `...1234567`. (With real clocks this cannot happen, see the partial theorem.) -/
theorem C27_violated : ¬ C27_full := by
  intro hf
  have := hf 1 12 2456 7 1 1 1345 67 (by decide) (by decide) (by
    simp only [traceIdOf, traceSeq_eq]
    decide)
  exact absurd this.2.1 (by decide)

/-- C27: within one process, ids collide only in the same millisecond with draws a multiple of 8001 apart; and ids of
different hosts differ; and ids of different processes of one host differ when the clocks show 13-digit milliseconds
(2001-09-09 to 2286-11-20). -/
theorem C27_trace_ids_unique_partial (ip1 ts1 n1 pid1 ip2 ts2 n2 pid2 : Nat) (h1 : ip1 < 2 ^ 32) (h2 : ip2 < 2 ^ 32)
    (he : traceIdOf none ip1 ts1 n1 pid1 = traceIdOf none ip2 ts2 n2 pid2) :
    ip1 = ip2 ∧
    (pid1 = pid2 → ts1 = ts2 ∧ n1 % 8001 = n2 % 8001) ∧
    (10 ^ 12 ≤ ts1 → ts1 < 10 ^ 13 → 10 ^ 12 ≤ ts2 → ts2 < 10 ^ 13 →
      pid1 = pid2 ∧ ts1 = ts2 ∧ n1 % 8001 = n2 % 8001) := by
  simp only [traceIdOf, traceFormat, List.append_assoc] at he
  obtain ⟨e1, e2⟩ := List.append_inj he (by rw [hex8_length h1, hex8_length h2])
  have hsq : ∀ n, (natStr (traceSeq n)).length = 4 := by
    intro n
    rw [traceSeq_eq]
    exact natStr_length (k := 3) (by omega) (by omega)
  have hmod : ∀ a b, natStr (traceSeq a) = natStr (traceSeq b) → a % 8001 = b % 8001 := by
    intro a b h
    have := natStr_inj h
    rw [traceSeq_eq, traceSeq_eq] at this; omega
  refine ⟨hex8_inj e1, ?_, ?_⟩
  · rintro rfl
    rw [← List.append_assoc, ← List.append_assoc] at e2
    have e3 := List.append_cancel_right e2
    obtain ⟨e4, e5⟩ := List.append_inj' e3 (by rw [hsq, hsq])
    exact ⟨natStr_inj e4, hmod _ _ e5⟩
  · intro t1 t2 t3 t4
    obtain ⟨e3, e4⟩ := List.append_inj e2 (by rw [natStr_length (k := 12) t1 t2, natStr_length (k := 12) t3 t4])
    obtain ⟨e5, e6⟩ := List.append_inj e4 (by rw [hsq, hsq])
    exact ⟨natStr_inj e6, natStr_inj e3, hmod _ _ e5⟩

/-- All collisions there are: equal ids of different processes, clocks or draws need clocks one of which has more decimal
digits than the other (a power of ten lies between them). -/
theorem C27_collisions (ip1 ts1 n1 pid1 ip2 ts2 n2 pid2 : Nat) (h1 : ip1 < 2 ^ 32) (h2 : ip2 < 2 ^ 32)
    (he : traceIdOf none ip1 ts1 n1 pid1 = traceIdOf none ip2 ts2 n2 pid2) :
    (ip1 = ip2 ∧ pid1 = pid2 ∧ ts1 = ts2 ∧ n1 % 8001 = n2 % 8001) ∨
    ∃ k, 1 ≤ k ∧ ((ts1 < 10 ^ k ∧ 10 ^ k ≤ ts2) ∨ (ts2 < 10 ^ k ∧ 10 ^ k ≤ ts1)) := by
  have digits : ∀ n, (∃ k, 10 ^ k ≤ n ∧ n < 10 ^ (k + 1)) ∨ n = 0 := by
    intro n
    rcases Nat.eq_zero_or_pos n with h | h
    · exact .inr h
    · have hex : ∃ k, n < 10 ^ (k + 1) := ⟨n, Nat.lt_of_lt_of_le (Nat.lt_pow_self (by decide : 1 < 10))
        (Nat.pow_le_pow_right (by decide) (Nat.le_succ n))⟩
      left
      have : ∀ k, n < 10 ^ (k + 1) → ∃ j, 10 ^ j ≤ n ∧ n < 10 ^ (j + 1) := by
        intro k
        induction k with
        | zero => intro hk; exact ⟨0, h, hk⟩
        | succ k ih =>
          intro hk
          by_cases hl : 10 ^ (k + 1) ≤ n
          · exact ⟨k + 1, hl, hk⟩
          · exact ih (by omega)
      obtain ⟨k, hk⟩ := hex
      exact this k hk
  -- with equally many digits
  have same : (natStr ts1).length = (natStr ts2).length →
      ip1 = ip2 ∧ pid1 = pid2 ∧ ts1 = ts2 ∧ n1 % 8001 = n2 % 8001 := by
    intro hl
    have hip := (C27_trace_ids_unique_partial ip1 ts1 n1 pid1 ip2 ts2 n2 pid2 h1 h2 he).1
    simp only [traceIdOf, traceFormat, List.append_assoc] at he
    obtain ⟨e1, e2⟩ := List.append_inj he (by rw [hex8_length h1, hex8_length h2])
    have hsq : ∀ n, (natStr (traceSeq n)).length = 4 := by
      intro n
      rw [traceSeq_eq]
      exact natStr_length (k := 3) (by omega) (by omega)
    obtain ⟨e3, e4⟩ := List.append_inj e2 hl
    obtain ⟨e5, e6⟩ := List.append_inj e4 (by rw [hsq, hsq])
    refine ⟨hip, natStr_inj e6, natStr_inj e3, ?_⟩
    have := natStr_inj e5
    rw [traceSeq_eq, traceSeq_eq] at this; omega
  have small : ∀ n, n < 10 → (natStr n).length = 1 := fun n hn => by rw [natStr_lt hn]; rfl
  have between : ∀ a b : Nat, (natStr a).length < (natStr b).length → ∃ k, 1 ≤ k ∧ a < 10 ^ k ∧ 10 ^ k ≤ b := by
    intro a b hl
    rcases digits b with ⟨k, k1, k2⟩ | rfl
    · rw [natStr_length k1 k2] at hl
      cases k with
      | zero =>
        have : (natStr a).length ≠ 0 := fun h => natStr_ne_nil a (List.length_eq_zero_iff.1 h)
        omega
      | succ k =>
        refine ⟨k + 1, by omega, ?_, k1⟩
        apply Classical.byContradiction
        intro hn
        have := natStr_length_ge (k + 1) a (by omega)
        omega
    · rw [small 0 (by decide)] at hl
      have : (natStr a).length ≠ 0 := fun h => natStr_ne_nil a (List.length_eq_zero_iff.1 h)
      omega
  rcases Nat.lt_trichotomy (natStr ts1).length (natStr ts2).length with h | h | h
  · obtain ⟨k, k1, k2⟩ := between _ _ h
    exact .inr ⟨k, k1, .inl k2⟩
  · exact .inl (same h)
  · obtain ⟨k, k1, k2⟩ := between _ _ h
    exact .inr ⟨k, k1, .inr k2⟩

/-- the hypotheses hold for real clock values and the full draw cycle -/
example : (10 ^ 12 ≤ 1700000000000) ∧ (1700000000000 < 10 ^ 13) ∧ (0 % 8001 = 8001 % 8001) ∧
    traceIdOf none 2130706433 1700000000000 0 42 = traceIdOf none 2130706433 1700000000000 8001 42 := by
  refine ⟨by decide, by decide, by decide, ?_⟩
  simp only [traceIdOf, traceSeq_eq]

/-! ## C28 -/

/-- C28 as stated -/
def C28_full : Prop := ∀ (h : Heap) (fresh : PyStr) (d : PyDict PyStr PyStr), PyDict.NodupKeys d →
  ∃ h' sp, startSpan h fresh none [] d = (h', .ok sp) ∧ sp.tags = d

theorem mem_tagLoop_keys {V : Type} : ∀ (d : List (PyStr × V)) (acc tg : PyDict PyStr PyStr), tagLoop d acc = .ok tg →
    (∀ k ∈ acc.map Prod.fst, k.length = 1) → ∀ k ∈ tg.map Prod.fst, k.length = 1
  | [], acc, tg, h, ha => by cases h; exact ha
  | (k, v) :: d, acc, tg, h, ha => by
    unfold tagLoop at h
    split at h
    · rename_i a b
      refine mem_tagLoop_keys d _ tg h ?_
      intro k hk
      rw [PyDict.mem_keys_set] at hk
      rcases hk with rfl | hk
      · rfl
      · exact ha k hk
    · cases h

theorem tagLoop_two {V : Type} {k : PyStr} {v : V} {d : List (PyStr × V)} {acc tg : PyDict PyStr PyStr}
    (h : tagLoop ((k, v) :: d) acc = .ok tg) : k.length = 2 := by
  unfold tagLoop at h
  split at h
  · rfl
  · cases h

/-- C28 is achieved exactly for empty tags: `start_span(name, tags=d)` without reference returns a span with the tags
`d` iff `d` is empty. -/
theorem C28_tags_recorded_partial (h : Heap) (fresh : PyStr) (d : PyDict PyStr PyStr) :
    (∃ h' sp, startSpan h fresh none [] d = (h', .ok sp) ∧ sp.tags = d) ↔ d = [] := by
  constructor
  · rintro ⟨h', sp, hs, ht⟩
    cases d with
    | nil => rfl
    | cons a d =>
      exfalso
      obtain ⟨k, v⟩ := a
      unfold startSpan at hs
      simp only [chooseRef, List.head?_nil] at hs
      cases hk : spanCtxFromKwargs h fresh [] with
      | error e => rw [hk] at hs; cases hs
      | ok p =>
        rw [hk] at hs
        cases htl : tagLoop ((k, v) :: d) [] with
        | error e => rw [htl] at hs; cases hs
        | ok tg =>
          rw [htl] at hs
          cases hs
          have h2 := tagLoop_two htl
          have h1 := mem_tagLoop_keys _ _ _ htl (by simp) k
          simp only at ht
          rw [ht] at h1
          have := h1 (by simp)
          omega
  · rintro rfl
    unfold startSpan
    simp only [chooseRef, List.head?_nil, tagLoop]
    cases hk : spanCtxFromKwargs h fresh [] with
    | error e =>
      rcases spanCtxFromKwargs_error hk with h | h | ⟨e', h⟩
      · cases h
      · cases h
      · rw [show PyDict.get? ([] : PyDict PyStr PyStr) kRpcId = none from rfl, rpcInit_default] at h; cases h
    | ok p => exact ⟨p.1, ⟨p.2, []⟩, rfl, rfl⟩

/-- C28 fails: the tags are iterated as keys, so `tags={'peer': 'x'}` raises ValueError. -/
theorem C28_violated : ¬ C28_full := by
  intro hf
  exact nomatch (C28_tags_recorded_partial [] [] [(py "peer", py "x")]).1 (hf [] [] [(py "peer", py "x")] (by decide))

/-- the concrete failure, and the wrong tags recorded for a two-character key -/
example : (match (startSpan [] (py "t") none [] [(py "peer", py "x")]).2 with | .error .valueError => true | _ => false) = true ∧
    (match (startSpan [] (py "t") none [] [(py "ip", py "x")]).2 with | .ok sp => sp.tags == [(py "i", py "p")] | _ => false) = true := by
  decide

end Bolt
