import Verif.Props.Tracer
/-!
# C88: equality of rpc ids
-/
namespace Bolt

theorem rpcEq_iff (a b : List Seg) : rpcEq a b = true ↔ a = b := by
  unfold rpcEq
  constructor
  · intro h
    split at h
    · cases h
    · next hl =>
      have hl : a.length = b.length := by simpa using hl
      induction a generalizing b with
      | nil => cases b with
        | nil => rfl
        | cons _ _ => simp at hl
      | cons x a ih =>
        cases b with
        | nil => simp at hl
        | cons y b =>
          simp only [List.zip_cons_cons, List.all_cons, Bool.and_eq_true, beq_iff_eq] at h
          rw [h.1, ih b (by simpa using hl) (by simpa using h.2) (by simpa using hl)]
  · rintro rfl
    simp only [bne_self_eq_false, Bool.false_eq_true, if_false, List.all_eq_true, beq_iff_eq]
    intro x hx
    exact mem_zip_self hx

/-- C88 (equality of rpc ids): `==` on RpcId objects built from dot-free segments holds exactly when their string forms
`str(id)` — what is carried between processes — are the same; so it is an equivalence and never confuses two ids that
look different on the wire. -/
theorem C88_rpc_eq_iff_str (args args' segs segs' : List Seg) (hd : ∀ s, Seg.str s ∈ args → 46 ∉ s)
    (hd' : ∀ s, Seg.str s ∈ args' → 46 ∉ s) (h : rpcInit args = .ok segs) (h' : rpcInit args' = .ok segs') :
    rpcEq segs segs' = true ↔ rpcStr segs = rpcStr segs' := by
  rw [rpcEq_iff]
  constructor
  · rintro rfl; rfl
  · intro e
    obtain ⟨x, hx, -, rfl⟩ := C22_rpcid_roundtrip args segs hd h
    obtain ⟨y, hy, -, rfl⟩ := C22_rpcid_roundtrip args' segs' hd' h'
    rw [e, hy] at hx
    cases hx
    rfl

/-- differently written but equal ids, and different ids -/
example : rpcInit [.str (py "01"), .str (py "2")] = .ok [.int 1, .int 2] ∧
    rpcInit [.int 1, .int 2] = .ok [.int 1, .int 2] ∧ rpcEq [.int 1, .int 2] [.int 1, .int 2] = true ∧
    rpcEq [.int 1, .int 2] [.int 12] = false ∧ rpcStr [.int 1, .int 2] = py "1.2" ∧ rpcStr [.int 12] = py "12" := by
  decide

/-- dots inside a segment have to be excluded: `RpcId("a.b", 1)` and `RpcId("a", "b", 1)` look the same -/
example : rpcInit [.str (py "a.b"), .int 1] = .ok [.str (py "a.b"), .int 1] ∧
    rpcInit [.str (py "a"), .str (py "b"), .int 1] = .ok [.str (py "a"), .str (py "b"), .int 1] ∧
    rpcEq [.str (py "a.b"), .int 1] [.str (py "a"), .str (py "b"), .int 1] = false ∧
    rpcStr [.str (py "a.b"), .int 1] = rpcStr [.str (py "a"), .str (py "b"), .int 1] := by decide

end Bolt
