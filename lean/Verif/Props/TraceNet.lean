import Verif.Model.TraceNet
import Verif.Props.Spans
/-!
# C132: rpc ids of a trace that spans several processes
-/
namespace Bolt

/-! ## The property -/

/-- trace id and rpc id (as strings) of the context at position `c.2` of process `c.1` -/
def Spec.nameAt (w : NetSt) (c : Nat × Nat) : Option (PyStr × PyStr) :=
  (w.procs[c.1]?).bind fun s => (s.ctxs[c.2]?).bind fun b =>
    match PyDict.get? b (py "sofaTraceId"), PyDict.get? b (py "sofaRpcId") with
    | some t, some r => some (t.toStr s.heap, r.toStr s.heap)
    | _, _ => none

/-- trace id and rpc id in the header of a request -/
def Spec.sentName (m : TMsg) : Option (PyStr × PyStr) :=
  match headerFromBytes m.header with
  | .error _ => none
  | .ok d =>
    match PyDict.get? d (py "rpc_trace_context.sofaTraceId"), PyDict.get? d (py "rpc_trace_context.sofaRpcId") with
    | some t, some r => some (t, r)
    | _, _ => none

/-- What every program below keeps to: new traces get new trace ids, contexts are made by `start_span` (new trace, or
`child_of`) and by receiving requests, every request is received at most once, and no call passes a trace key as one of its
further headers. -/
def Spec.Orderly (w : NetSt) : NetOp → Prop
  | .trace _ (.root fresh) => ∀ c x, Spec.nameAt w c = some x → x.1 ≠ fresh
  | .trace _ (.child _ _) => True
  | .trace _ (.inject _ _) => True
  | .trace _ (.setBaggage _ _ _) => True
  | .trace _ _ => False
  | .call _ _ a => PyDict.NodupKeys a.extra ∧ ∀ k, PyDict.get? a.extra (py "rpc_trace_context." ++ k) = none
  | .recv m _ _ => ∀ x ∈ w.recvd, x.1 ≠ m

/-- a property of every step of a run -/
def Spec.Always (P : NetSt → NetOp → Prop) (w : NetSt) : List NetOp → Prop
  | [] => True
  | op :: ops => P w op ∧ Spec.Always P (netStep w op) ops

/-- C132 as listed: different calls of one trace have different rpc ids. -/
def C132_full : Prop :=
  ∀ (n : Nat) (ops : List NetOp), Spec.Always Spec.Orderly { procs := List.replicate n ⟨[], []⟩ } ops →
    ∀ (i j : Nat) (m m' : TMsg), (netRun n ops).msgs[i]? = some m → (netRun n ops).msgs[j]? = some m' → i ≠ j →
      Spec.sentName m ≠ none → Spec.sentName m ≠ Spec.sentName m'

/-- every context is used for at most one call -/
def Spec.Once (w : NetSt) : NetOp → Prop
  | .call p i _ => ∀ m ∈ w.msgs, (m.proc, m.ctx) ≠ (p, i)
  | _ => True

/-- ... and this does not help -/
def C132_once_full : Prop :=
  ∀ (n : Nat) (ops : List NetOp),
    Spec.Always (fun w o => Spec.Orderly w o ∧ Spec.Once w o) { procs := List.replicate n ⟨[], []⟩ } ops →
    ∀ (i j : Nat) (m m' : TMsg), (netRun n ops).msgs[i]? = some m → (netRun n ops).msgs[j]? = some m' → i ≠ j →
      Spec.sentName m ≠ none → Spec.sentName m ≠ Spec.sentName m'

/-- What programs have to keep to. A context is used for nothing but one call (no second call, no children before or after
it), and a context received from upstream is not passed on: calls made on its behalf use children of it. -/
def Spec.Careful (w : NetSt) : NetOp → Prop
  | .trace p (.child i _) => ∀ m ∈ w.msgs, (m.proc, m.ctx) ≠ (p, i)
  | .call p i _ =>
    (∀ m ∈ w.msgs, (m.proc, m.ctx) ≠ (p, i)) ∧ (∀ x ∈ w.recvd, x.2 ≠ (p, i)) ∧
    ∀ (s : TState) (b : Baggage) (r : Nat), w.procs[p]? = some s → s.ctxs[i]? = some b → Spec.RpcOf b r →
      some r ∉ parentsOf s.heap
  | _ => True

/-! ## The ids -/

/-- trace id, segments of the rpc id, number of children made of it so far -/
abbrev IdRec := PyStr × List Seg × Nat

/-- the ends of a call -/
def LinkedIds (src : List (Nat × Nat)) (rc : List (Nat × (Nat × Nat))) (c d : Nat × Nat) : Prop :=
  ∃ m : Nat, (src[m]? = some c ∧ (m, d) ∈ rc) ∨ (src[m]? = some d ∧ (m, c) ∈ rc)

/-- `src`: the contexts used for calls; `rc`: which call led to which context. -/
structure IdsInv (L : Nat × Nat → Option IdRec) (src : List (Nat × Nat)) (rc : List (Nat × (Nat × Nat))) : Prop where
  srcNodup : ∀ (m m' : Nat) c, src[m]? = some c → src[m']? = some c → m = m'
  srcAt : ∀ c, c ∈ src → ∃ t S, L c = some (t, S, 0)
  rcOnce : ∀ m d d', (m, d) ∈ rc → (m, d') ∈ rc → d = d'
  rcAt : ∀ m d, (m, d) ∈ rc → d ∉ src ∧ ∃ c t S k, src[m]? = some c ∧ L c = some (t, S, 0) ∧ L d = some (t, S, k)
  uniq : ∀ c d t S k k', L c = some (t, S, k) → L d = some (t, S, k') → c = d ∨ LinkedIds src rc c d
  ext : ∀ c d t S k x R k', L c = some (t, S, k) → L d = some (t, S ++ x :: R, k') →
    ∃ n : Nat, x = .int (n : Int) ∧ 1 ≤ n ∧ ∃ c' k'', L c' = some (t, S, k'') ∧ n ≤ k''

theorem IdsInv.root {L L' : Nat × Nat → Option IdRec} {src rc} (I : IdsInv L src rc) {n : Nat × Nat} {t : PyStr}
    (hn : L n = none) (ht : ∀ c t' S k, L c = some (t', S, k) → t' ≠ t)
    (hL : ∀ c, L' c = if c = n then some (t, [.int 1], 0) else L c) : IdsInv L' src rc := by
  constructor
  · exact I.srcNodup
  · intro c hc
    obtain ⟨t', S, h⟩ := I.srcAt c hc
    exact ⟨t', S, by rw [hL, if_neg (by rintro rfl; rw [hn] at h; cases h), h]⟩
  · exact I.rcOnce
  · intro m d hd
    obtain ⟨h0, c, t', S, k, h1, h2, h3⟩ := I.rcAt m d hd
    exact ⟨h0, c, t', S, k, h1, by rw [hL, if_neg (by rintro rfl; rw [hn] at h2; cases h2), h2],
      by rw [hL, if_neg (by rintro rfl; rw [hn] at h3; cases h3), h3]⟩
  · intro c d t' S k k' h1 h2
    rw [hL] at h1 h2
    split at h1 <;> split at h2
    · left; simp_all
    · simp only [Option.some.injEq, Prod.mk.injEq] at h1
      exact absurd h1.1.symm (ht _ _ _ _ h2)
    · simp only [Option.some.injEq, Prod.mk.injEq] at h2
      exact absurd h2.1.symm (ht _ _ _ _ h1)
    · exact I.uniq c d t' S k k' h1 h2
  · intro c d t' S k x R k' h1 h2
    rw [hL] at h1 h2
    split at h1 <;> split at h2
    · simp only [Option.some.injEq, Prod.mk.injEq] at h1 h2
      have := h2.2.1
      rw [← h1.2.1] at this
      simp at this
    · simp only [Option.some.injEq, Prod.mk.injEq] at h1
      exact absurd h1.1.symm (ht _ _ _ _ h2)
    · simp only [Option.some.injEq, Prod.mk.injEq] at h2
      exact absurd h2.1.symm (ht _ _ _ _ h1)
    · obtain ⟨nn, e, hp, c', k'', h3, h4⟩ := I.ext c d t' S k x R k' h1 h2
      exact ⟨nn, e, hp, c', k'', by rw [hL, if_neg (by rintro rfl; rw [hn] at h3; cases h3), h3], h4⟩

/-- a child that did not come into being (its tags raised) -/
theorem IdsInv.bump {L L' : Nat × Nat → Option IdRec} {src rc} (I : IdsInv L src rc) {c0 : Nat × Nat} {t : PyStr}
    {S : List Seg} {k : Nat} (hc : L c0 = some (t, S, k)) (hs : c0 ∉ src)
    (hL : ∀ c, L' c = if c = c0 then some (t, S, k + 1) else L c) : IdsInv L' src rc := by
  have old : ∀ c t' S' k', L' c = some (t', S', k') → ∃ k'', L c = some (t', S', k'') := by
    intro c t' S' k' h
    rw [hL] at h
    split at h
    · rename_i e; subst e; cases h; exact ⟨_, hc⟩
    · exact ⟨_, h⟩
  have new : ∀ c t' S' k', L c = some (t', S', k') → ∃ k'', L' c = some (t', S', k'') ∧ k' ≤ k'' := by
    intro c t' S' k' h
    rw [hL]
    split
    · rename_i e; subst e; rw [hc] at h; cases h; exact ⟨_, rfl, by omega⟩
    · exact ⟨_, h, Nat.le_refl _⟩
  have keep : ∀ c, c ∈ src → L' c = L c := by
    intro c hm
    rw [hL, if_neg (by rintro rfl; exact hs hm)]
  constructor
  · exact I.srcNodup
  · intro c hm; rw [keep c hm]; exact I.srcAt c hm
  · exact I.rcOnce
  · intro m d hd
    obtain ⟨h0, c, t', S', k', h1, h2, h3⟩ := I.rcAt m d hd
    obtain ⟨k'', h4, -⟩ := new _ _ _ _ h3
    exact ⟨h0, c, t', S', k'', h1, by rw [keep c (List.mem_of_getElem? h1), h2], h4⟩
  · intro c d t' S' k1 k2 h1 h2
    obtain ⟨_, h1⟩ := old _ _ _ _ h1
    obtain ⟨_, h2⟩ := old _ _ _ _ h2
    exact I.uniq c d t' S' _ _ h1 h2
  · intro c d t' S' k1 x R k2 h1 h2
    obtain ⟨_, h1⟩ := old _ _ _ _ h1
    obtain ⟨_, h2⟩ := old _ _ _ _ h2
    obtain ⟨nn, e, hp, c', k'', h3, h4⟩ := I.ext c d t' S' _ x R _ h1 h2
    obtain ⟨k3, h5, h6⟩ := new _ _ _ _ h3
    exact ⟨nn, e, hp, c', k3, h5, by omega⟩

/-- whoever shares the id of a context not used for a call has made no more children than that context -/
theorem IdsInv.most {L : Nat × Nat → Option IdRec} {src rc} (I : IdsInv L src rc) {c0 c' : Nat × Nat} {t : PyStr}
    {S : List Seg} {k k' : Nat} (hc : L c0 = some (t, S, k)) (hs : c0 ∉ src) (hc' : L c' = some (t, S, k')) : k' ≤ k := by
  rcases I.uniq c0 c' t S k k' hc hc' with rfl | ⟨m, ⟨h1, h2⟩ | ⟨h1, h2⟩⟩
  · rw [hc] at hc'; cases hc'; exact Nat.le_refl _
  · exact absurd (List.mem_of_getElem? h1) hs
  · obtain ⟨t', S', h3⟩ := I.srcAt c' (List.mem_of_getElem? h1)
    rw [hc'] at h3; cases h3; omega

theorem IdsInv.child {L L' : Nat × Nat → Option IdRec} {src rc} (I : IdsInv L src rc) {c0 n : Nat × Nat} {t : PyStr}
    {S : List Seg} {k : Nat} (hc : L c0 = some (t, S, k)) (hs : c0 ∉ src) (hn : L n = none)
    (hL : ∀ c, L' c = if c = n then some (t, S ++ [.int ((k + 1 : Nat) : Int)], 0)
      else if c = c0 then some (t, S, k + 1) else L c) : IdsInv L' src rc := by
  obtain ⟨M, hM⟩ : ∃ M : Nat × Nat → Option IdRec, ∀ c, M c = if c = c0 then some (t, S, k + 1) else L c := ⟨_, fun _ => rfl⟩
  have J := I.bump hc hs hM
  have hL' : ∀ c, L' c = if c = n then some (t, S ++ [.int ((k + 1 : Nat) : Int)], 0) else M c := by
    intro c; rw [hL, hM]
  have hMn : M n = none := by rw [hM, if_neg (by rintro rfl; rw [hn] at hc; cases hc), hn]
  have hMc : M c0 = some (t, S, k + 1) := by rw [hM, if_pos rfl]
  have free : ∀ d R k', L d ≠ some (t, S ++ .int ((k + 1 : Nat) : Int) :: R, k') := by
    intro d R k' h
    obtain ⟨nn, e, -, c', k'', h1, h2⟩ := I.ext c0 d t S k _ R k' hc h
    have := I.most hc hs h1
    simp only [Seg.int.injEq] at e
    omega
  have freeM : ∀ d R k', M d ≠ some (t, S ++ .int ((k + 1 : Nat) : Int) :: R, k') := by
    intro d R k' h
    rw [hM] at h
    split at h
    · simp at h
    · exact free d R k' h
  clear hL hM
  constructor
  · exact J.srcNodup
  · intro c hm
    obtain ⟨t', S', h⟩ := J.srcAt c hm
    exact ⟨t', S', by rw [hL', if_neg (by rintro rfl; rw [hMn] at h; cases h), h]⟩
  · exact J.rcOnce
  · intro m d hd
    obtain ⟨h0, c, t', S', k', h1, h2, h3⟩ := J.rcAt m d hd
    exact ⟨h0, c, t', S', k', h1, by rw [hL', if_neg (by rintro rfl; rw [hMn] at h2; cases h2), h2],
      by rw [hL', if_neg (by rintro rfl; rw [hMn] at h3; cases h3), h3]⟩
  · intro c d t' S' k1 k2 h1 h2
    rw [hL'] at h1 h2
    split at h1 <;> split at h2
    · left; simp_all
    · cases h1; exact absurd h2 (freeM _ _ _)
    · cases h2; exact absurd h1 (freeM _ _ _)
    · exact J.uniq c d t' S' k1 k2 h1 h2
  · intro c d t' S' k1 x R k2 h1 h2
    have lift : (∃ n : Nat, x = .int (n : Int) ∧ 1 ≤ n ∧ ∃ c' k'', M c' = some (t', S', k'') ∧ n ≤ k'') →
        ∃ n : Nat, x = .int (n : Int) ∧ 1 ≤ n ∧ ∃ c' k'', L' c' = some (t', S', k'') ∧ n ≤ k'' := by
      rintro ⟨nn, e, hp, c', k'', h3, h4⟩
      exact ⟨nn, e, hp, c', k'', by rw [hL', if_neg (by rintro rfl; rw [hMn] at h3; cases h3), h3], h4⟩
    rw [hL'] at h1 h2
    split at h1 <;> split at h2
    · simp only [Option.some.injEq, Prod.mk.injEq] at h1 h2
      have := h2.2.1
      rw [← h1.2.1] at this
      simp at this
    · cases h1
      have := freeM d (x :: R) k2
      rw [h2] at this
      simp at this
    · apply lift
      simp only [Option.some.injEq, Prod.mk.injEq] at h2
      obtain ⟨rfl, e, -⟩ := h2
      rcases List.append_eq_append_iff.1 e with ⟨a, e1, e2⟩ | ⟨a, e1, e2⟩
      · -- the new id is an extension of what extends c
        cases a with
        | nil =>
          simp only [List.append_nil, List.nil_append] at e1 e2
          obtain ⟨rfl, rfl⟩ : x = .int ((k + 1 : Nat) : Int) ∧ R = [] := by
            simp only [List.cons.injEq] at e2; exact ⟨e2.1.symm, e2.2.symm⟩
          subst e1
          exact ⟨k + 1, rfl, by omega, c0, k + 1, hMc, Nat.le_refl _⟩
        | cons y a => simp at e2
      · cases a with
        | nil =>
          simp only [List.append_nil, List.nil_append] at e1 e2
          obtain ⟨rfl, rfl⟩ : x = .int ((k + 1 : Nat) : Int) ∧ R = [] := by
            simp only [List.cons.injEq] at e2; exact e2
          subst e1
          exact ⟨k + 1, rfl, by omega, c0, k + 1, hMc, Nat.le_refl _⟩
        | cons y a =>
          simp only [List.cons_append, List.cons.injEq] at e2
          obtain ⟨rfl, -⟩ := e2
          exact J.ext c c0 _ S' k1 _ a (k + 1) h1 (by rw [hMc, e1])
    · exact lift (J.ext c d t' S' k1 x R k2 h1 h2)

theorem IdsInv.call {L : Nat × Nat → Option IdRec} {src rc} (I : IdsInv L src rc) {c0 : Nat × Nat} {t : PyStr}
    {S : List Seg} (hc : L c0 = some (t, S, 0)) (hs : c0 ∉ src) (hr : ∀ m, (m, c0) ∉ rc) :
    IdsInv L (src ++ [c0]) rc := by
  have up : ∀ (m : Nat) c, src[m]? = some c → (src ++ [c0])[m]? = some c := by
    intro m c h
    rw [List.getElem?_append_left (List.getElem?_eq_some_iff.1 h).1, h]
  constructor
  · intro m m' c h1 h2
    rw [List.getElem?_append] at h1 h2
    have := I.srcNodup m m' c
    grind
  · intro c hm
    rcases List.mem_append.1 hm with h | h
    · exact I.srcAt c h
    · simp only [List.mem_singleton] at h; subst h; exact ⟨t, S, hc⟩
  · exact I.rcOnce
  · intro m d hd
    obtain ⟨h0, c, t', S', k', h1, h2, h3⟩ := I.rcAt m d hd
    refine ⟨?_, c, t', S', k', up m c h1, h2, h3⟩
    intro hm
    rcases List.mem_append.1 hm with h | h
    · exact h0 h
    · simp only [List.mem_singleton] at h; subst h; exact hr m hd
  · intro c d t' S' k k' h1 h2
    rcases I.uniq c d t' S' k k' h1 h2 with h | ⟨m, ⟨g1, g2⟩ | ⟨g1, g2⟩⟩
    · exact .inl h
    · exact .inr ⟨m, .inl ⟨up m _ g1, g2⟩⟩
    · exact .inr ⟨m, .inr ⟨up m _ g1, g2⟩⟩
  · exact I.ext

theorem IdsInv.recv {L L' : Nat × Nat → Option IdRec} {src rc} (I : IdsInv L src rc) {c0 n : Nat × Nat} {m : Nat}
    {t : PyStr} {S : List Seg} (hm : src[m]? = some c0) (hr : ∀ d, (m, d) ∉ rc) (hc : L c0 = some (t, S, 0))
    (hn : L n = none) (hL : ∀ c, L' c = if c = n then some (t, S, 0) else L c) : IdsInv L' src (rc ++ [(m, n)]) := by
  have up : ∀ c x, L c = some x → L' c = some x := by
    intro c x h
    rw [hL, if_neg (by rintro rfl; rw [hn] at h; cases h), h]
  have alone : ∀ d k, L d = some (t, S, k) → d = c0 := by
    intro d k h
    rcases I.uniq c0 d t S 0 k hc h with h | ⟨m', ⟨g1, g2⟩ | ⟨g1, g2⟩⟩
    · exact h.symm
    · rw [I.srcNodup m' m c0 g1 hm] at g2; exact absurd g2 (hr d)
    · exact absurd (List.mem_of_getElem? hm) (I.rcAt m' c0 g2).1
  have free : ∀ d x R k', L d ≠ some (t, S ++ x :: R, k') := by
    intro d x R k' h
    obtain ⟨nn, -, hp, c', k'', h1, h2⟩ := I.ext c0 d t S 0 x R k' hc h
    have := alone c' k'' h1
    subst this
    rw [hc] at h1; cases h1; omega
  constructor
  · exact I.srcNodup
  · intro c h
    obtain ⟨t', S', g⟩ := I.srcAt c h
    exact ⟨t', S', up _ _ g⟩
  · intro m' d d' h1 h2
    rcases List.mem_append.1 h1 with h1 | h1 <;> rcases List.mem_append.1 h2 with h2 | h2
    · exact I.rcOnce m' d d' h1 h2
    · simp only [List.mem_singleton, Prod.mk.injEq] at h2; rw [h2.1] at h1; exact absurd h1 (hr d)
    · simp only [List.mem_singleton, Prod.mk.injEq] at h1; rw [h1.1] at h2; exact absurd h2 (hr d')
    · simp only [List.mem_singleton, Prod.mk.injEq] at h1 h2; rw [h1.2, h2.2]
  · intro m' d hd
    rcases List.mem_append.1 hd with hd | hd
    · obtain ⟨h0, c, t', S', k', h1, h2, h3⟩ := I.rcAt m' d hd
      exact ⟨h0, c, t', S', k', h1, up _ _ h2, up _ _ h3⟩
    · simp only [List.mem_singleton, Prod.mk.injEq] at hd
      obtain ⟨rfl, rfl⟩ := hd
      refine ⟨?_, c0, t, S, 0, hm, up _ _ hc, by rw [hL, if_pos rfl]⟩
      intro h
      obtain ⟨t', S', g⟩ := I.srcAt d h
      rw [hn] at g; cases g
  · have link : ∀ c d, LinkedIds src rc c d → LinkedIds src (rc ++ [(m, n)]) c d := by
      rintro c d ⟨m', ⟨g1, g2⟩ | ⟨g1, g2⟩⟩
      · exact ⟨m', .inl ⟨g1, List.mem_append_left _ g2⟩⟩
      · exact ⟨m', .inr ⟨g1, List.mem_append_left _ g2⟩⟩
    intro c d t' S' k1 k2 h1 h2
    rw [hL] at h1 h2
    split at h1 <;> split at h2
    · left; simp_all
    · rename_i e _; cases h1
      rw [alone d _ h2, e]
      exact .inr ⟨m, .inr ⟨hm, by simp⟩⟩
    · rename_i e; cases h2
      rw [alone c _ h1, e]
      exact .inr ⟨m, .inl ⟨hm, by simp⟩⟩
    · exact (I.uniq c d t' S' k1 k2 h1 h2).imp id (link c d)
  · intro c d t' S' k1 x R k2 h1 h2
    have lift : (∃ n : Nat, x = .int (n : Int) ∧ 1 ≤ n ∧ ∃ c' k'', L c' = some (t', S', k'') ∧ n ≤ k'') →
        ∃ n : Nat, x = .int (n : Int) ∧ 1 ≤ n ∧ ∃ c' k'', L' c' = some (t', S', k'') ∧ n ≤ k'' := by
      rintro ⟨nn, e, hp, c', k'', h3, h4⟩
      exact ⟨nn, e, hp, c', k'', up _ _ h3, h4⟩
    rw [hL] at h1 h2
    split at h1 <;> split at h2
    · simp only [Option.some.injEq, Prod.mk.injEq] at h1 h2
      have := h2.2.1
      rw [← h1.2.1] at this
      simp at this
    · cases h1; exact absurd h2 (free _ _ _ _)
    · simp only [Option.some.injEq, Prod.mk.injEq] at h2
      obtain ⟨rfl, rfl, -⟩ := h2
      exact lift (I.ext c c0 _ S' k1 x R 0 h1 hc)
    · exact lift (I.ext c d t' S' k1 x R k2 h1 h2)

/-! ## One process -/

/-- what `nameAt` shows of a context, and how many children were made of it -/
def TState.look (s : TState) (i : Nat) : Option IdRec :=
  (s.ctxs[i]?).bind fun b =>
    match PyDict.get? b kTraceId, PyDict.get? b kRpcId with
    | some (.trace t), some (.rpc r) => (s.heap[r]?).map fun o => (t, o.segs, o.childCount)
    | _, _ => none

/-- contexts have nothing but a trace id and an rpc id of their own -/
structure PlainSt (s : TState) : Prop where
  inv : TInv s
  dist : DistinctRpcs s
  two : ∀ b ∈ s.ctxs, ∀ k, k ≠ kTraceId → k ≠ kRpcId → PyDict.get? b k = none

theorem PlainSt.nil : PlainSt ⟨[], []⟩ := ⟨⟨HeapOK.nil, by simp⟩, by intro i j b b' r h; simp at h, by simp⟩

theorem look_of {s : TState} {i : Nat} {b : Baggage} {t : PyStr} {r : Nat} {o : RpcObj} (hb : s.ctxs[i]? = some b)
    (ht : PyDict.get? b kTraceId = some (.trace t)) (hr : PyDict.get? b kRpcId = some (.rpc r)) (ho : s.heap[r]? = some o) :
    s.look i = some (t, o.segs, o.childCount) := by
  simp [TState.look, hb, ht, hr, ho]

theorem PlainSt.get {s : TState} (P : PlainSt s) {i : Nat} {b : Baggage} (hb : s.ctxs[i]? = some b) :
    ∃ t r o, PyDict.get? b kTraceId = some (.trace t) ∧ PyDict.get? b kRpcId = some (.rpc r) ∧ s.heap[r]? = some o ∧
      s.look i = some (t, o.segs, o.childCount) := by
  have C := P.inv.ctxs b (List.mem_of_getElem? hb)
  obtain ⟨t, ht⟩ := C.trace
  obtain ⟨r, hr, hbr⟩ := C.rpc
  exact ⟨t, r, s.heap[r], ht, hbr, by simp [hr], look_of hb ht hbr (by simp [hr])⟩

theorem look_none {s : TState} {i : Nat} (h : s.ctxs.length ≤ i) : s.look i = none := by
  simp [TState.look, List.getElem?_eq_none h]

/-- a new object and a new context that refers to it -/
theorem PlainSt.add {s : TState} (P : PlainSt s) {b : Baggage} {o : RpcObj} {t : PyStr} (I' : TInv ⟨s.heap ++ [o], s.ctxs ++ [b]⟩)
    (ht : PyDict.get? b kTraceId = some (.trace t)) (hr : PyDict.get? b kRpcId = some (.rpc s.heap.length))
    (h2 : ∀ k, k ≠ kTraceId → k ≠ kRpcId → PyDict.get? b k = none) :
    PlainSt ⟨s.heap ++ [o], s.ctxs ++ [b]⟩ ∧
    ∀ i, TState.look ⟨s.heap ++ [o], s.ctxs ++ [b]⟩ i =
      if i = s.ctxs.length then some (t, o.segs, o.childCount) else s.look i := by
  have old : ∀ (k : Nat) (bk : Baggage) (r : Nat), s.ctxs[k]? = some bk → Spec.RpcOf bk r → r < s.heap.length := by
    intro k bk r hk hrk
    obtain ⟨r0, hr0, hb0⟩ := (P.inv.ctxs bk (List.mem_of_getElem? hk)).rpc
    have : PyDict.get? bk kRpcId = some (.rpc r) := hrk
    rw [hb0] at this; cases this; exact hr0
  have hrb : ∀ r, Spec.RpcOf b r → r = s.heap.length := by
    intro r h
    have : PyDict.get? b kRpcId = some (.rpc r) := h
    rw [hr] at this; cases this; rfl
  refine ⟨⟨I', ?_, ?_⟩, ?_⟩
  · intro i j b1 b2 r h1 h2' g1 g2
    simp only [List.getElem?_append, List.getElem?_singleton] at h1 h2'
    have e1 := old i b1 r
    have e2 := old j b2 r
    have e3 := P.dist i j b1 b2 r
    have e4 := hrb r
    grind
  · intro b1 h1
    rcases List.mem_append.1 h1 with h1 | h1
    · exact P.two b1 h1
    · simp only [List.mem_singleton] at h1; subst h1; exact h2
  · intro i
    split
    · rename_i e; subst e
      exact look_of (b := b) (by simp) ht hr (by simp)
    · rename_i e
      by_cases hi : i < s.ctxs.length
      · obtain ⟨t', r, o', g1, g2, g3, g4⟩ := P.get (List.getElem?_eq_getElem hi)
        rw [g4]
        refine look_of (b := s.ctxs[i]) ?_ g1 g2 ?_
        · simp [List.getElem?_append, hi]
        · rw [List.getElem?_append_left (List.getElem?_eq_some_iff.1 g3).1, g3]
      · rw [look_none (s := s) (by omega), look_none]
        simp; omega

theorem PlainSt.root {s : TState} (P : PlainSt s) (f : PyStr) :
    PlainSt (tstep s (.root f)) ∧ (tstep s (.root f)).ctxs.length = s.ctxs.length + 1 ∧
    ∀ i, (tstep s (.root f)).look i = if i = s.ctxs.length then some (f, [.int 1], 0) else s.look i := by
  have I' := (tstep_inv P.inv (.root f)).1
  cases hk : spanCtxFromKwargs s.heap f [] with
  | error e =>
    rcases spanCtxFromKwargs_error hk with h | h | ⟨e', h⟩
    · cases h
    · cases h
    · rw [show PyDict.get? ([] : PyDict PyStr PyStr) kRpcId = none from rfl, rpcInit_default] at h; cases h
  | ok p =>
    obtain ⟨h', b'⟩ := p
    obtain ⟨-, segs, hi, rfl, hn, hg⟩ := spanCtxFromKwargs_ok (by simp [PyDict.NodupKeys]) hk
    rw [show PyDict.get? ([] : PyDict PyStr PyStr) kRpcId = none from rfl, rpcInit_default] at hi
    cases hi
    have e : tstep s (.root f) = ⟨s.heap ++ [⟨[.int 1], 0, none⟩], s.ctxs ++ [b']⟩ := by
      simp only [tstep, startSpan, chooseRef, List.head?_nil, hk, tagLoop, TState.keep]
    rw [e] at I' ⊢
    obtain ⟨g1, g2⟩ := P.add (t := f) I' (by rw [hg, if_pos rfl]; rfl)
      (by rw [hg, if_neg (Ne.symm kTrace_ne_kRpc), if_pos rfl]) (by
        intro k h1 h2
        rw [hg, if_neg h1, if_neg h2]; rfl)
    exact ⟨g1, by simp, g2⟩

/-- what a process sends of a context -/
structure Sends (x : IdRec) (d : PyDict PyStr PyStr) : Prop where
  nodup : PyDict.NodupKeys d
  trace : PyDict.get? d (tracerPrefix ++ kTraceId) = some x.1
  rpc : PyDict.get? d (tracerPrefix ++ kRpcId) = some (rpcStr x.2.1)
  other : ∀ k, k ≠ kTraceId → k ≠ kRpcId → PyDict.get? d (tracerPrefix ++ k) = none

theorem PlainSt.extract {s : TState} (P : PlainSt s) (f : PyStr) {d : PyDict PyStr PyStr} {t : PyStr} {S : List Seg} {k : Nat}
    (D : Sends (t, S, k) d) (hS : SegsOK S) :
    ∃ h b, extract s.heap f d = .ok (h, b) ∧ PlainSt ⟨h, s.ctxs ++ [b]⟩ ∧
    ∀ i, TState.look ⟨h, s.ctxs ++ [b]⟩ i = if i = s.ctxs.length then some (t, S, 0) else s.look i := by
  have I' := (tstep_inv P.inv (.extract f d)).1
  simp only [tstep] at I'
  have g : ∀ k, PyDict.get? (extractItems d) k = PyDict.get? d (tracerPrefix ++ k) := extractItems_get? D.nodup
  cases he : Bolt.extract s.heap f d with
  | error e =>
    exfalso
    unfold Bolt.extract at he
    cases hk : spanCtxFromKwargs s.heap f (extractItems d) with
    | ok p => rw [hk] at he; cases he
    | error e' =>
      rcases spanCtxFromKwargs_error hk with h | h | ⟨e', h⟩
      · rw [g, D.other _ (by decide) (by decide)] at h; cases h
      · rw [g, D.other _ (by decide) (by decide)] at h; cases h
      · rw [g, D.rpc, Option.getD_some, hS.roundtrip] at h; cases h
  | ok p =>
    obtain ⟨h, b⟩ := p
    rw [he] at I'
    refine ⟨h, b, rfl, ?_⟩
    unfold Bolt.extract at he
    cases hk : spanCtxFromKwargs s.heap f (extractItems d) with
    | error e' => rw [hk] at he; cases he
    | ok p =>
      rw [hk] at he
      cases he
      obtain ⟨-, segs, hi, rfl, -, hg⟩ := spanCtxFromKwargs_ok (extractItems_nodup d) hk
      rw [g, D.rpc, Option.getD_some, hS.roundtrip] at hi
      cases hi
      exact P.add (t := t) I' (by rw [hg, if_pos rfl, g, D.trace]; rfl)
        (by rw [hg, if_neg (Ne.symm kTrace_ne_kRpc), if_pos rfl]) (by
          intro k h1 h2
          rw [hg, if_neg h1, if_neg h2, g, D.other k h1 h2]; rfl)

/-- counting a child changes one context only -/
theorem PlainSt.bump {s : TState} (P : PlainSt s) {i : Nat} {b : Baggage} {r : Nat} {t : PyStr} {S : List Seg} {k : Nat}
    (hb : s.ctxs[i]? = some b) (hr : PyDict.get? b kRpcId = some (.rpc r)) (hl : s.look i = some (t, S, k)) :
    ∀ j, TState.look ⟨bumpChild s.heap r, s.ctxs⟩ j = if j = i then some (t, S, k + 1) else s.look j := by
  intro j
  by_cases hj : j < s.ctxs.length
  · obtain ⟨t', r', o', g1, g2, g3, g4⟩ := P.get (List.getElem?_eq_getElem hj)
    split
    · rename_i e; subst e
      rw [List.getElem?_eq_getElem hj] at hb
      cases hb
      rw [hr] at g2; cases g2
      rw [hl] at g4; cases g4
      exact look_of (s := ⟨bumpChild s.heap r, s.ctxs⟩) (o := { o' with childCount := o'.childCount + 1 })
        (List.getElem?_eq_getElem hj) g1 hr
        (by show (bumpChild s.heap r)[r]? = _; rw [bumpChild_getElem?, if_pos rfl, g3]; rfl)
    · rename_i e
      rw [g4]
      have hne : r' ≠ r := by
        rintro rfl
        exact e (P.dist j i _ _ _ (List.getElem?_eq_getElem hj) hb g2 hr)
      exact look_of (s := ⟨bumpChild s.heap r, s.ctxs⟩) (List.getElem?_eq_getElem hj) g1 g2
        (by show (bumpChild s.heap r)[r']? = _; rw [bumpChild_getElem?, if_neg hne, g3])
  · rw [if_neg (by rintro rfl; exact hj (List.getElem?_eq_some_iff.1 hb).1), look_none (s := s) (by omega), look_none]
    show s.ctxs.length ≤ j
    omega

theorem PlainSt.child {s : TState} (P : PlainSt s) {i : Nat} {t : PyStr} {S : List Seg} {k : Nat}
    (hl : s.look i = some (t, S, k)) (tags : PyDict PyStr PyStr) :
    PlainSt (tstep s (.child i tags)) ∧
    ((∀ j, (tstep s (.child i tags)).look j = if j = i then some (t, S, k + 1) else s.look j) ∨
     (∀ j, (tstep s (.child i tags)).look j = if j = s.ctxs.length then some (t, S ++ [.int ((k + 1 : Nat) : Int)], 0)
        else if j = i then some (t, S, k + 1) else s.look j)) := by
  have I' := (tstep_inv P.inv (.child i tags)).1
  cases hb : s.ctxs[i]? with
  | none => simp [TState.look, hb] at hl
  | some b =>
    have C := P.inv.ctxs b (List.mem_of_getElem? hb)
    obtain ⟨t', r, o, g1, g2, g3, g4⟩ := P.get hb
    rw [hl] at g4; cases g4
    have hO := P.inv.heap.segs r o g3
    obtain ⟨r', h', b', hb1, -, hnew, he, D, -, hg⟩ := spanCtxFromRef_ok P.inv.heap C .childOf
    rw [g2] at hb1; cases hb1
    rw [newByRef, newChildOf_eq g3 hO] at hnew
    cases hnew
    have hB := P.bump hb g2 hl
    have P1 : TInv ⟨bumpChild s.heap r, s.ctxs⟩ → PlainSt ⟨bumpChild s.heap r, s.ctxs⟩ := fun h => ⟨h, P.dist, P.two⟩
    simp only [tstep, hb, startSpan, chooseRef, he] at I' ⊢
    cases htg : tagLoop tags [] with
    | error e =>
      rw [htg] at I'
      simp only [TState.keep] at I' ⊢
      have hlook : ∀ j, TState.look ⟨bumpChild s.heap r ++ [⟨o.segs ++ [.int ((o.childCount + 1 : Nat) : Int)], 0, some r⟩], s.ctxs⟩ j =
          TState.look ⟨bumpChild s.heap r, s.ctxs⟩ j := by
        intro j
        by_cases hj : j < s.ctxs.length
        · obtain ⟨t'', r'', o'', k1, k2, k3, -⟩ := P.get (List.getElem?_eq_getElem hj)
          have hlt : r'' < (bumpChild s.heap r).length := by
            rw [bumpChild_length]; exact (List.getElem?_eq_some_iff.1 k3).1
          have hx : ∃ ox, (bumpChild s.heap r)[r'']? = some ox := ⟨_, List.getElem?_eq_getElem hlt⟩
          obtain ⟨ox, hx⟩ := hx
          rw [look_of (s := ⟨bumpChild s.heap r, s.ctxs⟩) (List.getElem?_eq_getElem hj) k1 k2 hx]
          exact look_of (s := ⟨_, s.ctxs⟩) (List.getElem?_eq_getElem hj) k1 k2
            (by show (bumpChild s.heap r ++ _)[r'']? = _; rw [List.getElem?_append_left hlt, hx])
        · rw [look_none, look_none] <;> (show s.ctxs.length ≤ j; omega)
      refine ⟨⟨I', P.dist, P.two⟩, .inl ?_⟩
      intro j
      rw [hlook, hB]
    | ok tg =>
      rw [htg] at I'
      simp only [TState.keep] at I' ⊢
      have old : ∀ (k : Nat) (bk : Baggage) (r : Nat), s.ctxs[k]? = some bk → Spec.RpcOf bk r → r < s.heap.length := by
        intro k bk r hk hrk
        obtain ⟨r0, hr0, hb0⟩ := (P.inv.ctxs bk (List.mem_of_getElem? hk)).rpc
        have : PyDict.get? bk kRpcId = some (.rpc r) := hrk
        rw [hb0] at this; cases this; exact hr0
      have hrb : ∀ r, Spec.RpcOf b' r → r = s.heap.length := by
        intro r h
        have : PyDict.get? b' kRpcId = some (.rpc r) := h
        rw [hg, if_pos rfl] at this; cases this; rfl
      refine ⟨⟨I', ?_, ?_⟩, .inr ?_⟩
      · intro i j b1 b2 r h1 h2' g1 g2
        simp only [List.getElem?_append, List.getElem?_singleton] at h1 h2'
        have e1 := old i b1 r
        have e2 := old j b2 r
        have e3 := P.dist i j b1 b2 r
        have e4 := hrb r
        grind
      · intro b1 h1
        rcases List.mem_append.1 h1 with h1 | h1
        · exact P.two b1 h1
        · simp only [List.mem_singleton] at h1; subst h1
          intro k h1 h2
          rw [hg, if_neg h2]
          exact P.two b (List.mem_of_getElem? hb) k h1 h2
      · intro j
        split
        · rename_i e; subst e
          exact look_of (s := ⟨bumpChild s.heap r ++ [⟨o.segs ++ [.int ((o.childCount + 1 : Nat) : Int)], 0, some r⟩], s.ctxs ++ [b']⟩)
            (i := s.ctxs.length) (b := b') (o := ⟨o.segs ++ [.int ((o.childCount + 1 : Nat) : Int)], 0, some r⟩)
            (by simp) (by rw [hg, if_neg kTrace_ne_kRpc, g1]) (by rw [hg, if_pos rfl])
            (by show (bumpChild s.heap r ++ _)[s.heap.length]? = _
                rw [List.getElem?_append_right (by simp)]; simp)
        · rename_i e
          rw [← hB j]
          by_cases hj : j < s.ctxs.length
          · obtain ⟨t'', r'', o'', k1, k2, k3, -⟩ := P.get (List.getElem?_eq_getElem hj)
            have hlt : r'' < (bumpChild s.heap r).length := by
              rw [bumpChild_length]; exact (List.getElem?_eq_some_iff.1 k3).1
            obtain ⟨ox, hx⟩ : ∃ ox, (bumpChild s.heap r)[r'']? = some ox := ⟨_, List.getElem?_eq_getElem hlt⟩
            rw [look_of (s := ⟨bumpChild s.heap r, s.ctxs⟩) (List.getElem?_eq_getElem hj) k1 k2 hx]
            exact look_of (s := ⟨_, s.ctxs ++ [b']⟩) (b := s.ctxs[j]) (by simp [List.getElem?_append, hj]) k1 k2
              (by show (bumpChild s.heap r ++ _)[r'']? = _; rw [List.getElem?_append_left hlt, hx])
          · rw [look_none, look_none]
            · show s.ctxs.length ≤ j
              omega
            · show (s.ctxs ++ [b']).length ≤ j
              simp; omega

theorem PlainSt.sends {s : TState} (P : PlainSt s) {i : Nat} {b : Baggage} {x : IdRec} (hb : s.ctxs[i]? = some b)
    (hl : s.look i = some x) {a : HeadArgs} (hn : PyDict.NodupKeys a.extra)
    (hx : ∀ k, PyDict.get? a.extra (py "rpc_trace_context." ++ k) = none) {bs : Bytes}
    (hc : callHeader s b a = .ok bs) : SegsOK x.2.1 ∧ ∃ d, headerFromBytes bs = .ok d ∧ Sends x d := by
  obtain ⟨t, r, o, g1, g2, g3, g4⟩ := P.get hb
  rw [hl] at g4; cases g4
  refine ⟨P.inv.heap.segs r o g3, ?_⟩
  have C := P.inv.ctxs b (List.mem_of_getElem? hb)
  have hbn : Spec.Benign b := by
    refine ⟨fun k hk hs => ?_, fun v hv => ?_⟩
    · have h1 : (PyDict.get? b k).isSome := (PyDict.contains_iff b k).2 hk
      have : k ≠ kTraceId ∧ k ≠ kRpcId := by
        constructor <;> rintro rfl <;> revert hs <;> decide
      rw [P.two b (List.mem_of_getElem? hb) k this.1 this.2] at h1
      cases h1
    · rw [P.two b (List.mem_of_getElem? hb) _ (by decide) (by decide)] at hv
      cases hv
  unfold callHeader at hc
  simp only [bind, Except.bind] at hc
  split at hc
  · cases hc
  · rename_i hd hbh
    obtain ⟨hB, hnd⟩ := (C18_build_header_partial s.heap b a.interface a.method a.targetApp a.uid a.extra C.nodup hn hbn).1 hd hbh
    obtain ⟨d, hd1, hd2⟩ := headerFromBytes_toBytes hnd hc
    have hnd' : PyDict.NodupKeys d := nodup_strHeader (by rw [hd2]; exact hnd)
    have hdget : ∀ k, PyDict.get? d (tracerPrefix ++ k) = (PyDict.get? b k).map (BagVal.toStr s.heap) := by
      intro k
      cases hbk : PyDict.get? b k with
      | some v =>
        have := hB.trace_ok k v hbk
        rw [← hd2, mem_strHeader_get?] at this
        obtain ⟨s, hs1, hs2⟩ := Option.map_eq_some_iff.1 this
        cases hs2
        exact hs1
      | none =>
        cases hdk : PyDict.get? d (tracerPrefix ++ k) with
        | none => rfl
        | some s =>
          exfalso
          have h1 : PyDict.contains hd (Spec.traceName k) = true := by
            rw [← hd2, PyDict.contains, mem_strHeader_get?]
            show (Option.map PyObj.str (PyDict.get? d (tracerPrefix ++ k))).isSome = true
            rw [hdk]; rfl
          rcases hB.only_ok _ h1 with h2 | h2 | ⟨k', h2, h4⟩
          · exact traceName_not_reserved k h2
          · have := hx k
            unfold PyDict.contains at h2
            rw [show Spec.traceName k = py "rpc_trace_context." ++ k from rfl, this] at h2
            cases h2
          · have := traceName_inj _ _ h4
            subst this
            unfold PyDict.contains at h2
            rw [hbk] at h2; cases h2
    refine ⟨d, hd1, hnd', ?_, ?_, ?_⟩
    · rw [hdget, g1]; rfl
    · rw [hdget, g2]; simp [BagVal.toStr, g3]
    · intro k h1 h2
      rw [hdget, P.two b (List.mem_of_getElem? hb) k h1 h2]; rfl

/-! ## All processes -/

def netLook (w : NetSt) (c : Nat × Nat) : Option IdRec := (w.procs[c.1]?).bind fun s => s.look c.2

structure NetInv (w : NetSt) : Prop where
  plain : ∀ (p : Nat) (s : TState), w.procs[p]? = some s → PlainSt s
  ids : IdsInv (netLook w) (w.msgs.map fun m => (m.proc, m.ctx)) w.recvd
  msgs : ∀ m ∈ w.msgs, ∃ t S k d, netLook w (m.proc, m.ctx) = some (t, S, k) ∧ SegsOK S ∧ headerFromBytes m.header = .ok d ∧
    Sends (t, S, k) d

theorem NetInv.init (n : Nat) : NetInv { procs := List.replicate n ⟨[], []⟩ } := by
  have hp : ∀ (p : Nat) (s : TState), (List.replicate n (⟨[], []⟩ : TState))[p]? = some s → s = ⟨[], []⟩ := by
    intro p s h
    exact List.eq_of_mem_replicate (List.mem_of_getElem? h)
  have hl : ∀ c, netLook { procs := List.replicate n ⟨[], []⟩ } c = none := by
    intro c
    unfold netLook
    cases h : (List.replicate n (⟨[], []⟩ : TState))[c.1]? with
    | none => rfl
    | some s => rw [hp _ _ h]; rfl
  refine ⟨fun p s h => by rw [hp p s h]; exact PlainSt.nil, ⟨?_, ?_, ?_, ?_, ?_, ?_⟩, by simp⟩
  · intro m m' c h; simp at h
  · intro c h; simp at h
  · intro m d d' h; simp at h
  · intro m d h; simp at h
  · intro c d t S k k' h; rw [hl] at h; cases h
  · intro c d t S k x R k' h; rw [hl] at h; cases h

theorem nameAt_eq {w : NetSt} (I : NetInv w) (c : Nat × Nat) :
    Spec.nameAt w c = (netLook w c).map fun x => (x.1, rpcStr x.2.1) := by
  unfold Spec.nameAt netLook
  cases hp : w.procs[c.1]? with
  | none => rfl
  | some s =>
    simp only [Option.bind_some]
    cases hb : s.ctxs[c.2]? with
    | none => simp [TState.look, hb]
    | some b =>
      obtain ⟨t, r, o, g1, g2, g3, g4⟩ := (I.plain _ _ hp).get hb
      rw [g4]
      simp only [Option.bind_some]
      show (match PyDict.get? b kTraceId, PyDict.get? b kRpcId with
        | some t, some r => some (t.toStr s.heap, r.toStr s.heap)
        | _, _ => none) = _
      rw [g1, g2]
      simp [BagVal.toStr, g3]

theorem sentName_eq {w : NetSt} (I : NetInv w) {m : TMsg} (hm : m ∈ w.msgs) :
    ∃ t S k, netLook w (m.proc, m.ctx) = some (t, S, k) ∧ SegsOK S ∧ Spec.sentName m = some (t, rpcStr S) := by
  obtain ⟨t, S, k, d, h1, h2, h3, h4⟩ := I.msgs m hm
  refine ⟨t, S, k, h1, h2, ?_⟩
  unfold Spec.sentName
  rw [h3]
  show (match PyDict.get? d (tracerPrefix ++ kTraceId), PyDict.get? d (tracerPrefix ++ kRpcId) with
    | some t, some r => some (t, r)
    | _, _ => none) = _
  rw [h4.trace, h4.rpc]

/-- replacing the state of one process -/
theorem netLook_set {w : NetSt} {p : Nat} {s s' : TState} (hp : w.procs[p]? = some s) (rc) (c : Nat × Nat) :
    netLook { w with procs := w.procs.set p s', recvd := rc } c = if c.1 = p then s'.look c.2 else netLook w c := by
  have hlt := (List.getElem?_eq_some_iff.1 hp).1
  unfold netLook
  simp only [List.getElem?_set]
  by_cases e : p = c.1
  · subst e; simp [hlt]
  · simp [e, Ne.symm e]

theorem NetInv.set {w : NetSt} (I : NetInv w) {p : Nat} {s s' : TState} (hp : w.procs[p]? = some s) (P : PlainSt s') (rc)
    (J : IdsInv (netLook { w with procs := w.procs.set p s', recvd := rc }) (w.msgs.map fun m => (m.proc, m.ctx)) rc)
    (mono : ∀ i x, s.look i = some x → ∃ k, s'.look i = some (x.1, x.2.1, k)) :
    NetInv { w with procs := w.procs.set p s', recvd := rc } := by
  refine ⟨?_, J, ?_⟩
  · intro q sq h
    simp only [List.getElem?_set] at h
    split at h
    · split at h
      · cases h; exact P
      · cases h
    · exact I.plain q sq h
  · intro m hm
    obtain ⟨t, S, k, d, h1, h2, h3, h4⟩ := I.msgs m hm
    have : ∃ k', netLook { w with procs := w.procs.set p s', recvd := rc } (m.proc, m.ctx) = some (t, S, k') := by
      rw [netLook_set hp]
      split
      · rename_i e
        unfold netLook at h1
        rw [show (m.proc, m.ctx).1 = p from e, hp] at h1
        exact mono _ _ h1
      · exact ⟨k, h1⟩
    obtain ⟨k', h5⟩ := this
    exact ⟨t, S, k', d, h5, h2, h3, h4.nodup, h4.trace, h4.rpc, h4.other⟩

theorem modify_eq_set {α : Type} {l : List α} {i : Nat} {a : α} (h : l[i]? = some a) (f : α → α) :
    l.modify i f = l.set i (f a) := by
  apply List.ext_getElem?
  intro j
  rw [List.getElem?_modify, List.getElem?_set]
  have hlt := (List.getElem?_eq_some_iff.1 h).1
  by_cases e : i = j
  · subst e; rw [h]; simp [hlt]
  · simp [e]

theorem set_self {α : Type} {l : List α} {i : Nat} {a : α} (h : l[i]? = some a) : l.set i a = l := by
  apply List.ext_getElem?
  intro j
  rw [List.getElem?_set]
  have hlt := (List.getElem?_eq_some_iff.1 h).1
  by_cases e : i = j
  · subst e; rw [h]; simp [hlt]
  · simp [e]

theorem netLook_at {w : NetSt} {p : Nat} {s : TState} (hp : w.procs[p]? = some s) (i : Nat) : netLook w (p, i) = s.look i := by
  simp [netLook, hp]

theorem NetInv.step {w : NetSt} (I : NetInv w) (op : NetOp) (h1 : Spec.Orderly w op) (h2 : Spec.Careful w op) :
    NetInv (netStep w op) := by
  cases op with
  | trace p o =>
    cases hp : w.procs[p]? with
    | none =>
      have : netStep w (.trace p o) = w := by
        have e : w.procs.modify p (fun s => tstep s o) = w.procs := by
          apply List.ext_getElem?
          intro j
          rw [List.getElem?_modify]
          by_cases e : p = j
          · subst e; rw [hp]; rfl
          · simp [e]
        simp only [netStep, e]
      rw [this]; exact I
    | some s =>
      have P := I.plain p s hp
      have e : netStep w (.trace p o) = { w with procs := w.procs.set p (tstep s o) } := by
        simp only [netStep, modify_eq_set hp]
      rw [e]
      have same : tstep s o = s → NetInv { w with procs := w.procs.set p (tstep s o) } := by
        intro h
        rw [h, set_self hp]; exact I
      cases o with
      | root f =>
        obtain ⟨P', -, hl⟩ := P.root f
        refine I.set hp P' w.recvd ?_ ?_
        · refine I.ids.root (n := (p, s.ctxs.length)) (t := f) (by rw [netLook_at hp]; exact look_none (Nat.le_refl _)) ?_ ?_
          · intro c t' S k hc
            exact h1 c (t', rpcStr S) (by rw [nameAt_eq I, hc]; rfl)
          · rintro ⟨q, i⟩
            rw [netLook_set hp]
            by_cases hq : q = p
            · subst hq
              simp only [if_true, hl, Prod.mk.injEq, true_and, netLook_at hp]
            · simp [hq]
        · intro i x hx
          refine ⟨x.2.2, ?_⟩
          rw [hl, if_neg, hx]
          rintro rfl
          rw [look_none (Nat.le_refl _)] at hx; cases hx
      | child i tags =>
        cases hl : s.look i with
        | none =>
          refine same ?_
          simp only [tstep]
          cases hb : s.ctxs[i]? with
          | none => rfl
          | some b =>
            obtain ⟨t, r, o, -, -, -, g4⟩ := P.get hb
            rw [hl] at g4; cases g4
        | some x =>
          obtain ⟨t, S, k⟩ := x
          obtain ⟨P', hl'⟩ := P.child hl tags
          have hs : (p, i) ∉ w.msgs.map fun m => (m.proc, m.ctx) := by
            intro h
            obtain ⟨m, hm, e⟩ := List.mem_map.1 h
            exact h2 m hm e
          have hL : netLook w (p, i) = some (t, S, k) := by rw [netLook_at hp, hl]
          have hi : i < s.ctxs.length := by
            by_cases hi : i < s.ctxs.length
            · exact hi
            · rw [look_none (by omega)] at hl; cases hl
          rcases hl' with hl' | hl'
          · refine I.set hp P' w.recvd ?_ ?_
            · refine I.ids.bump hL hs ?_
              rintro ⟨q, j⟩
              rw [netLook_set hp]
              by_cases hq : q = p
              · subst hq
                simp only [if_true, hl', Prod.mk.injEq, true_and, netLook_at hp]
              · simp [hq]
            · intro j x hx
              rw [hl']
              split
              · rename_i e; subst e; rw [hl] at hx; cases hx; exact ⟨_, rfl⟩
              · exact ⟨_, hx⟩
          · refine I.set hp P' w.recvd ?_ ?_
            · refine I.ids.child (n := (p, s.ctxs.length)) hL hs (by rw [netLook_at hp]; exact look_none (Nat.le_refl _)) ?_
              rintro ⟨q, j⟩
              rw [netLook_set hp]
              by_cases hq : q = p
              · subst hq
                simp only [if_true, hl', Prod.mk.injEq, true_and, netLook_at hp]
              · simp [hq]
            · intro j x hx
              rw [hl']
              split
              · rename_i e; subst e; rw [look_none (Nat.le_refl _)] at hx; cases hx
              · split
                · rename_i e; subst e; rw [hl] at hx; cases hx; exact ⟨_, rfl⟩
                · exact ⟨_, hx⟩
      | inject i c => exact same rfl
      | setBaggage i k v =>
        refine same ?_
        simp only [tstep, setBaggageItem]
        cases s.ctxs[i]? <;> rfl
      | extract f c => exact h1.elim
      | ref t i tags => exact h1.elim
  | call p i a =>
    simp only [netStep]
    cases hp : w.procs[p]? with
    | none => exact I
    | some s =>
      cases hb : s.ctxs[i]? with
      | none => simp only [hb]; exact I
      | some b =>
        simp only [hb]
        cases hc : callHeader s b a with
        | error e => exact I
        | ok bs =>
          simp only
          have P := I.plain p s hp
          obtain ⟨g1, g2, g3⟩ := h2
          obtain ⟨t, r, o, k1, k2, k3, k4⟩ := P.get hb
          obtain ⟨hS, d, hd, D⟩ := P.sends hb k4 h1.1 h1.2 hc
          have hcnt : o.childCount = 0 := by
            rw [P.inv.heap.cnt r o k3, List.count_eq_zero]
            exact g3 s b r hp hb k2
          have hL : netLook w (p, i) = some (t, o.segs, 0) := by rw [netLook_at hp, k4, hcnt]
          refine ⟨I.plain, ?_, ?_⟩
          · rw [List.map_append]
            refine I.ids.call hL ?_ ?_
            · intro h
              obtain ⟨m, hm, e⟩ := List.mem_map.1 h
              exact g1 m hm e
            · intro m hm
              exact g2 _ hm rfl
          · intro m hm
            rcases List.mem_append.1 hm with hm | hm
            · exact I.msgs m hm
            · simp only [List.mem_singleton] at hm
              subst hm
              refine ⟨t, o.segs, 0, d, hL, hS, hd, ?_⟩
              exact ⟨D.nodup, D.trace, D.rpc, D.other⟩
  | recv m q f =>
    simp only [netStep]
    cases hm : w.msgs[m]? with
    | none => exact I
    | some msg =>
      cases hq : w.procs[q]? with
      | none => exact I
      | some s =>
        obtain ⟨t, S, k, d, k1, k2, k3, k4⟩ := I.msgs msg (List.mem_of_getElem? hm)
        have P := I.plain q s hq
        obtain ⟨h', b', he, P', hl⟩ := P.extract f k4 k2
        simp only [k3, he]
        have hsrc : (w.msgs.map fun m => (m.proc, m.ctx))[m]? = some (msg.proc, msg.ctx) := by
          rw [List.getElem?_map, hm]; rfl
        obtain ⟨t0, S0, hk⟩ := I.ids.srcAt _ (List.mem_of_getElem? hsrc)
        rw [k1] at hk; cases hk
        refine I.set hq P' _ ?_ ?_
        · refine I.ids.recv (n := (q, s.ctxs.length)) hsrc ?_ k1
            (by rw [netLook_at hq]; exact look_none (Nat.le_refl _)) ?_
          · intro d hd
            exact h1 _ hd rfl
          · rintro ⟨p, i⟩
            rw [netLook_set hq]
            by_cases hp : p = q
            · subst hp
              simp only [if_true, hl, Prod.mk.injEq, true_and, netLook_at hq]
            · simp [hp]
        · intro i x hx
          refine ⟨x.2.2, ?_⟩
          rw [hl, if_neg, hx]
          rintro rfl
          rw [look_none (Nat.le_refl _)] at hx; cases hx

theorem NetInv.run {w : NetSt} (I : NetInv w) {ops : List NetOp}
    (h : Spec.Always (fun w o => Spec.Orderly w o ∧ Spec.Careful w o) w ops) : NetInv (ops.foldl netStep w) := by
  induction ops generalizing w with
  | nil => exact I
  | cons op ops ih => exact ih (I.step op h.1.1 h.1.2) h.2

/-- C132, what holds: if a context is used for one call or for making children but not for both, and contexts received from
upstream are not passed on themselves, then in every run of any number of processes
* different calls of one trace have different rpc ids;
* two contexts of all processes together that have the same trace id and rpc id are the two ends of one call;
* these two ends do have the same ids (those in the request).
Missing for C132: passing a context to more than one call, and passing on the context received (both as documented), see
`C132_violated`; making children of a context used for a call, see `C132_once_violated`. -/
theorem C132_trace_ids_partial (n : Nat) (ops : List NetOp)
    (h : Spec.Always (fun w o => Spec.Orderly w o ∧ Spec.Careful w o) { procs := List.replicate n ⟨[], []⟩ } ops) :
    (∀ (i j : Nat) (m m' : TMsg), (netRun n ops).msgs[i]? = some m → (netRun n ops).msgs[j]? = some m' → i ≠ j →
      Spec.sentName m ≠ none ∧ Spec.sentName m ≠ Spec.sentName m') ∧
    (∀ c d x, Spec.nameAt (netRun n ops) c = some x → Spec.nameAt (netRun n ops) d = some x → c ≠ d →
      ∃ (i : Nat) (m : TMsg), (netRun n ops).msgs[i]? = some m ∧
        (((m.proc, m.ctx) = c ∧ (i, d) ∈ (netRun n ops).recvd) ∨ ((m.proc, m.ctx) = d ∧ (i, c) ∈ (netRun n ops).recvd))) ∧
    (∀ i d, (i, d) ∈ (netRun n ops).recvd → ∃ m x, (netRun n ops).msgs[i]? = some m ∧ Spec.sentName m = some x ∧
      Spec.nameAt (netRun n ops) (m.proc, m.ctx) = some x ∧ Spec.nameAt (netRun n ops) d = some x) := by
  have I : NetInv (netRun n ops) := (NetInv.init n).run h
  generalize netRun n ops = w at I
  have segs : ∀ c t S k, netLook w c = some (t, S, k) → SegsOK S := by
    intro c t S k hc
    unfold netLook at hc
    obtain ⟨s, hs, hc⟩ := Option.bind_eq_some_iff.1 hc
    cases hb : s.ctxs[c.2]? with
    | none => simp [TState.look, hb] at hc
    | some b =>
      obtain ⟨t', r, o, -, -, g3, g4⟩ := (I.plain _ _ hs).get hb
      rw [hc] at g4; cases g4
      exact (I.plain _ _ hs).inv.heap.segs r o g3
  have src : ∀ (i : Nat) c, (w.msgs.map fun m => (m.proc, m.ctx))[i]? = some c →
      ∃ m : TMsg, w.msgs[i]? = some m ∧ (m.proc, m.ctx) = c := by
    intro i c hc
    rw [List.getElem?_map] at hc
    exact Option.map_eq_some_iff.1 hc
  have isSrc : ∀ (i : Nat) (m : TMsg), w.msgs[i]? = some m →
      (w.msgs.map fun m => (m.proc, m.ctx))[i]? = some (m.proc, m.ctx) := by
    intro i m hm
    rw [List.getElem?_map, hm]; rfl
  refine ⟨?_, ?_, ?_⟩
  · intro i j m m' hi hj hij
    obtain ⟨t, S, k, a1, a2, a3⟩ := sentName_eq I (List.mem_of_getElem? hi)
    obtain ⟨t', S', k', b1, b2, b3⟩ := sentName_eq I (List.mem_of_getElem? hj)
    refine ⟨by rw [a3]; exact Option.some_ne_none _, ?_⟩
    intro e
    rw [a3, b3] at e
    simp only [Option.some.injEq, Prod.mk.injEq] at e
    obtain ⟨rfl, e⟩ := e
    have := rpcStr_inj a2 b2 e
    subst this
    rcases I.ids.uniq _ _ _ _ _ _ a1 b1 with h | ⟨x, ⟨-, g⟩ | ⟨-, g⟩⟩
    · have h3 := isSrc j m' hj
      rw [← h] at h3
      exact hij (I.ids.srcNodup i j _ (isSrc i m hi) h3)
    · exact (I.ids.rcAt x _ g).1 (List.mem_of_getElem? (isSrc j m' hj))
    · exact (I.ids.rcAt x _ g).1 (List.mem_of_getElem? (isSrc i m hi))
  · intro c d x hc hd hne
    rw [nameAt_eq I] at hc hd
    obtain ⟨⟨t, S, k⟩, hc1, rfl⟩ := Option.map_eq_some_iff.1 hc
    obtain ⟨⟨t', S', k'⟩, hd1, e⟩ := Option.map_eq_some_iff.1 hd
    simp only [Prod.mk.injEq] at e
    obtain ⟨rfl, e⟩ := e
    have := rpcStr_inj (segs _ _ _ _ hd1) (segs _ _ _ _ hc1) e
    subst this
    rcases I.ids.uniq _ _ _ _ _ _ hc1 hd1 with h | ⟨i, ⟨g1, g2⟩ | ⟨g1, g2⟩⟩
    · exact absurd h hne
    · obtain ⟨m, hm, e⟩ := src i _ g1
      exact ⟨i, m, hm, .inl ⟨e, g2⟩⟩
    · obtain ⟨m, hm, e⟩ := src i _ g1
      exact ⟨i, m, hm, .inr ⟨e, g2⟩⟩
  · intro i d hd
    obtain ⟨-, c, t, S, k, g1, g2, g3⟩ := I.ids.rcAt i d hd
    obtain ⟨m, hm, e⟩ := src i _ g1
    obtain ⟨t', S', k', b1, b2, b3⟩ := sentName_eq I (List.mem_of_getElem? hm)
    rw [e, g2] at b1
    cases b1
    exact ⟨m, (t, rpcStr S), hm, b3, by rw [nameAt_eq I, e, g2]; rfl, by rw [nameAt_eq I, g3]; rfl⟩

/-! ## Runs -/

def exHead : HeadArgs := { interface := .str (py "com.I"), method := .str (py "m") }

theorem exHead_ok : PyDict.NodupKeys exHead.extra ∧ ∀ k, PyDict.get? exHead.extra (py "rpc_trace_context." ++ k) = none :=
  ⟨by decide, fun _ => rfl⟩

theorem noName (n : Nat) (c : Nat × Nat) (x : PyStr × PyStr)
    (h : Spec.nameAt { procs := List.replicate n ⟨[], []⟩ } c = some x) (f : PyStr) : x.1 ≠ f := by
  rw [nameAt_eq (NetInv.init n)] at h
  exfalso
  unfold netLook at h
  cases hp : (List.replicate n (⟨[], []⟩ : TState))[c.1]? with
  | none => simp [hp] at h
  | some s =>
    have := List.eq_of_mem_replicate (List.mem_of_getElem? hp)
    subst this
    simp [hp, TState.look] at h

/-- a client uses its context for two calls -/
def exTwice : List NetOp := [.trace 0 (.root (py "t")), .call 0 0 exHead, .call 0 0 exHead]

set_option maxRecDepth 20000 in
/-- C132 fails: two calls made with the same context (as the README does) have the same rpc id. -/
theorem C132_violated : ¬ C132_full := by
  intro hf
  have h1 : (netRun 1 exTwice).msgs.length = 2 := by decide +kernel
  have h2 : ((netRun 1 exTwice).msgs.map Spec.sentName) = [some (py "t", py "1"), some (py "t", py "1")] := by
    decide +kernel
  obtain ⟨m, m', e⟩ : ∃ m m', (netRun 1 exTwice).msgs = [m, m'] := by
    match h : (netRun 1 exTwice).msgs, h1 with
    | [m, m'], _ => exact ⟨m, m', rfl⟩
  rw [e] at h2
  simp only [List.map_cons, List.map_nil, List.cons.injEq, and_true] at h2
  refine hf 1 exTwice ⟨fun c x h => noName 1 c x h _, exHead_ok, exHead_ok, trivial⟩ 0 1 m m' (by rw [e]; rfl) (by rw [e]; rfl)
    (by decide) (by rw [h2.1]; exact Option.some_ne_none _) (by rw [h2.1, h2.2])

/-- the client makes a child for a call; the server makes a child of what it received for a call of its own; the client
makes a child of the context it had used -/
def exClash : List NetOp :=
  [.trace 0 (.root (py "t")), .trace 0 (.child 0 []), .call 0 1 exHead, .recv 0 1 (py "f"), .trace 1 (.child 0 []),
   .call 1 1 exHead, .trace 0 (.child 1 []), .call 0 2 exHead]

set_option maxRecDepth 20000 in
/-- ... and also if every context is used for at most one call: children made of the same id by the client and by the
server are numbered independently. -/
theorem C132_once_violated : ¬ C132_once_full := by
  intro hf
  have h1 : (netRun 2 exClash).msgs.length = 3 := by decide +kernel
  have h2 : ((netRun 2 exClash).msgs.map Spec.sentName) =
      [some (py "t", py "1.1"), some (py "t", py "1.1.1"), some (py "t", py "1.1.1")] := by decide +kernel
  obtain ⟨m0, m, m', e⟩ : ∃ m0 m m', (netRun 2 exClash).msgs = [m0, m, m'] := by
    match h : (netRun 2 exClash).msgs, h1 with
    | [m0, m, m'], _ => exact ⟨m0, m, m', rfl⟩
  rw [e] at h2
  simp only [List.map_cons, List.map_nil, List.cons.injEq, and_true] at h2
  refine hf 2 exClash ?_ 1 2 m m' (by rw [e]; rfl) (by rw [e]; rfl)
    (by decide) (by rw [h2.2.1]; exact Option.some_ne_none _) (by rw [h2.2.1, h2.2.2])
  refine ⟨⟨fun c x h => noName 2 c x h _, trivial⟩, ⟨trivial, trivial⟩, ⟨exHead_ok, ?_⟩, ⟨?_, trivial⟩, ⟨trivial, trivial⟩,
    ⟨exHead_ok, ?_⟩, ⟨trivial, trivial⟩, ⟨exHead_ok, ?_⟩, trivial⟩
  · show ∀ m ∈ _, _; decide +kernel
  · show ∀ m ∈ _, _; decide +kernel
  · show ∀ m ∈ _, _; decide +kernel
  · show ∀ m ∈ _, _; decide +kernel

/-- no child has been made of the context at position `i` of process `p` -/
def exNoChild (w : NetSt) (p i : Nat) : Bool :=
  match w.procs[p]? with
  | none => true
  | some s =>
    match s.ctxs[i]? with
    | none => true
    | some b =>
      match PyDict.get? b (py "sofaRpcId") with
      | some (.rpc r) => decide (some r ∉ parentsOf s.heap)
      | _ => true

theorem exNoChild_ok {w : NetSt} {p i : Nat} (h : exNoChild w p i = true) :
    ∀ (s : TState) (b : Baggage) (r : Nat), w.procs[p]? = some s → s.ctxs[i]? = some b → Spec.RpcOf b r →
      some r ∉ parentsOf s.heap := by
  intro s b r h1 h2 h3
  unfold exNoChild at h
  unfold Spec.RpcOf at h3
  simpa [h1, h2, h3] using h

/-- two processes: two calls made with children of the client's context; the server makes two calls on behalf of the first
one, the second of which comes back to the client -/
def exCareful : List NetOp :=
  [.trace 0 (.root (py "t")), .trace 0 (.child 0 []), .trace 0 (.child 0 []), .call 0 1 exHead, .call 0 2 exHead,
   .recv 0 1 (py "f"), .trace 1 (.child 0 []), .trace 1 (.child 0 []), .call 1 1 exHead, .call 1 2 exHead, .recv 3 0 (py "g")]

set_option maxRecDepth 20000 in
/-- it keeps to the rules; the ids are 1.1, 1.2, 1.1.1, 1.1.2 -/
example : Spec.Always (fun w o => Spec.Orderly w o ∧ Spec.Careful w o) { procs := List.replicate 2 ⟨[], []⟩ } exCareful ∧
    (netRun 2 exCareful).msgs.map Spec.sentName =
      [some (py "t", py "1.1"), some (py "t", py "1.2"), some (py "t", py "1.1.1"), some (py "t", py "1.1.2")] ∧
    (netRun 2 exCareful).recvd = [(0, (1, 0)), (3, (0, 3))] := by
  refine ⟨?_, by decide +kernel, by decide +kernel⟩
  refine ⟨⟨fun c x h => noName 2 c x h _, trivial⟩, ⟨trivial, ?_⟩, ⟨trivial, ?_⟩, ⟨exHead_ok, ?_, ?_, exNoChild_ok ?_⟩,
    ⟨exHead_ok, ?_, ?_, exNoChild_ok ?_⟩, ⟨?_, trivial⟩, ⟨trivial, ?_⟩, ⟨trivial, ?_⟩, ⟨exHead_ok, ?_, ?_, exNoChild_ok ?_⟩,
    ⟨exHead_ok, ?_, ?_, exNoChild_ok ?_⟩, ⟨?_, trivial⟩, trivial⟩
  all_goals first
    | (show ∀ m ∈ _, _; decide +kernel)
    | decide +kernel

end Bolt
