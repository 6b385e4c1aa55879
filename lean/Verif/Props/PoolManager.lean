import Verif.Props.Container
/-! C33-C34: the pool manager. -/
namespace Bolt
variable {K : Type} [DecidableEq K]

/-- the manager's invariant -/
structure MgrInv (n : Nat) (m : PoolMgr K) : Prop where
  ru : RuInv m.pools
  size : m.pools.maxsize = n
  owner : ∀ k p, (k, p) ∈ m.pools.container → m.created[p]? = some k
  books : (m.pools.disposed ++ m.pools.container.map Prod.snd).Perm (List.range m.created.length)

theorem poolFor_cases (m : PoolMgr K) (hm : RuInv m.pools) (k : K) (ctor : Except PyExc Unit) :
    (∃ p a b, m.pools.container = a ++ (k, p) :: b ∧
      m.poolFor k ctor = ({ m with pools := { m.pools with container := a ++ b ++ [(k, p)] } }, .ok p)) ∨
    (k ∉ m.pools.keys ∧ ∃ e, ctor = .error e ∧ m.poolFor k ctor = (m, .error e)) ∨
    (k ∉ m.pools.keys ∧ ctor = .ok () ∧ m.poolFor k ctor
      = ({ pools := m.pools.setitem k m.created.length, created := m.created ++ [k] }, .ok m.created.length)) := by
  rcases getitem_cases m.pools hm k with ⟨hk, h⟩ | ⟨p, a, b, h1, h⟩
  · right
    cases ctor with
    | error e => exact .inl ⟨hk, e, rfl, by simp [PoolMgr.poolFor, Ru.get, h]⟩
    | ok u => exact .inr ⟨hk, rfl, by simp [PoolMgr.poolFor, Ru.get, h]⟩
  · left
    exact ⟨p, a, b, h1, by simp [PoolMgr.poolFor, Ru.get, h]⟩

theorem setitem_mem {V : Type} {s : Ru K V} (hs : RuInv s) {k : K} {v : V} {x : K × V} (hk : k ∉ s.keys)
    (h : x ∈ (s.setitem k v).container) : x ∈ s.container ∨ x = (k, v) := by
  rcases setitem_cases s hs k v with ⟨w, a, b, h1, _, _⟩ | ⟨_, _, h1⟩ | ⟨_, _, e, w, c', h1, h2⟩
  · exact absurd (by simp [Ru.keys, h1]) hk
  · rw [h1] at h; simpa using h
  · rw [h2] at h
    have : x ∈ s.container ++ [(k, v)] := by rw [h1]; exact List.mem_cons_of_mem _ h
    simpa using this

theorem mgrInv_ask {n : Nat} {m : PoolMgr K} (hm : MgrInv n m) (k : K) (ctor : Except PyExc Unit) :
    MgrInv n (m.poolFor k ctor).1 := by
  rcases poolFor_cases m hm.ru k ctor with ⟨p, a, b, h1, h⟩ | ⟨_, e, _, h⟩ | ⟨hk, _, h⟩
  · rw [h]
    have hp : (a ++ b ++ [(k, p)]).Perm m.pools.container := by
      rw [h1, List.append_assoc]
      exact List.Perm.append_left _ (List.perm_append_singleton _ _)
    refine ⟨inv_move hm.ru h1, hm.size, ?_, ?_⟩
    · intro k2 p2 hmem; exact hm.owner k2 p2 (hp.mem_iff.1 hmem)
    · exact (List.Perm.append_left _ (hp.map _)).trans hm.books
  · rw [h]; exact hm
  · rw [h]
    refine ⟨inv_setitem hm.ru _ _, ?_, ?_, ?_⟩
    · have := maxsize_step m.pools (.setitem k m.created.length)
      exact this.trans hm.size
    · intro k2 p2 hmem
      rcases setitem_mem hm.ru hk hmem with h2 | h2
      · have := hm.owner k2 p2 h2
        obtain ⟨hlt, _⟩ := List.getElem?_eq_some_iff.1 this
        show (m.created ++ [k])[p2]? = _
        rw [List.getElem?_append_left hlt]; exact this
      · cases h2; show (m.created ++ [k])[m.created.length]? = _; simp
    · have := disposed_step hm.ru (.setitem k m.created.length)
      refine this.trans ?_
      simp only [List.length_append, List.length_singleton, List.range_succ]
      exact List.Perm.append_right _ hm.books

theorem mgrInv_step {n : Nat} {m : PoolMgr K} (hm : MgrInv n m) (op : MgrOp K) : MgrInv n (mgrStep m op) := by
  cases op with
  | ask k ctor => exact mgrInv_ask hm k ctor
  | clear =>
    refine ⟨⟨List.nodup_nil, Nat.zero_le _⟩, hm.size, fun k p h => (by cases h), ?_⟩
    have := hm.books
    simpa [mgrStep, PoolMgr.clear, Ru.clear] using this

theorem mgrInv_foldl {n : Nat} {m : PoolMgr K} (hm : MgrInv n m) (ops : List (MgrOp K)) :
    MgrInv n (ops.foldl mgrStep m) := by
  induction ops generalizing m with
  | nil => exact hm
  | cons op ops ih => exact ih (mgrInv_step hm op)

omit [DecidableEq K] in
theorem mgrInv_init (n : Nat) : MgrInv n (PoolMgr.init n : PoolMgr K) :=
  ⟨⟨List.nodup_nil, Nat.zero_le _⟩, rfl, fun _ _ h => (by cases h), List.Perm.nil⟩

theorem mgrInv_run (n : Nat) (ops : List (MgrOp K)) : MgrInv n (mgrRun n ops) :=
  mgrInv_foldl (mgrInv_init n) ops

theorem created_step (m : PoolMgr K) (op : MgrOp K) : ∃ l, (mgrStep m op).created = m.created ++ l := by
  cases op with
  | clear => exact ⟨[], by simp [mgrStep, PoolMgr.clear]⟩
  | ask k ctor =>
    simp only [mgrStep, PoolMgr.poolFor]
    split
    · exact ⟨[], by simp⟩
    · split
      · exact ⟨[], by simp⟩
      · exact ⟨[k], rfl⟩

theorem created_foldl (m : PoolMgr K) (ops : List (MgrOp K)) :
    ∃ l, (ops.foldl mgrStep m).created = m.created ++ l := by
  induction ops generalizing m with
  | nil => exact ⟨[], by simp⟩
  | cons op ops ih =>
    obtain ⟨l, h⟩ := created_step m op
    obtain ⟨l', h'⟩ := ih (mgrStep m op)
    exact ⟨l ++ l', by rw [List.foldl_cons, h', h]; simp⟩

theorem poolFor_owner {n : Nat} {m : PoolMgr K} (hm : MgrInv n m) {k : K} {ctor : Except PyExc Unit} {p : PoolRef}
    (h : (m.poolFor k ctor).2 = .ok p) : (m.poolFor k ctor).1.created[p]? = some k := by
  rcases poolFor_cases m hm.ru k ctor with ⟨p', a, b, h1, h2⟩ | ⟨_, e, _, h2⟩ | ⟨hk, _, h2⟩
  · rw [h2] at h ⊢
    cases h
    exact hm.owner k p (by rw [h1]; simp)
  · rw [h2] at h; cases h
  · rw [h2] at h ⊢
    cases h
    show (m.created ++ [k])[m.created.length]? = _; simp

/-- the state in which `k`'s pool `p` is kept: everything used after it is in `L` -/
def Keeps (m : PoolMgr K) (k : K) (p : PoolRef) (L : List K) : Prop :=
  ∃ a b, m.pools.container = a ++ (k, p) :: b ∧ ∀ x ∈ b.map Prod.fst, x ∈ L

theorem keeps_step {n : Nat} {m : PoolMgr K} (hm : MgrInv n m) {k : K} {p : PoolRef} {L : List K}
    (hL : L.length < n) (h : Keeps m k p L) {k' : K} (hk' : k' ∈ k :: L) (ctor : Except PyExc Unit) :
    Keeps (m.poolFor k' ctor).1 k p L := by
  obtain ⟨a, b, hc, hb⟩ := h
  have hn := hm.ru.1
  rcases poolFor_cases m hm.ru k' ctor with ⟨p', a', b', h1, h2⟩ | ⟨_, e, _, h2⟩ | ⟨hk, _, h2⟩
  · rw [h2]
    by_cases hkk : k' = k
    · subst hkk
      have hpp : p' = p := by
        have e1 : PyDict.get? m.pools.container k' = some p' := PyDict.get?_of_mem hn (by rw [h1]; simp)
        have e2 : PyDict.get? m.pools.container k' = some p := PyDict.get?_of_mem hn (by rw [hc]; simp)
        rw [e1] at e2; exact Option.some.inj e2
      subst hpp
      exact ⟨a' ++ b', [], rfl, by simp⟩
    · have hkL : k' ∈ L := by
        rcases List.mem_cons.1 hk' with h | h
        · exact absurd h hkk
        · exact h
      have hcc := hc.symm.trans h1
      rcases List.append_eq_append_iff.1 hcc with ⟨c, e1, e2⟩ | ⟨c, e1, e2⟩
      · -- a' = a ++ c
        match c, e2 with
        | [], e2 => simp at e2; exact absurd e2.1.1.symm hkk
        | x :: c, e2 =>
          simp at e2
          obtain ⟨e3, e4⟩ := e2
          subst e3
          refine ⟨a, c ++ b' ++ [(k', p')], by simp [e1], ?_⟩
          intro x hx
          simp only [List.map_append, List.map_cons, List.map_nil, List.mem_append, List.mem_singleton] at hx
          rcases hx with (hx | hx) | hx
          · exact hb x (by rw [e4]; simp only [List.map_append, List.mem_append]; exact .inl hx)
          · exact hb x (by
              rw [e4]; simp only [List.map_append, List.map_cons, List.mem_append, List.mem_cons]
              exact .inr (.inr hx))
          · exact hx ▸ hkL
      · match c, e2 with
        | [], e2 => simp at e2; exact absurd e2.1.1 hkk
        | x :: c, e2 =>
          simp at e2
          obtain ⟨e3, e4⟩ := e2
          refine ⟨a' ++ c, b ++ [(k', p')], ?_, ?_⟩
          · simp [e4]
          · intro x hx
            simp only [List.map_append, List.map_cons, List.map_nil, List.mem_append, List.mem_singleton] at hx
            rcases hx with hx | hx
            · exact hb x hx
            · exact hx ▸ hkL
  · rw [h2]; exact ⟨a, b, hc, hb⟩
  · rw [h2]
    have hkk : k' ≠ k := by rintro rfl; exact hk (by simp [Ru.keys, hc])
    have hkL : k' ∈ L := by
      rcases List.mem_cons.1 hk' with h | h
      · exact absurd h hkk
      · exact h
    have hb' : ∀ x ∈ (b ++ [(k', m.created.length)]).map Prod.fst, x ∈ L := by
      intro x hx
      simp only [List.map_append, List.map_cons, List.map_nil, List.mem_append, List.mem_singleton] at hx
      rcases hx with hx | hx
      · exact hb x hx
      · exact hx ▸ hkL
    rcases setitem_cases m.pools hm.ru k' m.created.length with
      ⟨w, a2, b2, h3, _, _⟩ | ⟨_, _, h3⟩ | ⟨_, hl, e, w, c', h3, h4⟩
    · exact absurd (by simp [Ru.keys, h3]) hk
    · refine ⟨a, b ++ [(k', m.created.length)], ?_, hb'⟩
      show (m.pools.setitem k' m.created.length).container = _
      rw [h3]; simp [hc]
    · match a, hc with
      | [], hc =>
        -- the evicted entry would be `k`'s: then `max_pools` other keys are in `L`
        exfalso
        have hnd : ((b ++ [(k', m.created.length)]).map Prod.fst).Nodup := by
          have h5 := hm.ru.1
          rw [hc] at h5
          simp only [List.nil_append, List.map_cons, List.nodup_cons] at h5
          simp only [List.map_append, List.map_cons, List.map_nil, List.nodup_append]
          refine ⟨h5.2, by simp, ?_⟩
          intro x hx y hy; simp at hy; subst hy; rintro rfl
          exact hk (by simp [Ru.keys, hc] at hx ⊢; exact .inr hx)
        have := List.Nodup.length_le_of_subset hnd (l₂ := L) hb'
        rw [hc, hm.size] at hl
        simp at this hl
        omega
      | x :: a, hc =>
        refine ⟨a, b ++ [(k', m.created.length)], ?_, hb'⟩
        show (m.pools.setitem k' m.created.length).container = _
        rw [h4]
        rw [hc] at h3
        simp at h3
        simp [← h3.2]

/-- C33.
1. Two different keys never share a pool, whatever happens in between.
2. If after asking for `k` (answer `p`) only `k` and keys from a list `L` of fewer than `max_pools` keys
   are asked for, asking for `k` again gives `p` again. -/
theorem C33_one_pool (n : Nat) (ops : List (MgrOp K)) (k : K) (ctor : Except PyExc Unit) (p : PoolRef)
    (h : ((mgrRun n ops).poolFor k ctor).2 = .ok p) :
    (∀ (ops2 : List (MgrOp K)) (k2 : K) (ctor2 : Except PyExc Unit),
      ((mgrRun n (ops ++ .ask k ctor :: ops2)).poolFor k2 ctor2).2 = .ok p → k2 = k) ∧
    (∀ (ops2 : List (MgrOp K)) (L : List K), L.length < n →
      (∀ op ∈ ops2, ∃ k' c', op = .ask k' c' ∧ k' ∈ k :: L) →
      ∀ ctor2, ((mgrRun n (ops ++ .ask k ctor :: ops2)).poolFor k ctor2).2 = .ok p) := by
  have hrun : ∀ ops2, mgrRun n (ops ++ .ask k ctor :: ops2)
      = ops2.foldl mgrStep ((mgrRun n ops).poolFor k ctor).1 := by
    intro ops2; simp [mgrRun, mgrStep]
  have hm := mgrInv_run n ops
  have hm1 := mgrInv_ask hm k ctor
  have ho := poolFor_owner hm h
  refine ⟨?_, ?_⟩
  · intro ops2 k2 ctor2 h2
    have hm2 := mgrInv_run n (ops ++ .ask k ctor :: ops2)
    have ho2 := poolFor_owner hm2 h2
    rw [hrun] at ho2
    obtain ⟨l, hl⟩ := created_foldl ((mgrRun n ops).poolFor k ctor).1 ops2
    obtain ⟨l', hl'⟩ := created_step (ops2.foldl mgrStep ((mgrRun n ops).poolFor k ctor).1) (.ask k2 ctor2)
    rw [mgrStep] at hl'
    rw [hl', hl, List.append_assoc, List.getElem?_append_left (List.getElem?_eq_some_iff.1 ho).1, ho] at ho2
    exact (Option.some.inj ho2).symm
  · intro ops2 L hL hops ctor2
    rw [hrun]
    have hK : Keeps ((mgrRun n ops).poolFor k ctor).1 k p L := by
      rcases poolFor_cases (mgrRun n ops) hm.ru k ctor with ⟨p', a, b, h1, h2⟩ | ⟨_, e, _, h2⟩ | ⟨hk, _, h2⟩
      · rw [h2] at h ⊢; cases h
        exact ⟨a ++ b, [], rfl, by simp⟩
      · rw [h2] at h; cases h
      · rw [h2] at h ⊢; cases h
        rcases setitem_cases (mgrRun n ops).pools hm.ru k (mgrRun n ops).created.length with
          ⟨w, a2, b2, h3, _, _⟩ | ⟨_, _, h3⟩ | ⟨_, hl, e, w, c', h3, h4⟩
        · exact absurd (by simp [Ru.keys, h3]) hk
        · exact ⟨(mgrRun n ops).pools.container, [],
            by show ((mgrRun n ops).pools.setitem k _).container = _; rw [h3], by simp⟩
        · match hc : (mgrRun n ops).pools.container with
          | [] => rw [hc, hm.size] at hl; simp at hl; omega
          | x :: a =>
            rw [hc] at h3; simp at h3
            exact ⟨a, [], by show ((mgrRun n ops).pools.setitem k _).container = _; rw [h4]; simp [← h3.2], by simp⟩
    clear hrun ho
    generalize ((mgrRun n ops).poolFor k ctor).1 = m at *
    induction ops2 generalizing m with
    | nil =>
      obtain ⟨a, b, hc, _⟩ := hK
      rcases poolFor_cases m hm1.ru k ctor2 with ⟨p', a', b', h1, h2⟩ | ⟨hk, _⟩ | ⟨hk, _⟩
      · simp only [List.foldl_nil, h2]
        have e1 : PyDict.get? m.pools.container k = some p' := PyDict.get?_of_mem hm1.ru.1 (by rw [h1]; simp)
        have e2 : PyDict.get? m.pools.container k = some p := PyDict.get?_of_mem hm1.ru.1 (by rw [hc]; simp)
        rw [e1] at e2; exact congrArg _ (Option.some.inj e2)
      · exact absurd (by simp [Ru.keys, hc]) hk
      · exact absurd (by simp [Ru.keys, hc]) hk
    | cons op ops2 ih =>
      obtain ⟨k', c', rfl, hk'⟩ := hops op (by simp)
      exact ih (fun op h => hops op (by simp [h])) (mgrStep m (.ask k' c')) (mgrInv_ask hm1 k' c')
        (keeps_step hm1 hL hK hk' c')

example : (((mgrRun 2 [.ask 7 (.ok ())]).poolFor (8 : Nat) (.ok ())).2 = .ok 1)
    ∧ ((mgrRun 2 [.ask 7 (.ok ()), .ask 8 (.ok ()), .ask 7 (.ok ()), .ask 8 (.ok ())]).poolFor (8 : Nat) (.ok ())).2
        = .ok 1
    ∧ ((mgrRun 2 [.ask 7 (.ok ()), .ask 8 (.ok ()), .ask 9 (.ok ())]).poolFor (7 : Nat) (.ok ())).2 = .ok 3 := by
  refine ⟨rfl, rfl, rfl⟩

/-- C34: after any history of requests and clears, at most `max_pools` pools are managed; no managed
pool has been closed; every pool created is managed or has been closed; none was closed twice and only
created pools are managed or closed. -/
theorem C34_managed_or_closed (n : Nat) (ops : List (MgrOp K)) :
    let m := mgrRun n ops
    m.pools.len ≤ n ∧
    (∀ k p, PyDict.get? m.pools.container k = some p → p ∉ m.pools.disposed ∧ p < m.created.length) ∧
    (∀ p < m.created.length, p ∈ m.pools.disposed ∨ ∃ k, PyDict.get? m.pools.container k = some p) ∧
    m.pools.disposed.Nodup ∧ ∀ p ∈ m.pools.disposed, p < m.created.length := by
  intro m
  have hm : MgrInv n m := mgrInv_run n ops
  have hnd := hm.books.symm.nodup List.nodup_range
  rw [List.nodup_append] at hnd
  refine ⟨by have := hm.ru.2; rwa [hm.size] at this, ?_, ?_, hnd.1, ?_⟩
  · intro k p h
    have hmem : p ∈ m.pools.container.map Prod.snd := List.mem_map.2 ⟨_, PyDict.get?_mem h, rfl⟩
    refine ⟨fun hd => hnd.2.2 p hd p hmem rfl, ?_⟩
    have : p ∈ List.range m.created.length := hm.books.mem_iff.1 (List.mem_append_right _ hmem)
    simpa using this
  · intro p hp
    have : p ∈ m.pools.disposed ++ m.pools.container.map Prod.snd := hm.books.mem_iff.2 (by simpa using hp)
    rcases List.mem_append.1 this with h | h
    · exact .inl h
    · obtain ⟨⟨k, p'⟩, h1, rfl⟩ := List.mem_map.1 h
      exact .inr ⟨k, PyDict.get?_of_mem hm.ru.1 h1⟩
  · intro p hp
    have : p ∈ List.range m.created.length := hm.books.mem_iff.1 (List.mem_append_left _ hp)
    simpa using this

example : (mgrRun 1 [.ask 7 (.ok ()), .ask (8 : Nat) (.ok ())]).pools.disposed = [0]
    ∧ (mgrRun 1 [.ask 7 (.ok ()), .ask (8 : Nat) (.ok ())]).pools.container = [(8, 1)] := ⟨rfl, rfl⟩

end Bolt
