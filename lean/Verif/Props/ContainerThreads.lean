import Verif.Model.ContainerThreads
import Verif.Props.PoolManager
import Verif.Lemmas.AioClient
/-!
# C121, C122: a container, or a pool manager, shared by threads
-/
namespace Bolt
open Spec
variable {K V : Type} [DecidableEq K]

/-- what a call does and returns if nobody else is using the container -/
def Spec.seqOp (s : Ru K V) : LOp K V → Ru K V × LRes K V
  | .getitem k =>
    match s.getitem k with
    | (s', .ok v) => (s', .value (some v))
    | (s', .error e) => (s', .exc e)
  | .get k => ((s.get k).1, .value (s.get k).2)
  | .contains k => ((s.contains k).1, .bool (s.contains k).2)
  | .setitem k v => (s.setitem k v, .unit)
  | .delitem k =>
    match s.delitem k with
    | (s', .ok _) => (s', .unit)
    | (s', .error e) => (s', .exc e)
  | .clear => (s.clear, .unit)
  | .len => (s, .nat s.len)
  | .keys => (s, .keys s.keys)
  | .ask k ctor =>
    match s.get k with
    | (s', some v) => (s', .value (some v))
    | (s', none) =>
      match ctor with
      | .error e => (s', .exc e)
      | .ok v => (s'.setitem k v, .value (some v))

/-- the container after these calls, one after the other -/
def Spec.seqRun (m : Nat) (ops : List (LOp K V)) : Ru K V := ops.foldl (fun s op => (seqOp s op).1) { maxsize := m }

/-- what the `t`-th of these calls returns, one after the other -/
def Spec.seqResult (m : Nat) (ops : List (LOp K V)) (t : Nat) : Option (LRes K V) :=
  ops[t]?.map fun op => (seqOp (seqRun m (ops.take t)) op).2

theorem seqRun_snoc (m : Nat) (ops : List (LOp K V)) (op : LOp K V) :
    seqRun m (ops ++ [op]) = (seqOp (seqRun m ops) op).1 := by
  simp [seqRun, List.foldl_append]

theorem seqResult_append {m : Nat} {ops : List (LOp K V)} {t : Nat} {r : LRes K V} (h : seqResult m ops t = some r)
    (more : List (LOp K V)) : seqResult m (ops ++ more) t = some r := by
  unfold seqResult at h ⊢
  obtain ⟨op, h1, h2⟩ := Option.map_eq_some_iff.1 h
  have hlt := (List.getElem?_eq_some_iff.1 h1).1
  rw [List.getElem?_append_left hlt, h1, List.take_append_of_le_length (Nat.le_of_lt hlt)]
  simp [h2]

theorem seqResult_last (m : Nat) (ops : List (LOp K V)) (op : LOp K V) :
    seqResult m (ops ++ [op]) ops.length = some (seqOp (seqRun m ops) op).2 := by
  simp [seqResult]

theorem setitem_maxsize (s : Ru K V) (k : K) (v : V) : (s.setitem k v).maxsize = s.maxsize := by
  unfold Ru.setitem
  dsimp only
  split
  · split <;> rfl
  · rfl

theorem seqOp_maxsize (s : Ru K V) (op : LOp K V) : (seqOp s op).1.maxsize = s.maxsize := by
  cases op with
  | getitem k => cases h : PyDict.get? s.container k <;> simp [seqOp, Ru.getitem, h]
  | get k => cases h : PyDict.get? s.container k <;> simp [seqOp, Ru.get, Ru.getitem, h]
  | contains k => cases h : PyDict.get? s.container k <;> simp [seqOp, Ru.contains, Ru.getitem, h]
  | setitem k v => exact setitem_maxsize s k v
  | delitem k => cases h : PyDict.get? s.container k <;> simp [seqOp, Ru.delitem, h]
  | clear => rfl
  | len => rfl
  | keys => rfl
  | ask k ctor =>
    cases h : PyDict.get? s.container k with
    | some v => simp [seqOp, Ru.get, Ru.getitem, h]
    | none => cases ctor <;> simp [seqOp, Ru.get, Ru.getitem, h, setitem_maxsize]

theorem seqRun_maxsize (m : Nat) (ops : List (LOp K V)) : (seqRun m ops).maxsize = m := by
  induction ops using snoc_induct with
  | nil => rfl
  | snoc ops op ih => rw [seqRun_snoc, seqOp_maxsize, ih]

/-! ## The invariant -/

/-- the values a thread has taken out and not disposed of yet -/
def LPc.pend : LPc K V → List V
  | .exit vs _ => vs
  | .disp vs _ => vs
  | _ => []

/-- the thread holds the lock -/
def LThr.inside (t : LThr K V) : Bool :=
  match t.pc with
  | .idle => false
  | .acq => false
  | .disp _ _ => t.op.isAsk
  | _ => true

/-- how often -/
def LThr.depth (t : LThr K V) : Nat :=
  if t.op.isAsk then
    match t.pc with
    | .enterGet _ => 1
    | .newPool => 1
    | .enterSet _ _ => 1
    | .disp _ _ => 1
    | .outerExit _ => 1
    | _ => 2
  else 1

/-- the call looks up `k` -/
def LOp.looks (op : LOp K V) (k : K) : Prop :=
  op = .getitem k ∨ op = .get k ∨ op = .contains k ∨ ∃ ctor, op = .ask k ctor

/-- the call enters `v` under `k` -/
def LOp.sets (op : LOp K V) (k : K) (v : V) (S : Ru K V) : Prop :=
  op = .setitem k v ∨ (op = .ask k (.ok v) ∧ PyDict.get? S.container k = none)

/-- the dictionary is in its final state -/
def LPc.late : LPc K V → Bool
  | .exit _ _ => true
  | .disp _ _ => true
  | .outerExit _ => true
  | _ => false

/-- how the dictionary looks while a call that found it in state `S` is at work -/
def Mid (op : LOp K V) (S : Ru K V) (c : PyDict K V) : LPc K V → Prop
  | .idle => False
  | .acq => False
  | .enterGet k => c = S.container ∧ ∃ ctor, op = .ask k ctor
  | .popKey k => c = S.container ∧ op.looks k
  | .reinsert k v => op.looks k ∧ PyDict.get? S.container k = some v ∧ c = PyDict.erase S.container k
  | .exitGet r => ∃ k ctor, op = .ask k ctor ∧ PyDict.get? S.container k = r ∧
      c = (match r with | some v => PyDict.set (PyDict.erase S.container k) k v | none => S.container)
  | .newPool => ∃ k ctor, op = .ask k ctor ∧ PyDict.get? S.container k = none ∧ c = S.container
  | .enterSet k v => c = S.container ∧ op = .ask k (.ok v) ∧ PyDict.get? S.container k = none
  | .old k v => c = S.container ∧ op.sets k v S
  | .store k v ev => c = S.container ∧ op.sets k v S ∧ ev = PyDict.get? S.container k
  | .size ev => ∃ k v, op.sets k v S ∧ ev = PyDict.get? S.container k ∧ c = PyDict.set S.container k v
  | .popitem => ∃ k v, op.sets k v S ∧ c = PyDict.set S.container k v ∧ c.length > S.maxsize
  | .delKey k => op = .delitem k ∧ c = S.container
  | .listAll => op = .clear ∧ c = S.container
  | .wipe vs => op = .clear ∧ c = S.container ∧ vs = S.container.map Prod.snd
  | .count => op = .len ∧ c = S.container
  | .listKeys => op = .keys ∧ c = S.container
  | .exit _ r => c = (seqOp S op).1.container ∧ r = (seqOp S op).2
  | .disp _ r => c = (seqOp S op).1.container ∧ r = (seqOp S op).2
  | .outerExit r => c = (seqOp S op).1.container ∧ r = (seqOp S op).2

/-- everything taken out so far, disposed of or not -/
def LockSt.out (s : LockSt K V) : List V := s.disposed ++ s.thr.flatMap fun t => t.pc.pend

structure RLkInv (m : Nat) (s : LockSt K V) : Prop where
  size : s.maxsize = m
  outside : ∀ (i : Nat) t, s.thr[i]? = some t → t.inside = false → (∀ d, s.lock ≠ some (i, d)) ∧
    (t.pc = .idle ∨ t.pc = .acq ∨ ∃ vs r, t.pc = .disp vs r ∧ seqResult m s.log t.tick = some r)
  inside : ∀ (i : Nat) t, s.thr[i]? = some t → t.inside = true → s.lock = some (i, t.depth)
  free : s.lock = none → s.cont = (seqRun m s.log).container ∧ s.out.Perm (seqRun m s.log).disposed
  held : ∀ (i : Nat) d, s.lock = some (i, d) → ∃ t pre, s.thr[i]? = some t ∧ t.inside = true ∧ s.log = pre ++ [t.op] ∧
    t.tick = pre.length ∧ Mid t.op (seqRun m pre) s.cont t.pc ∧
    s.out.Perm (if t.pc.late then (seqOp (seqRun m pre) t.op).1 else seqRun m pre).disposed
  done : ∀ x ∈ s.done, seqResult m s.log x.1 = some x.2

theorem flat_set {α β : Type} (f : α → List β) (l : List α) (i : Nat) (t : α) (h : l[i]? = some t) :
    ∃ rest, (l.flatMap f).Perm (f t ++ rest) ∧ ∀ t', ((l.set i t').flatMap f).Perm (f t' ++ rest) := by
  induction l generalizing i with
  | nil => simp at h
  | cons a l ih =>
    cases i with
    | zero =>
      simp only [List.getElem?_cons_zero, Option.some.injEq] at h
      subst h
      exact ⟨l.flatMap f, by simp, fun t' => by simp⟩
    | succ i =>
      simp only [List.getElem?_cons_succ] at h
      obtain ⟨rest, h1, h2⟩ := ih i h
      refine ⟨f a ++ rest, ?_, fun t' => ?_⟩
      · simp only [List.flatMap_cons]
        refine (List.Perm.append_left _ h1).trans ?_
        rw [← List.append_assoc, ← List.append_assoc]
        exact List.Perm.append_right _ List.perm_append_comm
      · simp only [List.set_cons_succ, List.flatMap_cons]
        refine (List.Perm.append_left _ (h2 t')).trans ?_
        rw [← List.append_assoc, ← List.append_assoc]
        exact List.Perm.append_right _ List.perm_append_comm

omit [DecidableEq K] in
/-- the values out after thread `i` moved on: those pending in it are replaced, and `d` more have been disposed of -/
theorem out_move {s : LockSt K V} {i : Nat} {t : LThr K V} (hi : s.thr[i]? = some t) (t' : LThr K V) {s' : LockSt K V}
    {d add : List V} (hd : s'.disposed = s.disposed ++ d) (ht : s'.thr = s.thr.set i t')
    (hp : (d ++ t'.pc.pend).Perm (t.pc.pend ++ add)) : s'.out.Perm (s.out ++ add) := by
  obtain ⟨rest, h1, h2⟩ := flat_set (fun t : LThr K V => t.pc.pend) s.thr i t hi
  unfold LockSt.out
  rw [hd, ht, List.append_assoc, List.append_assoc]
  apply List.Perm.append_left
  refine (List.Perm.append_left _ (h2 t')).trans ?_
  rw [← List.append_assoc]
  refine (List.Perm.append_right _ hp).trans ?_
  rw [List.append_assoc]
  refine (List.Perm.append_left _ List.perm_append_comm).trans ?_
  rw [← List.append_assoc]
  exact List.Perm.append_right _ h1.symm

theorem set_get {α : Type} {l : List α} {i j : Nat} {a b : α} (h : (l.set i a)[j]? = some b) :
    (j = i ∧ b = a) ∨ (j ≠ i ∧ l[j]? = some b) := by
  rw [List.getElem?_set] at h
  split at h
  · next e =>
    split at h
    · exact .inl ⟨e.symm, by cases h; rfl⟩
    · cases h
  · next e => exact .inr ⟨fun h => e h.symm, h⟩

/-- a step of the holder that keeps the lock -/
theorem RLkInv.stay {m : Nat} {s s' : LockSt K V} (h : RLkInv m s) {i : Nat} {t t' : LThr K V} (hi : s.thr[i]? = some t)
    (hin : t.inside = true) (e1 : s'.maxsize = s.maxsize) (e2 : s'.thr = s.thr.set i t')
    (e3 : s'.lock = some (i, t'.depth)) (e4 : s'.log = s.log) (e5 : s'.done = s.done) (hin' : t'.inside = true)
    (hop : t'.op = t.op) (htick : t'.tick = t.tick)
    (hmid : ∀ pre, s.log = pre ++ [t.op] → Mid t.op (seqRun m pre) s.cont t.pc →
      s.out.Perm (if t.pc.late then (seqOp (seqRun m pre) t.op).1 else seqRun m pre).disposed →
      Mid t.op (seqRun m pre) s'.cont t'.pc ∧
      s'.out.Perm (if t'.pc.late then (seqOp (seqRun m pre) t.op).1 else seqRun m pre).disposed) : RLkInv m s' := by
  have hlt := (List.getElem?_eq_some_iff.1 hi).1
  have hl := h.inside i t hi hin
  obtain ⟨t0, pre, g1, g2, g3, g4, g5, g6⟩ := h.held i _ hl
  rw [hi] at g1
  cases g1
  refine ⟨by rw [e1]; exact h.size, ?_, ?_, ?_, ?_, ?_⟩
  · intro j u hj hu
    rw [e2] at hj
    rcases set_get hj with ⟨rfl, rfl⟩ | ⟨hne, hj⟩
    · rw [hin'] at hu; cases hu
    · obtain ⟨a, b⟩ := h.outside j u hj hu
      refine ⟨fun d hd => ?_, by rw [e4]; exact b⟩
      rw [e3] at hd
      cases hd
      exact hne rfl
  · intro j u hj hu
    rw [e2] at hj
    rcases set_get hj with ⟨rfl, rfl⟩ | ⟨hne, hj⟩
    · exact e3
    · have := h.inside j u hj hu
      rw [hl] at this
      simp only [Option.some.injEq, Prod.mk.injEq] at this
      exact absurd this.1.symm hne
  · intro hf
    rw [e3] at hf
    cases hf
  · intro j d hd
    rw [e3] at hd
    cases hd
    obtain ⟨k1, k2⟩ := hmid pre g3 g5 g6
    refine ⟨t', pre, by rw [e2]; simp [hlt], hin', by rw [e4, hop]; exact g3, by rw [htick]; exact g4, ?_, ?_⟩
    · rw [hop]; exact k1
    · rw [hop]; exact k2
  · intro x hx
    rw [e5] at hx
    rw [e4]
    exact h.done x hx

/-- the holder gives the lock back -/
theorem RLkInv.leave {m : Nat} {s s' : LockSt K V} (h : RLkInv m s) {i : Nat} {t t' : LThr K V} (hi : s.thr[i]? = some t)
    (hin : t.inside = true) (e1 : s'.maxsize = s.maxsize) (e2 : s'.thr = s.thr.set i t')
    (e3 : s'.lock = none) (e4 : s'.log = s.log) (hin' : t'.inside = false)
    (hmid : ∀ pre, s.log = pre ++ [t.op] → t.tick = pre.length → Mid t.op (seqRun m pre) s.cont t.pc →
      s.out.Perm (if t.pc.late then (seqOp (seqRun m pre) t.op).1 else seqRun m pre).disposed →
      s'.cont = (seqOp (seqRun m pre) t.op).1.container ∧ s'.out.Perm (seqOp (seqRun m pre) t.op).1.disposed ∧
      (t'.pc = .idle ∨ t'.pc = .acq ∨ ∃ vs r, t'.pc = .disp vs r ∧ seqResult m s.log t'.tick = some r) ∧
      ∀ x ∈ s'.done, x ∈ s.done ∨ seqResult m s.log x.1 = some x.2) : RLkInv m s' := by
  have hl := h.inside i t hi hin
  obtain ⟨t0, pre, g1, g2, g3, g4, g5, g6⟩ := h.held i _ hl
  rw [hi] at g1
  cases g1
  obtain ⟨k1, k2, k3, k4⟩ := hmid pre g3 g4 g5 g6
  refine ⟨by rw [e1]; exact h.size, ?_, ?_, ?_, ?_, ?_⟩
  · intro j u hj hu
    rw [e2] at hj
    refine ⟨fun d hd => (by rw [e3] at hd; cases hd), ?_⟩
    rcases set_get hj with ⟨rfl, rfl⟩ | ⟨hne, hj⟩
    · rw [e4]; exact k3
    · rw [e4]; exact (h.outside j u hj hu).2
  · intro j u hj hu
    rw [e2] at hj
    rcases set_get hj with ⟨rfl, rfl⟩ | ⟨hne, hj⟩
    · rw [hin'] at hu; cases hu
    · have := h.inside j u hj hu
      rw [hl] at this
      simp only [Option.some.injEq, Prod.mk.injEq] at this
      exact absurd this.1.symm hne
  · intro _
    rw [e4, g3, seqRun_snoc]
    exact ⟨k1, k2⟩
  · intro j d hd
    rw [e3] at hd
    cases hd
  · intro x hx
    rw [e4]
    rcases k4 x hx with hx | hx
    · exact h.done x hx
    · exact hx

/-- a step of a thread that does not have the lock and does not take it -/
theorem RLkInv.away {m : Nat} {s s' : LockSt K V} (h : RLkInv m s) {i : Nat} {t t' : LThr K V} (hi : s.thr[i]? = some t)
    (hin : t.inside = false) (e1 : s'.maxsize = s.maxsize) (e2 : s'.thr = s.thr.set i t') (e3 : s'.lock = s.lock)
    (e4 : s'.log = s.log) (e5 : s'.cont = s.cont) (hin' : t'.inside = false)
    (hpc : t'.pc = .idle ∨ t'.pc = .acq ∨ ∃ vs r, t'.pc = .disp vs r ∧ seqResult m s.log t'.tick = some r)
    (hout : s'.out.Perm s.out) (hdone : ∀ x ∈ s'.done, x ∈ s.done ∨ seqResult m s.log x.1 = some x.2) : RLkInv m s' := by
  obtain ⟨a, -⟩ := h.outside i t hi hin
  refine ⟨by rw [e1]; exact h.size, ?_, ?_, ?_, ?_, ?_⟩
  · intro j u hj hu
    rw [e2] at hj
    rw [e3, e4]
    rcases set_get hj with ⟨rfl, rfl⟩ | ⟨hne, hj⟩
    · exact ⟨a, hpc⟩
    · exact h.outside j u hj hu
  · intro j u hj hu
    rw [e2] at hj
    rw [e3]
    rcases set_get hj with ⟨rfl, rfl⟩ | ⟨hne, hj⟩
    · rw [hin'] at hu; cases hu
    · exact h.inside j u hj hu
  · intro hf
    rw [e3] at hf
    obtain ⟨k1, k2⟩ := h.free hf
    rw [e4, e5]
    exact ⟨k1, hout.trans k2⟩
  · intro j d hd
    rw [e3] at hd
    obtain ⟨t0, pre, g1, g2, g3, g4, g5, g6⟩ := h.held j d hd
    have hne : i ≠ j := by
      intro e
      subst e
      exact a d hd
    refine ⟨t0, pre, by rw [e2, List.getElem?_set_ne hne]; exact g1, g2, by rw [e4]; exact g3, g4, by rw [e5]; exact g5, ?_⟩
    exact hout.trans g6
  · intro x hx
    rw [e4]
    rcases hdone x hx with hx | hx
    · exact h.done x hx
    · exact hx

/-- a thread gets the lock -/
theorem RLkInv.acquire {m : Nat} {s s' : LockSt K V} (h : RLkInv m s) {i : Nat} {t t' : LThr K V} (hi : s.thr[i]? = some t)
    (hpc : t.pc = .acq) (hf : s.lock = none) (e1 : s'.maxsize = s.maxsize) (e2 : s'.thr = s.thr.set i t')
    (e3 : s'.lock = some (i, t'.depth)) (e4 : s'.log = s.log ++ [t.op]) (e5 : s'.cont = s.cont)
    (e6 : s'.disposed = s.disposed) (e7 : s'.done = s.done) (hin' : t'.inside = true)
    (hop : t'.op = t.op) (htick : t'.tick = s.log.length) (hpend : t'.pc.pend = []) (hlate : t'.pc.late = false)
    (hmid : Mid t.op (seqRun m s.log) (seqRun m s.log).container t'.pc) : RLkInv m s' := by
  have hlt := (List.getElem?_eq_some_iff.1 hi).1
  obtain ⟨k1, k2⟩ := h.free hf
  refine ⟨by rw [e1]; exact h.size, ?_, ?_, ?_, ?_, ?_⟩
  · intro j u hj hu
    rw [e2] at hj
    rcases set_get hj with ⟨rfl, rfl⟩ | ⟨hne, hj⟩
    · rw [hin'] at hu; cases hu
    · obtain ⟨-, b⟩ := h.outside j u hj hu
      refine ⟨fun d hd => ?_, ?_⟩
      · rw [e3] at hd
        cases hd
        exact hne rfl
      · rcases b with b | b | ⟨vs, r, b, c⟩
        · exact .inl b
        · exact .inr (.inl b)
        · exact .inr (.inr ⟨vs, r, b, by rw [e4]; exact seqResult_append c _⟩)
  · intro j u hj hu
    rw [e2] at hj
    rcases set_get hj with ⟨rfl, rfl⟩ | ⟨hne, hj⟩
    · exact e3
    · have := h.inside j u hj hu
      rw [hf] at this
      cases this
  · intro hf
    rw [e3] at hf
    cases hf
  · intro j d hd
    rw [e3] at hd
    cases hd
    refine ⟨t', s.log, by rw [e2]; simp [hlt], hin', by rw [e4, hop], htick, ?_, ?_⟩
    · rw [hop, e5, k1]; exact hmid
    · rw [hlate]
      have := out_move hi t' (s' := s') (d := []) (add := []) (by rw [e6]; simp) e2 (by rw [hpend, hpc]; exact List.Perm.nil)
      rw [List.append_nil] at this
      exact this.trans k2
  · intro x hx
    rw [e7] at hx
    rw [e4]
    exact seqResult_append (h.done x hx) _

omit [DecidableEq K] in
theorem after_facts {op : LOp K V} {k : K} (h : op.looks k) (r : Option V) (n : Nat) :
    LThr.inside { pc := op.afterGet r, op := op, tick := n } = true ∧ (op.afterGet r).pend = [] ∧
    LThr.depth { pc := op.afterGet r, op := op, tick := n } = (if op.isAsk then 2 else 1) := by
  rcases h with rfl | rfl | rfl | ⟨ctor, rfl⟩ <;> cases r <;>
    simp [LOp.afterGet, LThr.inside, LPc.pend, LThr.depth, LOp.isAsk]

theorem after_mid {op : LOp K V} {k : K} (h : op.looks k) (S : Ru K V) (c : PyDict K V) {r : Option V}
    (hr : PyDict.get? S.container k = r)
    (hc : c = (match r with | some v => PyDict.set (PyDict.erase S.container k) k v | none => S.container)) :
    Mid op S c (op.afterGet r) ∧ S.disposed = (if (op.afterGet r).late then (seqOp S op).1 else S).disposed := by
  rcases h with rfl | rfl | rfl | ⟨ctor, rfl⟩ <;> cases r <;>
    simp_all [LOp.afterGet, Mid, LPc.late, seqOp, Ru.getitem, Ru.get, Ru.contains]

theorem ask_hit {S : Ru K V} {k : K} {v : V} (h : PyDict.get? S.container k = some v) (ctor : Except PyExc V) :
    seqOp S (.ask k ctor) = ({ S with container := PyDict.set (PyDict.erase S.container k) k v }, .value (some v)) := by
  simp [seqOp, Ru.get, Ru.getitem, h]

theorem ask_miss {S : Ru K V} {k : K} (h : PyDict.get? S.container k = none) (ctor : Except PyExc V) :
    seqOp S (.ask k ctor) = (match ctor with | .error e => (S, .exc e) | .ok v => (S.setitem k v, .value (some v))) := by
  simp only [seqOp, Ru.get, Ru.getitem, h]

theorem sets_res {op : LOp K V} {k : K} {v : V} {S : Ru K V} (h : op.sets k v S) :
    seqOp S op = (S.setitem k v, op.setRes) := by
  rcases h with rfl | ⟨rfl, h⟩
  · rfl
  · rw [ask_miss h]
    rfl

omit [DecidableEq K] in
/-- the lock while thread `i` holds it -/
theorem depth_pos (t : LThr K V) : ∃ d, t.depth = d + 1 := by
  unfold LThr.depth
  split
  · split <;> exact ⟨_, rfl⟩
  · exact ⟨0, rfl⟩

theorem RLkInv.step {m : Nat} {s : LockSt K V} (h : RLkInv m s) (e : LockEv K V) : RLkInv m (lockStep s e) := by
  cases e with
  | call i op =>
    unfold lockStep
    dsimp only
    split
    · next t hi =>
      split
      · next hpc =>
        refine h.away hi (t' := { pc := .acq, op := op }) (by simp [LThr.inside, hpc]) rfl rfl rfl rfl rfl rfl (.inr (.inl rfl)) ?_
          fun x hx => .inl hx
        have := out_move hi { pc := .acq, op := op } (s' := { s with thr := s.thr.set i { pc := .acq, op := op } })
          (d := []) (add := []) (by simp) rfl (by rw [hpc]; exact List.Perm.nil)
        rwa [List.append_nil] at this
      · exact h
    · exact h
  | step i =>
    unfold lockStep
    dsimp only
    cases hi : s.thr[i]? with
    | none => exact h
    | some t =>
      dsimp only
      -- a step inside that takes nothing out
      have quiet : ∀ (s' : LockSt K V) (pc : LPc K V), t.inside = true → s'.maxsize = s.maxsize →
          s'.thr = s.thr.set i { t with pc := pc } → s'.lock = some (i, LThr.depth { t with pc := pc }) → s'.log = s.log →
          s'.done = s.done → s'.disposed = s.disposed → LThr.inside { t with pc := pc } = true → pc.pend = [] → t.pc.pend = [] →
          (∀ pre, Mid t.op (seqRun m pre) s.cont t.pc → Mid t.op (seqRun m pre) s'.cont pc ∧
            (if t.pc.late then (seqOp (seqRun m pre) t.op).1 else seqRun m pre).disposed
              = (if pc.late then (seqOp (seqRun m pre) t.op).1 else seqRun m pre).disposed) → RLkInv m s' := by
        intro s' pc hin e1 e2 e3 e4 e5 e6 hin' hp1 hp2 hm
        refine h.stay hi (t' := { t with pc := pc }) hin e1 e2 e3 e4 e5 hin' rfl rfl fun pre _ h1 h2 => ?_
        obtain ⟨k1, k2⟩ := hm pre h1
        refine ⟨k1, ?_⟩
        have := out_move hi { t with pc := pc } (s' := s') (d := []) (add := []) (by rw [e6]; simp) e2
          (by show (pc.pend).Perm _; rw [hp1, hp2]; exact List.Perm.nil)
        rw [List.append_nil] at this
        exact (this.trans h2).trans (by rw [k2])
      -- the last step inside the container, which takes out `vs`
      have takes : ∀ (s' : LockSt K V) (vs : List V) (r : LRes K V), t.inside = true → s'.maxsize = s.maxsize →
          s'.thr = s.thr.set i { t with pc := .exit vs r } → s'.lock = some (i, LThr.depth { t with pc := .exit vs r }) →
          s'.log = s.log → s'.done = s.done → s'.disposed = s.disposed → t.pc.pend = [] → t.pc.late = false →
          (∀ pre, Mid t.op (seqRun m pre) s.cont t.pc → s'.cont = (seqOp (seqRun m pre) t.op).1.container ∧
            r = (seqOp (seqRun m pre) t.op).2 ∧ (seqOp (seqRun m pre) t.op).1.disposed = (seqRun m pre).disposed ++ vs) →
          RLkInv m s' := by
        intro s' vs r hin e1 e2 e3 e4 e5 e6 hp hlt hm
        refine h.stay hi (t' := { t with pc := .exit vs r }) hin e1 e2 e3 e4 e5 rfl rfl rfl fun pre _ h1 h2 => ?_
        obtain ⟨k1, k2, k3⟩ := hm pre h1
        refine ⟨⟨k1, k2⟩, ?_⟩
        have := out_move hi { t with pc := .exit vs r } (s' := s') (d := []) (add := vs) (by rw [e6]; simp) e2
          (by rw [hp]; simp [LPc.pend])
        rw [hlt] at h2
        simp only [LPc.late, if_true, k3]
        exact this.trans (List.Perm.append_right _ h2)
      have hold : t.inside = true → s.lock = some (i, t.depth) ∧ ∃ pre, Mid t.op (seqRun m pre) s.cont t.pc := by
        intro hin
        have hl := h.inside i t hi hin
        obtain ⟨t0, pre, g1, g2, g3, g4, g5, g6⟩ := h.held i _ hl
        rw [hi] at g1
        cases g1
        exact ⟨hl, pre, g5⟩
      unfold lockAct
      cases hpc : t.pc with
      | idle => exact h
      | acq =>
        dsimp only
        have hin : t.inside = false := by simp [LThr.inside, hpc]
        obtain ⟨hnot, -⟩ := h.outside i t hi hin
        cases hl : s.lock with
        | some x =>
          obtain ⟨j, d⟩ := x
          have hne : j ≠ i := by
            intro e
            subst e
            exact hnot d hl
          simp only [rlockAcquire, if_neg hne]
          exact h
        | none =>
          simp only [rlockAcquire]
          refine h.acquire hi (t' := { t with pc := t.op.first, tick := s.log.length }) hpc hl rfl rfl ?_ rfl rfl rfl rfl ?_ rfl rfl
            ?_ ?_ ?_
          · cases hop : t.op <;> simp [LThr.depth, LOp.isAsk, LOp.first]
          · cases hop : t.op <;> simp [LThr.inside, LOp.first]
          · cases hop : t.op <;> simp [LPc.pend, LOp.first]
          · cases hop : t.op <;> simp [LPc.late, LOp.first]
          · cases hop : t.op <;> simp [Mid, LOp.first, LOp.looks, LOp.sets]
      | enterGet k =>
        have hin : t.inside = true := by simp [LThr.inside, hpc]
        obtain ⟨hl, pre, hm⟩ := hold hin
        rw [hpc] at hm
        obtain ⟨-, ctor, hop⟩ := hm
        have hd : t.depth = 1 := by simp [LThr.depth, hop, LOp.isAsk, hpc]
        rw [hd] at hl
        simp only [hl, rlockAcquire, if_true, LockSt.goto]
        refine quiet _ (.popKey k) hin rfl rfl ?_ rfl rfl rfl rfl rfl (by rw [hpc]; rfl) ?_
        · simp [LThr.depth, hop, LOp.isAsk]
        · intro pre hm
          rw [hpc] at hm
          exact ⟨⟨hm.1, .inr (.inr (.inr hm.2))⟩, by simp [hpc, LPc.late]⟩
      | popKey k =>
        have hin : t.inside = true := by simp [LThr.inside, hpc]
        obtain ⟨hl, pre0, hm⟩ := hold hin
        rw [hpc] at hm
        obtain ⟨-, hlk⟩ := hm
        have hd : t.depth = if t.op.isAsk then 2 else 1 := by simp [LThr.depth, hpc]
        rw [hd] at hl
        dsimp only
        cases hg : PyDict.get? s.cont k with
        | none =>
          dsimp only
          obtain ⟨f1, f2, f3⟩ := after_facts hlk none t.tick
          refine quiet _ (t.op.afterGet none) hin rfl rfl (hl.trans (by rw [← f3])) rfl rfl rfl f1 f2 (by rw [hpc]; rfl) ?_
          intro pre hm
          rw [hpc] at hm
          simp only [hpc, LPc.late]
          exact after_mid hlk _ _ (by rw [← hm.1]; exact hg) hm.1
        | some v =>
          dsimp only
          refine quiet _ (.reinsert k v) hin rfl rfl (hl.trans (by simp [LThr.depth])) rfl rfl rfl rfl rfl (by rw [hpc]; rfl) ?_
          intro pre hm
          rw [hpc] at hm
          refine ⟨⟨hlk, by rw [← hm.1]; exact hg, ?_⟩, by simp [hpc, LPc.late]⟩
          rw [← hm.1]
          rfl
      | reinsert k v =>
        have hin : t.inside = true := by simp [LThr.inside, hpc]
        obtain ⟨hl, pre0, hm⟩ := hold hin
        rw [hpc] at hm
        obtain ⟨hlk, -⟩ := hm
        have hd : t.depth = if t.op.isAsk then 2 else 1 := by simp [LThr.depth, hpc]
        rw [hd] at hl
        dsimp only
        obtain ⟨f1, f2, f3⟩ := after_facts hlk (some v) t.tick
        refine quiet _ (t.op.afterGet (some v)) hin rfl rfl (hl.trans (by rw [← f3])) rfl rfl rfl f1 f2 (by rw [hpc]; rfl) ?_
        intro pre hm
        rw [hpc] at hm
        obtain ⟨-, hg, hc⟩ := hm
        simp only [hpc, LPc.late]
        have hc' : PyDict.set s.cont k v = PyDict.set (PyDict.erase (seqRun m pre).container k) k v := by rw [hc]
        exact after_mid hlk (seqRun m pre) (PyDict.set s.cont k v) hg hc'
      | exitGet r =>
        have hin : t.inside = true := by simp [LThr.inside, hpc]
        obtain ⟨hl, pre0, hm⟩ := hold hin
        rw [hpc] at hm
        obtain ⟨k, ctor, hop, -⟩ := hm
        have hd : t.depth = 2 := by simp [LThr.depth, hop, LOp.isAsk, hpc]
        rw [hd] at hl
        have hrel : rlockRelease s.lock = some (i, 1) := by rw [hl]; rfl
        cases r with
        | some v =>
          refine quiet _ (.outerExit (.value (some v))) hin rfl rfl (hrel.trans (by simp [LThr.depth, hop, LOp.isAsk])) rfl rfl rfl rfl
            rfl (by rw [hpc]; rfl) ?_
          intro pre hm
          rw [hpc] at hm
          obtain ⟨k, ctor, hop, h1, h2⟩ := hm
          rw [hop, hpc]
          simp only [Mid, LPc.late, ask_hit h1]
          exact ⟨⟨h2, trivial⟩, rfl⟩
        | none =>
          refine quiet _ .newPool hin rfl rfl (hrel.trans (by simp [LThr.depth, hop, LOp.isAsk])) rfl rfl rfl rfl
            rfl (by rw [hpc]; rfl) ?_
          intro pre hm
          rw [hpc] at hm
          exact ⟨hm, by simp [hpc, LPc.late]⟩
      | newPool =>
        have hin : t.inside = true := by simp [LThr.inside, hpc]
        obtain ⟨hl, pre0, hm⟩ := hold hin
        rw [hpc] at hm
        obtain ⟨k, ctor, hop, -⟩ := hm
        have hd : t.depth = 1 := by simp [LThr.depth, hop, LOp.isAsk, hpc]
        rw [hd] at hl
        cases ctor with
        | ok v =>
          simp only [hop]
          refine quiet _ (.enterSet k v) hin rfl rfl (hl.trans (by simp [LThr.depth, hop, LOp.isAsk])) rfl rfl rfl rfl
            rfl (by rw [hpc]; rfl) ?_
          intro pre hm
          rw [hpc, hop] at hm
          obtain ⟨k', ctor', e, h1, h2⟩ := hm
          cases e
          exact ⟨⟨h2, hop, h1⟩, by simp [hpc, LPc.late]⟩
        | error e =>
          simp only [hop]
          refine quiet _ (.outerExit (.exc e)) hin rfl rfl (hl.trans (by simp [LThr.depth, hop, LOp.isAsk])) rfl rfl rfl rfl
            rfl (by rw [hpc]; rfl) ?_
          intro pre hm
          rw [hpc, hop] at hm
          obtain ⟨k', ctor', e, h1, h2⟩ := hm
          cases e
          rw [hop, hpc]
          simp only [Mid, LPc.late, ask_miss h1]
          exact ⟨⟨h2, trivial⟩, rfl⟩
      | enterSet k v =>
        have hin : t.inside = true := by simp [LThr.inside, hpc]
        obtain ⟨hl, pre, hm⟩ := hold hin
        rw [hpc] at hm
        obtain ⟨-, hop, -⟩ := hm
        have hd : t.depth = 1 := by simp [LThr.depth, hop, LOp.isAsk, hpc]
        rw [hd] at hl
        simp only [hl, rlockAcquire, if_true, LockSt.goto]
        refine quiet _ (.old k v) hin rfl rfl ?_ rfl rfl rfl rfl rfl (by rw [hpc]; rfl) ?_
        · simp [LThr.depth, hop, LOp.isAsk]
        · intro pre hm
          rw [hpc] at hm
          exact ⟨⟨hm.1, .inr hm.2⟩, by simp [hpc, LPc.late]⟩
      | old k v =>
        have hin : t.inside = true := by simp [LThr.inside, hpc]
        obtain ⟨hl, -⟩ := hold hin
        refine quiet _ (.store k v (PyDict.get? s.cont k)) hin rfl rfl (hl.trans (by simp [LThr.depth, hpc])) rfl rfl rfl rfl
          rfl (by rw [hpc]; rfl) ?_
        intro pre hm
        rw [hpc] at hm
        exact ⟨⟨hm.1, hm.2, by rw [← hm.1]⟩, by simp [hpc, LPc.late]⟩
      | store k v ev =>
        have hin : t.inside = true := by simp [LThr.inside, hpc]
        obtain ⟨hl, -⟩ := hold hin
        refine quiet _ (.size ev) hin rfl rfl (hl.trans (by simp [LThr.depth, hpc])) rfl rfl rfl rfl
          rfl (by rw [hpc]; rfl) ?_
        intro pre hm
        rw [hpc] at hm
        refine ⟨⟨k, v, hm.2.1, hm.2.2, ?_⟩, by simp [hpc, LPc.late]⟩
        show PyDict.set s.cont k v = _
        rw [hm.1]
      | size ev =>
        have hin : t.inside = true := by simp [LThr.inside, hpc]
        obtain ⟨hl, -⟩ := hold hin
        dsimp only
        split
        · next hgt =>
          refine quiet _ .popitem hin rfl rfl (hl.trans (by simp [LThr.depth, hpc])) rfl rfl rfl rfl rfl (by rw [hpc]; rfl) ?_
          intro pre hm
          rw [hpc] at hm
          obtain ⟨k, v, h1, h2, h3⟩ := hm
          refine ⟨⟨k, v, h1, h3, ?_⟩, by simp [hpc, LPc.late]⟩
          rw [seqRun_maxsize, ← h.size]
          exact hgt
        · next hle =>
          refine takes _ ev.toList t.op.setRes hin rfl rfl (hl.trans (by simp [LThr.depth, hpc])) rfl rfl rfl
            (by rw [hpc]; rfl) (by rw [hpc]; rfl) ?_
          intro pre hm
          rw [hpc] at hm
          obtain ⟨k, v, h1, h2, h3⟩ := hm
          have hle' : ¬ (PyDict.set (seqRun m pre).container k v).length > (seqRun m pre).maxsize := by
            rw [seqRun_maxsize, ← h3, ← h.size]
            exact hle
          rw [sets_res h1]
          simp only [Ru.setitem, if_neg hle']
          exact ⟨h3, trivial, by rw [h2]⟩
      | popitem =>
        have hin : t.inside = true := by simp [LThr.inside, hpc]
        obtain ⟨hl, -⟩ := hold hin
        dsimp only
        split
        · exact h
        · next w c hc =>
          refine takes _ [w] t.op.setRes hin rfl rfl (hl.trans (by simp [LThr.depth, hpc])) rfl rfl rfl
            (by rw [hpc]; rfl) (by rw [hpc]; rfl) ?_
          intro pre hm
          rw [hpc] at hm
          obtain ⟨k, v, h1, h2, h3⟩ := hm
          rw [h2] at h3 hc
          rw [sets_res h1]
          rw [hc] at h3
          simp only [Ru.setitem, hc, if_pos h3]
          exact ⟨rfl, trivial, trivial⟩
      | delKey k =>
        have hin : t.inside = true := by simp [LThr.inside, hpc]
        obtain ⟨hl, -⟩ := hold hin
        dsimp only
        cases hg : PyDict.get? s.cont k with
        | none =>
          refine takes _ [] (.exc .keyError) hin rfl rfl (hl.trans (by simp [LThr.depth, hpc])) rfl rfl rfl
            (by rw [hpc]; rfl) (by rw [hpc]; rfl) ?_
          intro pre hm
          rw [hpc] at hm
          obtain ⟨hop, hc⟩ := hm
          rw [hc] at hg
          simp [hop, seqOp, Ru.delitem, hg, LockSt.goto, hc]
        | some v =>
          refine takes _ [v] .unit hin rfl rfl (hl.trans (by simp [LThr.depth, hpc])) rfl rfl rfl
            (by rw [hpc]; rfl) (by rw [hpc]; rfl) ?_
          intro pre hm
          rw [hpc] at hm
          obtain ⟨hop, hc⟩ := hm
          rw [hc] at hg
          simp [hop, seqOp, Ru.delitem, hg, LockSt.goto, hc]
      | listAll =>
        have hin : t.inside = true := by simp [LThr.inside, hpc]
        obtain ⟨hl, -⟩ := hold hin
        refine quiet _ (.wipe (s.cont.map Prod.snd)) hin rfl rfl (hl.trans (by simp [LThr.depth, hpc])) rfl rfl rfl rfl
          rfl (by rw [hpc]; rfl) ?_
        intro pre hm
        rw [hpc] at hm
        exact ⟨⟨hm.1, hm.2, by rw [hm.2]⟩, by simp [hpc, LPc.late]⟩
      | wipe vs =>
        have hin : t.inside = true := by simp [LThr.inside, hpc]
        obtain ⟨hl, -⟩ := hold hin
        refine takes _ vs .unit hin rfl rfl (hl.trans (by simp [LThr.depth, hpc])) rfl rfl rfl
          (by rw [hpc]; rfl) (by rw [hpc]; rfl) ?_
        intro pre hm
        rw [hpc] at hm
        obtain ⟨hop, hc, hv⟩ := hm
        simp [hop, seqOp, Ru.clear, LockSt.goto, hv]
      | count =>
        have hin : t.inside = true := by simp [LThr.inside, hpc]
        obtain ⟨hl, -⟩ := hold hin
        refine takes _ [] (.nat s.cont.length) hin rfl rfl (hl.trans (by simp [LThr.depth, hpc])) rfl rfl rfl
          (by rw [hpc]; rfl) (by rw [hpc]; rfl) ?_
        intro pre hm
        rw [hpc] at hm
        obtain ⟨hop, hc⟩ := hm
        simp [hop, seqOp, Ru.len, LockSt.goto, hc]
      | listKeys =>
        have hin : t.inside = true := by simp [LThr.inside, hpc]
        obtain ⟨hl, -⟩ := hold hin
        refine takes _ [] (.keys (s.cont.map Prod.fst)) hin rfl rfl (hl.trans (by simp [LThr.depth, hpc])) rfl rfl rfl
          (by rw [hpc]; rfl) (by rw [hpc]; rfl) ?_
        intro pre hm
        rw [hpc] at hm
        obtain ⟨hop, hc⟩ := hm
        simp [hop, seqOp, Ru.keys, LockSt.goto, hc]
      | exit vs r =>
        have hin : t.inside = true := by simp [LThr.inside, hpc]
        obtain ⟨hl, -⟩ := hold hin
        have hout := out_move hi { t with pc := .disp vs r } (s' := { s with lock := rlockRelease s.lock }.goto i t (.disp vs r))
          (d := []) (add := []) (by simp [LockSt.goto]) rfl (by rw [hpc]; simp [LPc.pend])
        rw [List.append_nil] at hout
        by_cases ha : t.op.isAsk
        · have hd : t.depth = 2 := by simp [LThr.depth, ha, hpc]
          rw [hd] at hl
          refine h.stay hi (t' := { t with pc := .disp vs r }) hin rfl rfl ?_ rfl rfl ?_ rfl rfl fun pre _ h1 h2 => ?_
          · show rlockRelease s.lock = _
            rw [hl]
            simp [LThr.depth, ha, rlockRelease]
          · simp [LThr.inside, ha]
          · rw [hpc] at h1 h2
            exact ⟨h1, hout.trans h2⟩
        · have hd : t.depth = 1 := by simp [LThr.depth, ha]
          rw [hd] at hl
          refine h.leave hi (t' := { t with pc := .disp vs r }) hin rfl rfl ?_ rfl ?_ fun pre hlog htick h1 h2 => ?_
          · show rlockRelease s.lock = _
            rw [hl]
            rfl
          · simp [LThr.inside, ha]
          · rw [hpc] at h1 h2
            refine ⟨h1.1, hout.trans h2, .inr (.inr ⟨vs, r, rfl, ?_⟩), fun x hx => .inl hx⟩
            rw [hlog]
            show seqResult m _ t.tick = _
            rw [htick, seqResult_last, h1.2]
      | disp vs r =>
        cases vs with
        | cons v vs =>
          have hout := out_move hi { t with pc := .disp vs r } (s' := { s with disposed := s.disposed ++ [v] }.goto i t (.disp vs r))
            (d := [v]) (add := []) (by simp [LockSt.goto]) rfl (by rw [hpc]; simp [LPc.pend])
          rw [List.append_nil] at hout
          by_cases ha : t.op.isAsk
          · have hin : t.inside = true := by simp [LThr.inside, hpc, ha]
            obtain ⟨hl, -⟩ := hold hin
            refine h.stay hi (t' := { t with pc := .disp vs r }) hin rfl rfl (hl.trans (by simp [LThr.depth, hpc])) rfl rfl ?_ rfl rfl
              fun pre _ h1 h2 => ?_
            · simp [LThr.inside, ha]
            · rw [hpc] at h1 h2
              exact ⟨h1, hout.trans h2⟩
          · have hin : t.inside = false := by simp [LThr.inside, hpc, ha]
            obtain ⟨-, hp⟩ := h.outside i t hi hin
            refine h.away hi (t' := { t with pc := .disp vs r }) hin rfl rfl rfl rfl rfl (by simp [LThr.inside, ha]) ?_ hout
              fun x hx => .inl hx
            rw [hpc] at hp
            simp only [reduceCtorEq, LPc.disp.injEq, false_or] at hp
            obtain ⟨_, _, ⟨rfl, rfl⟩, hr⟩ := hp
            exact .inr (.inr ⟨vs, r, rfl, hr⟩)
        | nil =>
          dsimp only
          by_cases ha : t.op.isAsk
          · rw [if_pos ha]
            have hin : t.inside = true := by simp [LThr.inside, hpc, ha]
            obtain ⟨hl, -⟩ := hold hin
            refine quiet _ (.outerExit r) hin rfl rfl (hl.trans (by simp [LThr.depth, hpc])) rfl rfl rfl rfl
              rfl (by rw [hpc]; rfl) ?_
            intro pre hm
            rw [hpc] at hm ⊢
            exact ⟨hm, rfl⟩
          · rw [if_neg ha]
            have hin : t.inside = false := by simp [LThr.inside, hpc, ha]
            obtain ⟨-, hp⟩ := h.outside i t hi hin
            have hout := out_move hi { t with pc := .idle } (s' := s.finish i t r)
              (d := []) (add := []) (by simp [LockSt.finish]) rfl (by rw [hpc]; simp [LPc.pend])
            rw [List.append_nil] at hout
            refine h.away hi (t' := { t with pc := .idle }) hin rfl rfl rfl rfl rfl rfl (.inl rfl) hout fun x hx => ?_
            rw [hpc] at hp
            simp only [reduceCtorEq, LPc.disp.injEq, false_or] at hp
            obtain ⟨_, _, ⟨rfl, rfl⟩, hr⟩ := hp
            simp only [LockSt.finish, List.mem_append, List.mem_singleton] at hx
            rcases hx with hx | rfl
            · exact .inl hx
            · exact .inr hr
      | outerExit r =>
        have hin : t.inside = true := by simp [LThr.inside, hpc]
        obtain ⟨hl, -⟩ := hold hin
        have hout := out_move hi { t with pc := .idle } (s' := { s with lock := rlockRelease s.lock }.finish i t r)
          (d := []) (add := []) (by simp [LockSt.finish]) rfl (by rw [hpc]; simp [LPc.pend])
        rw [List.append_nil] at hout
        have hd : t.depth = 1 := by simp [LThr.depth, hpc]
        rw [hd] at hl
        refine h.leave hi (t' := { t with pc := .idle }) hin rfl rfl ?_ rfl rfl fun pre hlog htick h1 h2 => ?_
        · show rlockRelease s.lock = _
          rw [hl]
          rfl
        · rw [hpc] at h1 h2
          refine ⟨h1.1, hout.trans h2, .inl rfl, fun x hx => ?_⟩
          simp only [LockSt.finish, List.mem_append, List.mem_singleton] at hx
          rcases hx with hx | rfl
          · exact .inl hx
          · right
            show seqResult m _ t.tick = some r
            rw [hlog, htick, seqResult_last, h1.2]

theorem lockRun_snoc (m n : Nat) (evs : List (LockEv K V)) (e : LockEv K V) :
    lockRun m n (evs ++ [e]) = lockStep (lockRun m n evs) e := by
  simp [lockRun, List.foldl_append]

theorem lockRun_inv (m n : Nat) (evs : List (LockEv K V)) : RLkInv m (lockRun m n evs) := by
  induction evs using snoc_induct with
  | nil =>
    have idle : ∀ (i : Nat) (t : LThr K V), (List.replicate n ({} : LThr K V))[i]? = some t → t = {} := by
      intro i t hi
      have := List.mem_of_getElem? hi
      exact (List.mem_replicate.1 this).2
    refine ⟨rfl, ?_, ?_, ?_, ?_, fun x hx => (by cases hx)⟩
    · intro i t hi _
      exact ⟨fun d hd => (by cases hd), .inl (by rw [idle i t hi])⟩
    · intro i t hi hin
      rw [idle i t hi] at hin
      cases hin
    · intro _
      refine ⟨rfl, ?_⟩
      have : (List.replicate n ({} : LThr K V)).flatMap (fun t : LThr K V => t.pc.pend) = [] := by
        rw [List.flatMap_eq_nil_iff]
        intro t ht
        rw [(List.mem_replicate.1 ht).2]
        rfl
      show ([] ++ (List.replicate n ({} : LThr K V)).flatMap (fun t : LThr K V => t.pc.pend)).Perm []
      rw [this]
      exact List.Perm.nil
    · intro i d hd
      cases hd
  | snoc evs e ih =>
    rw [lockRun_snoc]
    exact ih.step e

/-! ## The calls -/

/-- the number of a call that has got the lock and has not returned -/
def LThr.running (t : LThr K V) : List Nat :=
  match t.pc with
  | .idle => []
  | .acq => []
  | _ => [t.tick]

/-- a call that waits for the lock -/
def LThr.waits (t : LThr K V) : List (LOp K V) :=
  match t.pc with
  | .acq => [t.op]
  | _ => []

/-- the call made by this event, if the thread can call -/
def Spec.callOf (s : LockSt K V) : LockEv K V → List (LOp K V)
  | .call i op =>
    match s.thr[i]? with
    | some t => match t.pc with
      | .idle => [op]
      | _ => []
    | none => []
  | .step _ => []

/-- the calls made during a history -/
def Spec.callsOf (s : LockSt K V) : List (LockEv K V) → List (LOp K V)
  | [] => []
  | e :: evs => callOf s e ++ callsOf (lockStep s e) evs

/-- the ledger of calls: those that got the lock are numbered, and have returned or are running -/
structure CallInv (s : LockSt K V) (calls : List (LOp K V)) : Prop where
  nums : (s.done.map Prod.fst ++ s.thr.flatMap LThr.running).Perm (List.range s.log.length)
  ops : (s.log ++ s.thr.flatMap LThr.waits).Perm calls

omit [DecidableEq K] in
theorem CallInv.same {s s' : LockSt K V} {calls : List (LOp K V)} (h : CallInv s calls) {i : Nat} {t t' : LThr K V}
    (hi : s.thr[i]? = some t) (e1 : s'.thr = s.thr.set i t') (e2 : s'.log = s.log) (e3 : s'.done = s.done)
    (r : t'.running = t.running) (w : t'.waits = t.waits) : CallInv s' calls := by
  obtain ⟨rest, h1, h2⟩ := flat_set LThr.running s.thr i t hi
  obtain ⟨rest', h3, h4⟩ := flat_set LThr.waits s.thr i t hi
  refine ⟨?_, ?_⟩
  · rw [e1, e2, e3]
    refine (List.Perm.append_left _ ((h2 t').trans ?_)).trans h.nums
    rw [r]
    exact h1.symm
  · rw [e1, e2]
    refine (List.Perm.append_left _ ((h4 t').trans ?_)).trans h.ops
    rw [w]
    exact h3.symm

omit [DecidableEq K] in
theorem CallInv.end {s s' : LockSt K V} {calls : List (LOp K V)} (h : CallInv s calls) {i : Nat} {t : LThr K V} {r : LRes K V}
    (hi : s.thr[i]? = some t) (e1 : s'.thr = s.thr.set i { t with pc := .idle }) (e2 : s'.log = s.log)
    (e3 : s'.done = s.done ++ [(t.tick, r)]) (hr : t.running = [t.tick]) (hw : t.waits = []) : CallInv s' calls := by
  obtain ⟨rest, h1, h2⟩ := flat_set LThr.running s.thr i t hi
  obtain ⟨rest', h3, h4⟩ := flat_set LThr.waits s.thr i t hi
  refine ⟨?_, ?_⟩
  · rw [e1, e2, e3]
    refine List.Perm.trans ?_ h.nums
    rw [List.map_append, List.append_assoc]
    apply List.Perm.append_left
    refine (List.Perm.append_left _ (h2 _)).trans ?_
    rw [hr] at h1
    exact h1.symm
  · rw [e1, e2]
    refine (List.Perm.append_left _ ((h4 _).trans ?_)).trans h.ops
    rw [hw] at h3
    exact h3.symm

theorem CallInv.step {s : LockSt K V} {calls : List (LOp K V)} (h : CallInv s calls) (e : LockEv K V) :
    CallInv (lockStep s e) (calls ++ callOf s e) := by
  cases e with
  | call i op =>
    unfold lockStep callOf
    dsimp only
    cases hi : s.thr[i]? with
    | none => simpa using h
    | some t =>
      dsimp only
      cases hpc : t.pc with
      | idle =>
        dsimp only
        obtain ⟨rest, h1, h2⟩ := flat_set LThr.running s.thr i t hi
        obtain ⟨rest', h3, h4⟩ := flat_set LThr.waits s.thr i t hi
        have r0 : t.running = [] := by simp [LThr.running, hpc]
        have w0 : t.waits = [] := by simp [LThr.waits, hpc]
        refine ⟨?_, ?_⟩
        · refine (List.Perm.append_left _ ((h2 _).trans ?_)).trans h.nums
          rw [r0] at h1
          exact h1.symm
        · refine List.Perm.trans ?_ (List.Perm.append_right [op] h.ops)
          rw [List.append_assoc]
          apply List.Perm.append_left
          refine (h4 _).trans ?_
          rw [w0] at h3
          exact (List.Perm.append_left [op] h3.symm).trans List.perm_append_comm
      | _ => simpa using h
  | step i =>
    show CallInv _ (calls ++ [])
    rw [List.append_nil]
    unfold lockStep
    dsimp only
    cases hi : s.thr[i]? with
    | none => exact h
    | some t =>
      dsimp only
      unfold lockAct
      cases hpc : t.pc with
      | idle => exact h
      | acq =>
        dsimp only
        split
        · exact h
        · obtain ⟨rest, h1, h2⟩ := flat_set LThr.running s.thr i t hi
          obtain ⟨rest', h3, h4⟩ := flat_set LThr.waits s.thr i t hi
          have r0 : t.running = [] := by simp [LThr.running, hpc]
          have w0 : t.waits = [t.op] := by simp [LThr.waits, hpc]
          have r1 : LThr.running { t with pc := t.op.first, tick := s.log.length } = [s.log.length] := by
            cases hop : t.op <;> simp [LThr.running, LOp.first]
          have w1 : LThr.waits { t with pc := t.op.first, tick := s.log.length } = [] := by
            cases hop : t.op <;> simp [LThr.waits, LOp.first]
          refine ⟨?_, ?_⟩
          · dsimp only
            rw [List.length_append, List.length_singleton, List.range_succ]
            refine List.Perm.trans ?_ (List.Perm.append_right _ h.nums)
            rw [List.append_assoc]
            apply List.Perm.append_left
            refine (h2 _).trans ?_
            rw [r1]
            rw [r0] at h1
            exact (List.Perm.append_left _ h1.symm).trans List.perm_append_comm
          · dsimp only
            rw [List.append_assoc]
            refine List.Perm.trans ?_ h.ops
            apply List.Perm.append_left
            refine (List.Perm.append_left _ (h4 _)).trans ?_
            rw [w1]
            rw [w0] at h3
            exact h3.symm
      | enterGet k =>
        dsimp only
        split
        · exact h
        · exact h.same hi rfl rfl rfl (by simp [LThr.running, hpc]) (by simp [LThr.waits, hpc])
      | popKey k =>
        dsimp only
        split
        · refine h.same hi rfl rfl rfl ?_ ?_
          · simp only [LThr.running, hpc]
            cases t.op <;> simp [LOp.afterGet]
          · simp only [LThr.waits, hpc]
            cases t.op <;> simp [LOp.afterGet]
        · exact h.same hi rfl rfl rfl (by simp [LThr.running, hpc]) (by simp [LThr.waits, hpc])
      | reinsert k v =>
        refine h.same hi rfl rfl rfl ?_ ?_
        · simp only [LThr.running, hpc]
          cases t.op <;> simp [LOp.afterGet]
        · simp only [LThr.waits, hpc]
          cases t.op <;> simp [LOp.afterGet]
      | exitGet r =>
        cases r <;> exact h.same hi rfl rfl rfl (by simp [LThr.running, hpc]) (by simp [LThr.waits, hpc])
      | newPool =>
        dsimp only
        split
        · exact h.same hi rfl rfl rfl (by simp [LThr.running, hpc]) (by simp [LThr.waits, hpc])
        · exact h.same hi rfl rfl rfl (by simp [LThr.running, hpc]) (by simp [LThr.waits, hpc])
        · exact h
      | enterSet k v =>
        dsimp only
        split
        · exact h
        · exact h.same hi rfl rfl rfl (by simp [LThr.running, hpc]) (by simp [LThr.waits, hpc])
      | old k v => exact h.same hi rfl rfl rfl (by simp [LThr.running, hpc]) (by simp [LThr.waits, hpc])
      | store k v ev => exact h.same hi rfl rfl rfl (by simp [LThr.running, hpc]) (by simp [LThr.waits, hpc])
      | size ev =>
        dsimp only
        split <;> exact h.same hi rfl rfl rfl (by simp [LThr.running, hpc]) (by simp [LThr.waits, hpc])
      | popitem =>
        dsimp only
        split
        · exact h
        · exact h.same hi rfl rfl rfl (by simp [LThr.running, hpc]) (by simp [LThr.waits, hpc])
      | delKey k =>
        dsimp only
        split <;> exact h.same hi rfl rfl rfl (by simp [LThr.running, hpc]) (by simp [LThr.waits, hpc])
      | listAll => exact h.same hi rfl rfl rfl (by simp [LThr.running, hpc]) (by simp [LThr.waits, hpc])
      | wipe vs => exact h.same hi rfl rfl rfl (by simp [LThr.running, hpc]) (by simp [LThr.waits, hpc])
      | count => exact h.same hi rfl rfl rfl (by simp [LThr.running, hpc]) (by simp [LThr.waits, hpc])
      | listKeys => exact h.same hi rfl rfl rfl (by simp [LThr.running, hpc]) (by simp [LThr.waits, hpc])
      | exit vs r => exact h.same hi rfl rfl rfl (by simp [LThr.running, hpc]) (by simp [LThr.waits, hpc])
      | disp vs r =>
        cases vs with
        | cons v vs => exact h.same hi rfl rfl rfl (by simp [LThr.running, hpc]) (by simp [LThr.waits, hpc])
        | nil =>
          dsimp only
          split
          · exact h.same hi rfl rfl rfl (by simp [LThr.running, hpc]) (by simp [LThr.waits, hpc])
          · exact h.end hi rfl rfl rfl (by simp [LThr.running, hpc]) (by simp [LThr.waits, hpc])
      | outerExit r => exact h.end hi rfl rfl rfl (by simp [LThr.running, hpc]) (by simp [LThr.waits, hpc])

theorem callsOf_snoc (s : LockSt K V) (evs : List (LockEv K V)) (e : LockEv K V) :
    callsOf s (evs ++ [e]) = callsOf s evs ++ callOf (evs.foldl lockStep s) e := by
  induction evs generalizing s with
  | nil => simp [callsOf]
  | cons a evs ih => simp [callsOf, ih]

/-- the shared container before anything happens -/
def Spec.fresh (m n : Nat) : LockSt K V := { maxsize := m, thr := List.replicate n {} }

theorem lockRun_calls (m n : Nat) (evs : List (LockEv K V)) : CallInv (lockRun m n evs) (callsOf (fresh m n) evs) := by
  induction evs using snoc_induct with
  | nil =>
    have e1 : (List.replicate n ({} : LThr K V)).flatMap LThr.running = [] := by
      rw [List.flatMap_eq_nil_iff]
      intro t ht
      rw [(List.mem_replicate.1 ht).2]
      rfl
    have e2 : (List.replicate n ({} : LThr K V)).flatMap LThr.waits = [] := by
      rw [List.flatMap_eq_nil_iff]
      intro t ht
      rw [(List.mem_replicate.1 ht).2]
      rfl
    refine ⟨?_, ?_⟩
    · show ([] ++ (List.replicate n ({} : LThr K V)).flatMap LThr.running).Perm []
      rw [e1]
      exact List.Perm.nil
    · show ([] ++ (List.replicate n ({} : LThr K V)).flatMap LThr.waits).Perm []
      rw [e2]
      exact List.Perm.nil
  | snoc evs e ih =>
    rw [lockRun_snoc, callsOf_snoc]
    exact ih.step e

theorem lockStep_log (s : LockSt K V) (e : LockEv K V) : s.log <+: (lockStep s e).log := by
  cases e with
  | call i op =>
    unfold lockStep
    dsimp only
    split
    · split <;> exact List.prefix_refl _
    · exact List.prefix_refl _
  | step i =>
    unfold lockStep
    dsimp only
    split
    · next t hi =>
      unfold lockAct
      cases t.pc <;> dsimp only <;> repeat' split
      all_goals first | exact List.prefix_refl _ | exact List.prefix_append ..
    · exact List.prefix_refl _

theorem lockRun_log (m n : Nat) (pre post : List (LockEv K V)) :
    (lockRun m n pre).log <+: (lockRun m n (pre ++ post)).log := by
  induction post using snoc_induct with
  | nil => rw [List.append_nil]; exact List.prefix_refl _
  | snoc post e ih =>
    rw [← List.append_assoc, lockRun_snoc]
    exact ih.trans (lockStep_log _ e)

/-- no thread is in the middle of a call -/
def Spec.AllIdle (s : LockSt K V) : Prop := ∀ t ∈ s.thr, t.pc = LPc.idle

omit [DecidableEq K] in
theorem idle_flat {β : Type} {s : LockSt K V} (h : AllIdle s) (f : LThr K V → List β)
    (hf : ∀ t, t.pc = .idle → f t = []) : s.thr.flatMap f = [] := by
  rw [List.flatMap_eq_nil_iff]
  exact fun t ht => hf t (h t ht)

/-- C121 (a container shared by threads behaves as if it were used by one). Whatever the threads do, in whatever order, the
calls that have got the lock so far, in the order in which they got it, are a sequential history of the container, and:
* every call that has returned (or raised) has the result it has in this history;
* the history respects time: a call that has returned comes before every call that has not got the lock yet, and the history
  only grows;
* the calls that have got the lock have returned or are running, each once, and together with those that still wait for the
  lock they are the calls that have been made;
* when the lock is free, the content is the one after this history, in the same order of use; the values disposed of so far
  and those about to be disposed of by a thread are those disposed of in this history, each as often;
* when no thread is in a call, every call has returned and exactly the values evicted in this history have been disposed of;
* as long as a call has not returned, some thread can go on (no deadlock). -/
theorem C121_atomic (m n : Nat) (evs : List (LockEv K V)) :
    let s := lockRun m n evs
    (∀ x ∈ s.done, seqResult m s.log x.1 = some x.2) ∧
    (∀ x ∈ s.done, x.1 < s.log.length) ∧ (∀ post, s.log <+: (lockRun m n (evs ++ post)).log) ∧
    ((s.done.map Prod.fst ++ s.thr.flatMap LThr.running).Perm (List.range s.log.length) ∧
      (s.log ++ s.thr.flatMap LThr.waits).Perm (callsOf (fresh m n) evs)) ∧
    (s.lock = none → s.cont = (seqRun m s.log).container ∧
      (s.disposed ++ s.thr.flatMap fun t => t.pc.pend).Perm (seqRun m s.log).disposed) ∧
    (AllIdle s → s.lock = none ∧ (s.done.map Prod.fst).Perm (List.range s.log.length) ∧
      s.log.Perm (callsOf (fresh m n) evs) ∧ s.disposed.Perm (seqRun m s.log).disposed) ∧
    (¬ AllIdle s → ∃ i t t', s.thr[i]? = some t ∧ (lockStep s (.step i)).thr[i]? = some t' ∧ t'.pc ≠ t.pc) := by
  intro s
  have I : RLkInv m s := lockRun_inv m n evs
  have C : CallInv s (callsOf (fresh m n) evs) := lockRun_calls m n evs
  have hfree : AllIdle s → s.lock = none := by
    intro hid
    cases hl : s.lock with
    | none => rfl
    | some x =>
      obtain ⟨t, pre, g1, g2, -⟩ := I.held x.1 x.2 hl
      have := hid t (List.mem_of_getElem? g1)
      simp [LThr.inside, this] at g2
  refine ⟨I.done, ?_, fun post => lockRun_log m n evs post, ⟨C.nums, C.ops⟩, I.free, ?_, ?_⟩
  · intro x hx
    have : x.1 ∈ s.done.map Prod.fst ++ s.thr.flatMap LThr.running :=
      List.mem_append_left _ (List.mem_map_of_mem hx)
    exact List.mem_range.1 (C.nums.mem_iff.1 this)
  · intro hid
    have h1 := C.nums
    have h2 := C.ops
    obtain ⟨-, h3⟩ := I.free (hfree hid)
    rw [idle_flat hid _ (fun t ht => by simp [LThr.running, ht]), List.append_nil] at h1
    rw [idle_flat hid _ (fun t ht => by simp [LThr.waits, ht]), List.append_nil] at h2
    unfold LockSt.out at h3
    rw [idle_flat hid _ (fun t ht => by simp [LPc.pend, ht]), List.append_nil] at h3
    exact ⟨hfree hid, h1, h2, h3⟩
  · intro hid
    -- a thread that does not wait for the lock
    have go : ∀ (i : Nat) t, s.thr[i]? = some t → t.pc ≠ .idle → (t.pc = .acq → s.lock = none) →
        ∃ t', (lockStep s (.step i)).thr[i]? = some t' ∧ t'.pc ≠ t.pc := by
      intro i t hi hne hacq
      have hlt := (List.getElem?_eq_some_iff.1 hi).1
      have put : ∀ (q : LPc K V) (t' : LThr K V), t'.pc ≠ q → ∃ u, (s.thr.set i t')[i]? = some u ∧ u.pc ≠ q := by
        intro q t' h'
        exact ⟨t', by simp [hlt], h'⟩
      have hold : t.inside = true → s.lock = some (i, t.depth) ∧ ∃ pre, Mid t.op (seqRun m pre) s.cont t.pc := by
        intro hin
        have hl := I.inside i t hi hin
        obtain ⟨t0, pre, g1, g2, g3, g4, g5, g6⟩ := I.held i _ hl
        rw [hi] at g1
        cases g1
        exact ⟨hl, pre, g5⟩
      unfold lockStep
      dsimp only
      rw [hi]
      dsimp only
      unfold lockAct
      cases hpc : t.pc with
      | idle => exact absurd hpc hne
      | acq =>
        rw [hacq hpc]
        simp only [rlockAcquire]
        refine put _ _ ?_
        cases t.op <;> simp [LOp.first]
      | enterGet k =>
        obtain ⟨hl, -⟩ := hold (by simp [LThr.inside, hpc])
        rw [hl]
        simp only [rlockAcquire, if_true]
        exact put _ _ (by simp)
      | popKey k =>
        dsimp only
        split
        · refine put _ _ ?_
          cases t.op <;> simp [LOp.afterGet]
        · exact put _ _ (by simp)
      | reinsert k v =>
        refine put _ _ ?_
        cases t.op <;> simp [LOp.afterGet]
      | exitGet r => cases r <;> exact put _ _ (by simp)
      | newPool =>
        obtain ⟨-, pre, hm⟩ := hold (by simp [LThr.inside, hpc])
        rw [hpc] at hm
        obtain ⟨k, ctor, hop, -⟩ := hm
        dsimp only
        cases ctor <;> simp only [hop] <;> exact put _ _ (by simp)
      | enterSet k v =>
        obtain ⟨hl, -⟩ := hold (by simp [LThr.inside, hpc])
        rw [hl]
        simp only [rlockAcquire, if_true]
        exact put _ _ (by simp)
      | old k v => exact put _ _ (by simp)
      | store k v ev => exact put _ _ (by simp)
      | size ev =>
        dsimp only
        split <;> exact put _ _ (by simp)
      | popitem =>
        obtain ⟨-, pre, hm⟩ := hold (by simp [LThr.inside, hpc])
        rw [hpc] at hm
        obtain ⟨k, v, -, -, hlen⟩ := hm
        dsimp only
        split
        · next hc =>
          rw [hc] at hlen
          simp at hlen
        · exact put _ _ (by simp)
      | delKey k =>
        dsimp only
        split <;> exact put _ _ (by simp)
      | listAll => exact put _ _ (by simp)
      | wipe vs => exact put _ _ (by simp)
      | count => exact put _ _ (by simp)
      | listKeys => exact put _ _ (by simp)
      | exit vs r => exact put _ _ (by simp)
      | disp vs r =>
        cases vs with
        | cons v vs => exact put _ _ (by simp)
        | nil =>
          dsimp only
          split <;> exact put _ _ (by simp)
      | outerExit r => exact put _ _ (by simp)
    cases hl : s.lock with
    | some x =>
      obtain ⟨t, pre, g1, g2, -⟩ := I.held x.1 x.2 hl
      obtain ⟨t', h1, h2⟩ := go x.1 t g1 (by intro e; simp [LThr.inside, e] at g2)
        (by intro e; simp [LThr.inside, e] at g2)
      exact ⟨x.1, t, t', g1, h1, h2⟩
    | none =>
      have : ∃ t, t ∈ s.thr ∧ t.pc ≠ .idle := by
        apply Classical.byContradiction
        intro hno
        exact hid fun t ht => Classical.byContradiction fun hne => hno ⟨t, ht, hne⟩
      obtain ⟨t, ht, hne⟩ := this
      obtain ⟨i, hi⟩ := List.mem_iff_getElem?.1 ht
      obtain ⟨t', h1, h2⟩ := go i t hi hne (fun _ => hl)
      exact ⟨i, t, t', hi, h1, h2⟩

/-- two threads enter a value each in a container for one, both interrupted in the middle: the second waits for the lock; the
first value is thrown out and disposed of -/
example :
    let s := lockRun (K := Nat) (V := Nat) 1 2
      ([.call 0 (.setitem 7 70), .call 1 (.setitem 8 80), .step 0, .step 1, .step 0] ++
        List.replicate 3 (.step 0) ++ List.replicate 8 (.step 1) ++ [.step 0])
    s.log = [.setitem 7 70, .setitem 8 80] ∧ s.done = [(1, .unit), (0, .unit)] ∧ s.cont = [(8, 80)] ∧ s.disposed = [70] ∧
    (seqRun (K := Nat) (V := Nat) 1 s.log).disposed = [70] := by
  decide

/-! ## C122 -/

/-- the call is `connection_pool_from_pool_key` or `clear` of a pool manager -/
def Spec.ofManager : LOp K V → Prop
  | .ask _ _ => True
  | .clear => True
  | _ => False

/-- the pools that the constructors called by these calls return -/
def Spec.poolsMade (ops : List (LOp K V)) : List V :=
  ops.filterMap fun
    | .ask _ (.ok v) => some v
    | _ => none

theorem inv_seqOp {s : Ru K V} (hs : RuInv s) (op : LOp K V) : RuInv (seqOp s op).1 := by
  cases op with
  | getitem k =>
    have := inv_getitem hs k
    rcases hg : s.getitem k with ⟨s', v | e⟩ <;> rw [hg] at this <;> simpa [seqOp, hg] using this
  | get k => have := inv_step hs (.get k); exact this
  | contains k => have := inv_step hs (.contains k); exact this
  | setitem k v => exact inv_setitem hs k v
  | delitem k =>
    have := inv_delitem hs k
    rcases hg : s.delitem k with ⟨s', v | e⟩ <;> rw [hg] at this <;> simpa [seqOp, hg] using this
  | clear => exact ⟨List.nodup_nil, Nat.zero_le _⟩
  | len => exact hs
  | keys => exact hs
  | ask k ctor =>
    have : RuInv (s.get k).1 := inv_step hs (.get k)
    rcases hg : s.get k with ⟨s', _ | v⟩ <;> rw [hg] at this
    · cases ctor with
      | error e => simpa [seqOp, hg] using this
      | ok v => simpa [seqOp, hg] using inv_setitem this k v
    · simpa [seqOp, hg] using this

theorem inv_seqRun (m : Nat) (ops : List (LOp K V)) : RuInv (seqRun m ops) := by
  induction ops using snoc_induct with
  | nil => exact ⟨List.nodup_nil, Nat.zero_le _⟩
  | snoc ops op ih => rw [seqRun_snoc]; exact inv_seqOp ih op

/-- the pools a manager has made are those it keeps and those it has closed -/
theorem seq_books (m : Nat) (ops : List (LOp K V)) (h : ∀ op ∈ ops, ofManager op) :
    ∃ l, l.Sublist (poolsMade ops) ∧
      ((seqRun m ops).disposed ++ (seqRun m ops).container.map Prod.snd).Perm l := by
  induction ops using snoc_induct with
  | nil => exact ⟨[], List.Sublist.refl _, List.Perm.nil⟩
  | snoc ops op ih =>
    obtain ⟨l, h1, h2⟩ := ih fun o ho => h o (List.mem_append_left _ ho)
    have hs := inv_seqRun m ops
    have e : poolsMade (ops ++ [op]) = poolsMade ops ++ poolsMade [op] := by simp [poolsMade]
    rw [seqRun_snoc, e]
    have hop := h op (by simp)
    generalize seqRun m ops = S at *
    cases op with
    | clear =>
      refine ⟨l, h1.trans (List.sublist_append_left ..), ?_⟩
      simpa [seqOp, Ru.clear] using h2
    | ask k ctor =>
      have hstep := disposed_step hs (.get k)
      simp only [Spec.valuesSet, ruStep] at hstep
      rcases getitem_cases S hs k with ⟨hk, hg⟩ | ⟨v, a, b, hc, hg⟩
      · cases ctor with
        | error x =>
          refine ⟨l, h1.trans (List.sublist_append_left ..), ?_⟩
          simpa [seqOp, Ru.get, hg] using h2
        | ok v =>
          refine ⟨l ++ [v], List.Sublist.append h1 (List.Sublist.refl _), ?_⟩
          have := disposed_step hs (.setitem k v)
          simp only [seqOp, Ru.get, hg]
          exact this.trans (List.Perm.append_right _ h2)
      · refine ⟨l, h1.trans (List.sublist_append_left ..), ?_⟩
        simp only [seqOp, Ru.get, hg]
        refine List.Perm.trans ?_ h2
        rw [hc]
        apply List.Perm.append_left
        apply List.Perm.map
        rw [List.append_assoc]
        exact List.Perm.append_left _ (List.perm_append_singleton _ _)
    | _ => exact hop.elim

/-- what `ask` returns is kept afterwards -/
theorem ask_kept {S : Ru K V} (hs : RuInv S) (hm : 0 < S.maxsize) {k : K} {ctor : Except PyExc V} {v : V}
    (h : (seqOp S (.ask k ctor)).2 = .value (some v)) : PyDict.get? (seqOp S (.ask k ctor)).1.container k = some v := by
  rcases getitem_cases S hs k with ⟨hk, hg⟩ | ⟨w, a, b, hc, hg⟩
  · cases ctor with
    | error x => simp [seqOp, Ru.get, hg] at h
    | ok u =>
      simp only [seqOp, Ru.get, hg, LRes.value.injEq, Option.some.injEq] at h ⊢
      subst h
      have hin := inv_setitem hs k u
      rcases setitem_cases S hs k u with ⟨w, a, b, h1, _, h3⟩ | ⟨_, _, h1⟩ | ⟨_, h0, e, w, c', h1, h2⟩
      · exact absurd (by simp [Ru.keys, h1]) hk
      · rw [h1] at hin ⊢
        exact PyDict.get?_of_mem hin.1 (by simp)
      · rw [h2] at hin ⊢
        refine PyDict.get?_of_mem hin.1 ?_
        cases hcc : S.container with
        | nil =>
          rw [hcc] at h0
          simp at h0
          omega
        | cons x c =>
          rw [hcc] at h1
          simp only [List.cons_append, List.cons.injEq] at h1
          rw [← h1.2]
          simp
  · have hin := inv_getitem hs k
    simp only [seqOp, Ru.get, hg, LRes.value.injEq, Option.some.injEq] at h ⊢
    rw [hg] at hin
    subst h
    exact PyDict.get?_of_mem hin.1 (by simp)

theorem ask_cases (S : Ru K V) (hs : RuInv S) (k : K) (ctor : Except PyExc V) :
    (∃ v a b, S.container = a ++ (k, v) :: b ∧
      seqOp S (.ask k ctor) = ({ S with container := a ++ b ++ [(k, v)] }, .value (some v))) ∨
    (k ∉ S.keys ∧ ∃ e, ctor = .error e ∧ seqOp S (.ask k ctor) = (S, .exc e)) ∨
    (k ∉ S.keys ∧ ∃ v, ctor = .ok v ∧ seqOp S (.ask k ctor) = (S.setitem k v, .value (some v))) := by
  rcases getitem_cases S hs k with ⟨hk, h⟩ | ⟨v, a, b, h1, h⟩
  · right
    cases ctor with
    | error e => exact .inl ⟨hk, e, rfl, by simp [seqOp, Ru.get, h]⟩
    | ok u => exact .inr ⟨hk, u, rfl, by simp [seqOp, Ru.get, h]⟩
  · left
    exact ⟨v, a, b, h1, by simp [seqOp, Ru.get, h]⟩

/-- `k`'s pool `p` is kept, and everything used after it is in `L` -/
def RKeeps (S : Ru K V) (k : K) (p : V) (L : List K) : Prop :=
  ∃ a b, S.container = a ++ (k, p) :: b ∧ ∀ x ∈ b.map Prod.fst, x ∈ L

theorem rkeeps_step {S : Ru K V} (hs : RuInv S) {k : K} {p : V} {L : List K}
    (hL : L.length < S.maxsize) (h : RKeeps S k p L) {k' : K} (hk' : k' ∈ k :: L) (ctor : Except PyExc V) :
    RKeeps (seqOp S (.ask k' ctor)).1 k p L := by
  obtain ⟨a, b, hc, hb⟩ := h
  have hn := hs.1
  rcases ask_cases S hs k' ctor with ⟨p', a', b', h1, h2⟩ | ⟨_, e, _, h2⟩ | ⟨hk, u, _, h2⟩
  · rw [h2]
    by_cases hkk : k' = k
    · subst hkk
      have hpp : p' = p := by
        have e1 : PyDict.get? S.container k' = some p' := PyDict.get?_of_mem hn (by rw [h1]; simp)
        have e2 : PyDict.get? S.container k' = some p := PyDict.get?_of_mem hn (by rw [hc]; simp)
        rw [e1] at e2; exact Option.some.inj e2
      subst hpp
      exact ⟨a' ++ b', [], rfl, by simp⟩
    · have hkL : k' ∈ L := by
        rcases List.mem_cons.1 hk' with h | h
        · exact absurd h hkk
        · exact h
      have hcc := hc.symm.trans h1
      rcases List.append_eq_append_iff.1 hcc with ⟨c, e1, e2⟩ | ⟨c, e1, e2⟩
      · match c, e2 with
        | [], e2 => simp at e2; exact absurd e2.1.1.symm hkk
        | x :: c, e2 =>
          simp at e2
          obtain ⟨e3, e4⟩ := e2
          subst e3
          refine ⟨a, c ++ b' ++ [(k', p')], by simp [e1], ?_⟩
          intro x hx
          simp only [List.map_append, List.map_cons, List.map_nil, List.mem_append, List.mem_singleton] at hx
          rcases hx with (hx | hx) | hx
          · exact hb x (by rw [e4]; simp only [List.map_append, List.mem_append]; exact .inl hx)
          · exact hb x (by
              rw [e4]; simp only [List.map_append, List.map_cons, List.mem_append, List.mem_cons]
              exact .inr (.inr hx))
          · exact hx ▸ hkL
      · match c, e2 with
        | [], e2 => simp at e2; exact absurd e2.1.1 hkk
        | x :: c, e2 =>
          simp at e2
          obtain ⟨e3, e4⟩ := e2
          refine ⟨a' ++ c, b ++ [(k', p')], ?_, ?_⟩
          · simp [e4]
          · intro x hx
            simp only [List.map_append, List.map_cons, List.map_nil, List.mem_append, List.mem_singleton] at hx
            rcases hx with hx | hx
            · exact hb x hx
            · exact hx ▸ hkL
  · rw [h2]; exact ⟨a, b, hc, hb⟩
  · rw [h2]
    have hkk : k' ≠ k := by rintro rfl; exact hk (by simp [Ru.keys, hc])
    have hkL : k' ∈ L := by
      rcases List.mem_cons.1 hk' with h | h
      · exact absurd h hkk
      · exact h
    have hb' : ∀ x ∈ (b ++ [(k', u)]).map Prod.fst, x ∈ L := by
      intro x hx
      simp only [List.map_append, List.map_cons, List.map_nil, List.mem_append, List.mem_singleton] at hx
      rcases hx with hx | hx
      · exact hb x hx
      · exact hx ▸ hkL
    rcases setitem_cases S hs k' u with ⟨w, a2, b2, h3, _, _⟩ | ⟨_, _, h3⟩ | ⟨_, hl, e, w, c', h3, h4⟩
    · exact absurd (by simp [Ru.keys, h3]) hk
    · refine ⟨a, b ++ [(k', u)], ?_, hb'⟩
      show (S.setitem k' u).container = _
      rw [h3]; simp [hc]
    · match a, hc with
      | [], hc =>
        exfalso
        have hnd : ((b ++ [(k', u)]).map Prod.fst).Nodup := by
          have h5 := hs.1
          rw [hc] at h5
          simp only [List.nil_append, List.map_cons, List.nodup_cons] at h5
          simp only [List.map_append, List.map_cons, List.map_nil, List.nodup_append]
          refine ⟨h5.2, by simp, ?_⟩
          intro x hx y hy; simp at hy; subst hy; rintro rfl
          exact hk (by simp [Ru.keys, hc] at hx ⊢; exact .inr hx)
        have := List.Nodup.length_le_of_subset hnd (l₂ := L) hb'
        rw [hc] at hl
        simp at this hl
        omega
      | x :: a, hc =>
        refine ⟨a, b ++ [(k', u)], ?_, hb'⟩
        show (S.setitem k' u).container = _
        rw [h4]
        rw [hc] at h3
        simp at h3
        simp [← h3.2]

/-- the one just asked for is the last -/
theorem rkeeps_ask {S : Ru K V} (hs : RuInv S) (hm : 0 < S.maxsize) {k : K} {ctor : Except PyExc V} {v : V}
    (h : (seqOp S (.ask k ctor)).2 = .value (some v)) (L : List K) : RKeeps (seqOp S (.ask k ctor)).1 k v L := by
  rcases ask_cases S hs k ctor with ⟨p', a', b', h1, h2⟩ | ⟨_, e, _, h2⟩ | ⟨hk, u, _, h2⟩
  · rw [h2] at h ⊢
    cases h
    exact ⟨a' ++ b', [], rfl, by simp⟩
  · rw [h2] at h; cases h
  · rw [h2] at h ⊢
    cases h
    rcases setitem_cases S hs k v with ⟨w, a2, b2, h3, _, _⟩ | ⟨_, _, h3⟩ | ⟨_, hl, e, w, c', h3, h4⟩
    · exact absurd (by simp [Ru.keys, h3]) hk
    · exact ⟨S.container, [], by rw [h3], by simp⟩
    · match hc : S.container with
      | [] => rw [hc] at hl; simp at hl; omega
      | x :: a =>
        rw [hc] at h3; simp at h3
        exact ⟨a, [], by rw [h4]; simp [← h3.2], by simp⟩

/-- sequentially: `k` is asked for, then only `k` and keys of `L`, then `k` again -/
theorem seq_same {m : Nat} {L : List K} (hL : L.length < m) (pre mid : List (LOp K V)) {k : K} {c1 c2 : Except PyExc V} {v w : V}
    (h1 : (seqOp (seqRun m pre) (.ask k c1)).2 = .value (some v))
    (hmid : ∀ op ∈ mid, ∃ k' c', op = .ask k' c' ∧ k' ∈ k :: L)
    (h2 : (seqOp (seqRun m (pre ++ .ask k c1 :: mid)) (.ask k c2)).2 = .value (some w)) : v = w := by
  have key : RKeeps (seqRun m (pre ++ .ask k c1 :: mid)) k v L := by
    clear h2
    induction mid using snoc_induct with
    | nil =>
      rw [seqRun_snoc]
      exact rkeeps_ask (inv_seqRun m pre) (by rw [seqRun_maxsize]; omega) h1 L
    | snoc mid op ih =>
      have := ih fun o ho => hmid o (List.mem_append_left _ ho)
      obtain ⟨k', c', rfl, hk'⟩ := hmid op (by simp)
      rw [show pre ++ LOp.ask k c1 :: (mid ++ [LOp.ask k' c']) = (pre ++ LOp.ask k c1 :: mid) ++ [.ask k' c'] by simp, seqRun_snoc]
      exact rkeeps_step (inv_seqRun m _) (by rw [seqRun_maxsize]; exact hL) this hk' c'
  obtain ⟨a, b, hc, -⟩ := key
  have hs := inv_seqRun m (pre ++ .ask k c1 :: mid)
  have e2 := PyDict.get?_of_mem hs.1 (show (k, v) ∈ _ by rw [hc]; simp)
  rw [ask_hit e2] at h2
  simpa using h2

/-- what a step can do to the threads and the order of the calls -/
theorem lockAct_shape (s : LockSt K V) (i : Nat) (t : LThr K V) :
    lockAct s i t = s ∨
    ((lockAct s i t).log = s.log ∧ t.pc ≠ .idle ∧ t.pc ≠ .acq ∧ ∃ pc, (lockAct s i t).thr = s.thr.set i { t with pc := pc }) ∨
    ((lockAct s i t).log = s.log ++ [t.op] ∧ (lockAct s i t).thr = s.thr.set i { t with pc := t.op.first, tick := s.log.length } ∧
      (lockAct s i t).done = s.done) := by
  unfold lockAct
  cases hpc : t.pc <;> dsimp only <;> repeat' split
  all_goals first
    | exact .inl rfl
    | exact .inr (.inl ⟨rfl, by simp, by simp, _, rfl⟩)
    | exact .inr (.inr ⟨rfl, rfl, rfl⟩)

theorem running_op (m n : Nat) (evs : List (LockEv K V)) (i : Nat) (t : LThr K V) (hi : (lockRun m n evs).thr[i]? = some t)
    (h1 : t.pc ≠ .idle) (h2 : t.pc ≠ .acq) : (lockRun m n evs).log[t.tick]? = some t.op := by
  induction evs using snoc_induct generalizing i t with
  | nil =>
    have := (List.mem_replicate.1 (List.mem_of_getElem? hi)).2
    subst this
    exact absurd rfl h1
  | snoc evs e ih =>
    rw [lockRun_snoc] at hi ⊢
    generalize lockRun m n evs = s at *
    cases e with
    | call j op =>
      unfold lockStep at hi ⊢
      dsimp only at hi ⊢
      cases hj : s.thr[j]? with
      | none => rw [hj] at hi; exact ih i t hi h1 h2
      | some u =>
        rw [hj] at hi
        dsimp only at hi ⊢
        cases hu : u.pc with
        | idle =>
          rw [hu] at hi
          dsimp only at hi ⊢
          rcases set_get hi with ⟨-, rfl⟩ | ⟨-, hi⟩
          · exact absurd rfl h2
          · exact ih i t hi h1 h2
        | _ =>
          rw [hu] at hi
          exact ih i t hi h1 h2
    | step j =>
      unfold lockStep at hi ⊢
      dsimp only at hi ⊢
      cases hj : s.thr[j]? with
      | none => rw [hj] at hi; exact ih i t hi h1 h2
      | some u =>
        rw [hj] at hi
        dsimp only at hi ⊢
        rcases lockAct_shape s j u with e | ⟨e1, hp1, hp2, pc, e2⟩ | ⟨e1, e2, -⟩
        · rw [e] at hi ⊢
          exact ih i t hi h1 h2
        · rw [e1]
          rw [e2] at hi
          rcases set_get hi with ⟨-, rfl⟩ | ⟨-, hi⟩
          · exact ih j u hj hp1 hp2
          · exact ih i t hi h1 h2
        · rw [e1]
          rw [e2] at hi
          rcases set_get hi with ⟨-, rfl⟩ | ⟨-, hi⟩
          · simp
          · have := ih i t hi h1 h2
            rw [List.getElem?_append_left (List.getElem?_eq_some_iff.1 this).1]
            exact this

/-- which step makes a call return -/
theorem returns {s : LockSt K V} {i : Nat} {x : Nat} {r : LRes K V} (h : (lockStep s (.step i)).done = s.done ++ [(x, r)]) :
    ∃ t, s.thr[i]? = some t ∧ t.tick = x ∧ (t.pc = .outerExit r ∨ (t.pc = .disp [] r ∧ t.op.isAsk = false)) := by
  have no : ∀ {d : List (Nat × LRes K V)}, d = d ++ [(x, r)] → False := by
    intro d hd
    have := congrArg List.length hd
    simp at this
  unfold lockStep at h
  dsimp only at h
  cases hi : s.thr[i]? with
  | none => rw [hi] at h; exact (no h).elim
  | some t =>
    rw [hi] at h
    dsimp only at h
    refine ⟨t, rfl, ?_⟩
    unfold lockAct at h
    cases hpc : t.pc with
    | outerExit r' =>
      rw [hpc] at h
      simp only [LockSt.finish, List.append_cancel_left_eq, List.cons.injEq, and_true, Prod.mk.injEq] at h
      obtain ⟨rfl, rfl⟩ := h
      exact ⟨rfl, .inl rfl⟩
    | disp vs r' =>
      rw [hpc] at h
      cases vs with
      | cons v vs => exact (no h).elim
      | nil =>
        dsimp only at h
        split at h
        · exact (no h).elim
        · next ha =>
          simp only [LockSt.finish, List.append_cancel_left_eq, List.cons.injEq, and_true, Prod.mk.injEq] at h
          obtain ⟨rfl, rfl⟩ := h
          exact ⟨rfl, .inr ⟨rfl, by simpa using ha⟩⟩
    | _ =>
      rw [hpc] at h
      dsimp only at h
      repeat' split at h
      all_goals exact (no h).elim

theorem nodup_filterMap_inj {α β : Type} {f : α → Option β} {l : List α} (h : (l.filterMap f).Nodup) {a b : α} {v : β}
    (ha : a ∈ l) (hb : b ∈ l) (fa : f a = some v) (fb : f b = some v) : a = b := by
  induction l with
  | nil => cases ha
  | cons c l ih =>
    rw [List.filterMap_cons] at h
    have mem : ∀ {x : α}, x ∈ l → f x = some v → v ∈ l.filterMap f := fun hx fx => List.mem_filterMap.2 ⟨_, hx, fx⟩
    rcases List.mem_cons.1 ha with ea | ha' <;> rcases List.mem_cons.1 hb with eb | hb'
    · rw [ea, eb]
    · subst ea
      rw [fa] at h
      exact absurd (mem hb' fb) (List.nodup_cons.1 h).1
    · subst eb
      rw [fb] at h
      exact absurd (mem ha' fa) (List.nodup_cons.1 h).1
    · refine ih ?_ ha' hb'
      split at h
      · exact h
      · exact (List.nodup_cons.1 h).2

/-- what is kept under `k` was made by a call for `k` -/
theorem seq_owner (m : Nat) (ops : List (LOp K V)) (h : ∀ op ∈ ops, ofManager op) (k : K) (v : V)
    (hv : (k, v) ∈ (seqRun m ops).container) : .ask k (.ok v) ∈ ops := by
  induction ops using snoc_induct generalizing k v with
  | nil => cases hv
  | snoc ops op ih =>
    have ih := ih fun o ho => h o (List.mem_append_left _ ho)
    have hs := inv_seqRun m ops
    have hop := h op (by simp)
    rw [seqRun_snoc] at hv
    generalize seqRun m ops = S at *
    cases op with
    | clear => cases hv
    | ask k' ctor =>
      rcases ask_cases S hs k' ctor with ⟨p', a', b', h1, h2⟩ | ⟨_, e, _, h2⟩ | ⟨hk, u, hu, h2⟩
      · rw [h2] at hv
        refine List.mem_append_left _ (ih k v ?_)
        rw [h1]
        simp only [List.mem_append, List.mem_cons, List.not_mem_nil, or_false] at hv ⊢
        rcases hv with (hv | hv) | hv
        · exact .inl hv
        · exact .inr (.inr hv)
        · exact .inr (.inl hv)
      · rw [h2] at hv
        exact List.mem_append_left _ (ih k v hv)
      · rw [h2] at hv
        rcases setitem_mem hs hk hv with hv | hv
        · exact List.mem_append_left _ (ih k v hv)
        · cases hv
          rw [hu]
          simp
    | _ => exact hop.elim

theorem seq_result_made (m : Nat) (ops : List (LOp K V)) (h : ∀ op ∈ ops, ofManager op) {x : Nat} {k : K} {c : Except PyExc V}
    {v : V} (hx : ops[x]? = some (.ask k c)) (hr : seqResult m ops x = some (.value (some v))) : .ask k (.ok v) ∈ ops := by
  have hlt := (List.getElem?_eq_some_iff.1 hx).1
  unfold seqResult at hr
  rw [hx] at hr
  simp only [Option.map_some, Option.some.injEq] at hr
  have hpre : ∀ op ∈ ops.take x, ofManager op := fun op ho => h op (List.mem_of_mem_take ho)
  rcases ask_cases _ (inv_seqRun m (ops.take x)) k c with ⟨p', a', b', h1, h2⟩ | ⟨_, e, _, h2⟩ | ⟨hk, u, hu, h2⟩
  · rw [h2] at hr
    cases hr
    exact List.mem_of_mem_take (seq_owner m _ hpre k v (by rw [h1]; simp))
  · rw [h2] at hr; cases hr
  · rw [h2] at hr
    cases hr
    subst hu
    exact List.mem_of_getElem? hx

/-- C122 (threads sharing a pool manager). Threads call `connection_pool_from_pool_key` and `clear` of one manager with
`max_pools > 0`, in any interleaving, and the constructor makes a new pool object each time. Then:
* when a call returns a pool, this pool has not been closed, and no thread is about to close it;
* two calls for the same key return the same pool, if among the calls that get the lock between them there are no `clear` and
  fewer than `max_pools` other keys (in particular, threads that ask for one new key at the same time get one pool);
* calls for different keys never return the same pool. -/
theorem C122_manager_threads (m n : Nat) (hm : 0 < m) (evs : List (LockEv K V))
    (hcalls : ∀ op ∈ callsOf (fresh m n) evs, ofManager op) (hnew : (poolsMade (callsOf (fresh m n) evs)).Nodup) :
    let s := lockRun m n evs
    (∀ i x v, (lockStep s (.step i)).done = s.done ++ [(x, .value (some v))] →
      v ∉ s.disposed ∧ ∀ t ∈ s.thr, v ∉ t.pc.pend) ∧
    (∀ (x y : Nat) (k : K) c1 c2 v w (L : List K), x < y → (x, LRes.value (some v)) ∈ s.done → (y, LRes.value (some w)) ∈ s.done →
      s.log[x]? = some (.ask k c1) → s.log[y]? = some (.ask k c2) → L.length < m →
      (∀ z op, x < z → z < y → s.log[z]? = some op → ∃ k' c', op = .ask k' c' ∧ k' ∈ k :: L) → v = w) ∧
    (∀ (x y : Nat) (k k' : K) c1 c2 v w, (x, LRes.value (some v)) ∈ s.done → (y, LRes.value (some w)) ∈ s.done →
      s.log[x]? = some (.ask k c1) → s.log[y]? = some (.ask k' c2) → k ≠ k' → v ≠ w) := by
  intro s
  have I : RLkInv m s := lockRun_inv m n evs
  have C : CallInv s (callsOf (fresh m n) evs) := lockRun_calls m n evs
  have hlog : ∀ op ∈ s.log, ofManager op := fun op ho => hcalls op (C.ops.mem_iff.1 (List.mem_append_left _ ho))
  have hnd : (poolsMade s.log).Nodup := by
    have h1 : (poolsMade (s.log ++ s.thr.flatMap LThr.waits)).Perm (poolsMade (callsOf (fresh m n) evs)) :=
      C.ops.filterMap _
    have h2 := h1.nodup_iff.2 hnew
    unfold poolsMade at h2 ⊢
    rw [List.filterMap_append] at h2
    exact (List.nodup_append.1 h2).1
  refine ⟨?_, ?_, ?_⟩
  · intro i x v hx
    obtain ⟨t, hi, rfl, hp⟩ := returns hx
    have hop : s.log[t.tick]? = some t.op := by
      refine running_op m n evs i t hi ?_ ?_ <;> rcases hp with hp | ⟨hp, -⟩ <;> rw [hp] <;> simp
    rcases hp with hp | ⟨hp, ha⟩
    · have hin : t.inside = true := by simp [LThr.inside, hp]
      obtain ⟨t0, pre, g1, g2, g3, g4, g5, g6⟩ := I.held i _ (I.inside i t hi hin)
      rw [hi] at g1
      cases g1
      rw [hp] at g5 g6
      obtain ⟨-, g5⟩ := g5
      simp only [LPc.late, if_true] at g6
      have hman := hlog t.op (by rw [g3]; simp)
      obtain ⟨k, ctor, hk⟩ : ∃ k ctor, t.op = .ask k ctor := by
        cases ho : t.op with
        | ask k ctor => exact ⟨k, ctor, rfl⟩
        | clear => rw [ho] at g5; cases g5
        | _ => rw [ho] at hman; exact hman.elim
      rw [hk] at g5
      have hkept := ask_kept (inv_seqRun m pre) (by rw [seqRun_maxsize]; exact hm) g5.symm
      obtain ⟨l, hl1, hl2⟩ := seq_books m s.log hlog
      have hb := hl2.symm.nodup (hnd.sublist hl1)
      rw [g3, seqRun_snoc, hk, List.nodup_append] at hb
      rw [hk] at g6
      have hout : v ∉ s.out := by
        intro hv
        exact hb.2.2 v (g6.mem_iff.1 hv) v (List.mem_map.2 ⟨_, PyDict.get?_mem hkept, rfl⟩) rfl
      unfold LockSt.out at hout
      simp only [List.mem_append, List.mem_flatMap, not_or, not_exists, not_and] at hout
      exact hout
    · exfalso
      have hman := hlog t.op (List.mem_of_getElem? hop)
      have hcl : t.op = .clear := by
        cases ho : t.op with
        | ask k ctor => rw [ho] at ha; cases ha
        | clear => rfl
        | _ => rw [ho] at hman; exact hman.elim
      have hin : t.inside = false := by simp [LThr.inside, hp, ha]
      obtain ⟨-, hq⟩ := I.outside i t hi hin
      rw [hp] at hq
      simp only [reduceCtorEq, LPc.disp.injEq, false_or] at hq
      obtain ⟨_, _, ⟨rfl, rfl⟩, hr⟩ := hq
      unfold seqResult at hr
      rw [hop, hcl] at hr
      cases hr
  · intro x y k c1 c2 v w L hxy hx hy lx ly hL hmid
    have rx := I.done _ hx
    have ry := I.done _ hy
    unfold seqResult at rx ry
    dsimp only at rx ry
    rw [lx] at rx
    rw [ly] at ry
    simp only [Option.map_some, Option.some.injEq] at rx ry
    have hlx := (List.getElem?_eq_some_iff.1 lx).1
    have hly := (List.getElem?_eq_some_iff.1 ly).1
    have split : s.log.take y = s.log.take x ++ .ask k c1 :: (s.log.take y).drop (x + 1) := by
      conv => lhs; rw [← List.take_append_drop x (s.log.take y)]
      rw [List.take_take, Nat.min_eq_left (Nat.le_of_lt hxy)]
      congr 1
      have hg : (s.log.take y)[x]? = some (.ask k c1) := by rw [List.getElem?_take_of_lt hxy]; exact lx
      obtain ⟨hlt', he⟩ := List.getElem?_eq_some_iff.1 hg
      rw [List.drop_eq_getElem_cons hlt', he]
    refine seq_same hL (s.log.take x) ((s.log.take y).drop (x + 1)) rx ?_ (by rw [← split]; exact ry)
    intro op ho
    obtain ⟨j, hj⟩ := List.mem_iff_getElem?.1 ho
    rw [List.getElem?_drop] at hj
    have hjy : x + 1 + j < y := by
      have := (List.getElem?_eq_some_iff.1 hj).1
      simp at this
      omega
    rw [List.getElem?_take_of_lt hjy] at hj
    exact hmid (x + 1 + j) op (by omega) hjy hj
  · intro x y k k' c1 c2 v w hx hy lx ly hne he
    subst he
    have h1 := seq_result_made m s.log hlog lx (I.done _ hx)
    have h2 := seq_result_made m s.log hlog ly (I.done _ hy)
    have := nodup_filterMap_inj hnd h1 h2 rfl rfl
    cases this
    exact hne rfl

/-- three threads ask for two keys of a manager for one pool: the first two share a pool; it is closed when the third has its
own -/
example :
    let evs : List (LockEv Nat Nat) := [.call 0 (.ask 7 (.ok 100)), .call 1 (.ask 7 (.ok 101)), .call 2 (.ask 8 (.ok 102)),
      .step 0, .step 1, .step 2] ++ List.replicate 12 (.step 0) ++ List.replicate 7 (.step 1) ++ List.replicate 20 (.step 2)
    (∀ op ∈ callsOf (fresh 1 3) evs, ofManager op) ∧ (poolsMade (callsOf (fresh 1 3) evs)).Nodup ∧
    (lockRun 1 3 evs).done = [(0, .value (some 100)), (1, .value (some 100)), (2, .value (some 102))] ∧
    (lockRun 1 3 evs).disposed = [100] := by
  refine ⟨?_, by decide, by decide, by decide⟩
  have : callsOf (fresh 1 3) ([.call 0 (.ask 7 (.ok 100)), .call 1 (.ask 7 (.ok 101)), .call 2 (.ask 8 (.ok 102)),
      .step 0, .step 1, .step 2] ++ List.replicate 12 (.step 0) ++ List.replicate 7 (.step 1) ++ List.replicate 20 (.step 2) :
      List (LockEv Nat Nat)) = [.ask 7 (.ok 100), .ask 7 (.ok 101), .ask 8 (.ok 102)] := by decide
  rw [this]
  intro op ho
  simp only [List.mem_cons, List.not_mem_nil, or_false] at ho
  rcases ho with rfl | rfl | rfl <;> trivial

/-- with `max_pools = 0` the pool that is returned has been closed -/
example : (lockRun (K := Nat) (V := Nat) 0 1 ([.call 0 (.ask 7 (.ok 100))] ++ List.replicate 15 (.step 0))).done
      = [(0, .value (some 100))] ∧
    (lockRun (K := Nat) (V := Nat) 0 1 ([.call 0 (.ask 7 (.ok 100))] ++ List.replicate 15 (.step 0))).disposed = [100] := by
  decide

end Bolt
