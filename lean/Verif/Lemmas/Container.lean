import Verif.Model.Container
import Verif.Lemmas.Dict
/-! Lemmas about the recently-used container. -/
namespace Bolt

namespace PyDict
variable {K V : Type} [DecidableEq K]

theorem split_of_get? {d : PyDict K V} {k : K} {v : V} (h : get? d k = some v) :
    ∃ a b, d = a ++ (k, v) :: b ∧ k ∉ a.map Prod.fst := by
  induction d with
  | nil => simp at h
  | cons x d ih =>
    obtain ⟨k', v'⟩ := x
    by_cases e : k' = k
    · simp only [get?, e, if_true] at h
      cases h; subst e
      exact ⟨[], d, rfl, by simp⟩
    · simp only [get?, e, if_false] at h
      obtain ⟨a, b, h1, h2⟩ := ih h
      refine ⟨(k', v') :: a, b, by rw [h1]; rfl, ?_⟩
      simp only [List.map_cons, List.mem_cons, not_or]
      exact ⟨fun h => e h.symm, h2⟩

theorem erase_split {a b : PyDict K V} {k : K} {v : V} (h : k ∉ a.map Prod.fst) :
    erase (a ++ (k, v) :: b) k = a ++ b := by
  induction a with
  | nil => simp [erase]
  | cons x a ih =>
    obtain ⟨k', v'⟩ := x
    simp only [List.map_cons, List.mem_cons, not_or] at h
    simp [erase, show ¬ k' = k from fun e => h.1 e.symm, ih h.2]

theorem set_split {a b : PyDict K V} {k : K} {v w : V} (h : k ∉ a.map Prod.fst) :
    set (a ++ (k, v) :: b) k w = a ++ (k, w) :: b := by
  induction a with
  | nil => simp [set]
  | cons x a ih =>
    obtain ⟨k', v'⟩ := x
    simp only [List.map_cons, List.mem_cons, not_or] at h
    simp [set, show ¬ k' = k from fun e => h.1 e.symm, ih h.2]

theorem get?_split {a b : PyDict K V} {k : K} {v : V} (h : k ∉ a.map Prod.fst) :
    get? (a ++ (k, v) :: b) k = some v := by
  rw [get?_append, (get?_eq_none_iff a k).2 h]; simp [get?]

end PyDict

variable {K V : Type} [DecidableEq K]

/-- the invariant: no key twice, not above the capacity -/
def RuInv (s : Ru K V) : Prop := (s.container.map Prod.fst).Nodup ∧ s.container.length ≤ s.maxsize

theorem getitem_cases (s : Ru K V) (hs : RuInv s) (k : K) :
    (k ∉ s.keys ∧ s.getitem k = (s, .error .keyError)) ∨
    (∃ v a b, s.container = a ++ (k, v) :: b ∧
      s.getitem k = ({ s with container := a ++ b ++ [(k, v)] }, .ok v)) := by
  unfold Ru.getitem Ru.keys
  cases h : PyDict.get? s.container k with
  | none => exact .inl ⟨(PyDict.get?_eq_none_iff _ _).1 h, rfl⟩
  | some v =>
    obtain ⟨a, b, h1, h2⟩ := PyDict.split_of_get? h
    refine .inr ⟨v, a, b, h1, ?_⟩
    have hn := hs.1
    rw [h1] at hn
    have hb : k ∉ (a ++ b).map Prod.fst := by
      simp only [List.map_append, List.mem_append, not_or]
      refine ⟨h2, ?_⟩
      simp only [List.map_append, List.map_cons, List.nodup_append, List.nodup_cons] at hn
      exact hn.2.1.1
    simp only [h1, PyDict.erase_split h2, PyDict.set_of_not_mem hb]

theorem get_fst (s : Ru K V) (k : K) : (s.get k).1 = (s.getitem k).1 := by
  unfold Ru.get; split <;> simp [*]

theorem contains_fst (s : Ru K V) (k : K) : (s.contains k).1 = (s.getitem k).1 := by
  unfold Ru.contains; split <;> simp [*]

theorem setitem_cases (s : Ru K V) (hs : RuInv s) (k : K) (v : V) :
    (∃ w a b, s.container = a ++ (k, w) :: b ∧ k ∉ a.map Prod.fst ∧
      s.setitem k v = { s with container := a ++ (k, v) :: b, disposed := s.disposed ++ [w] }) ∨
    (k ∉ s.keys ∧ s.container.length + 1 ≤ s.maxsize ∧
      s.setitem k v = { s with container := s.container ++ [(k, v)] }) ∨
    (k ∉ s.keys ∧ s.container.length = s.maxsize ∧ ∃ e w c', s.container ++ [(k, v)] = (e, w) :: c' ∧
      s.setitem k v = { s with container := c', disposed := s.disposed ++ [w] }) := by
  cases h : PyDict.get? s.container k with
  | some w =>
    left
    obtain ⟨a, b, h1, h2⟩ := PyDict.split_of_get? h
    refine ⟨w, a, b, h1, h2, ?_⟩
    unfold Ru.setitem
    have hl := hs.2
    simp only [h]
    rw [h1, PyDict.set_split h2]
    rw [if_neg (by rw [h1] at hl; simp at hl ⊢; omega)]
    simp
  | none =>
    right
    have hk : k ∉ s.keys := (PyDict.get?_eq_none_iff _ _).1 h
    unfold Ru.setitem
    simp only [h]
    rw [PyDict.set_of_not_mem hk]
    by_cases hl : s.container.length + 1 ≤ s.maxsize
    · left
      refine ⟨hk, hl, ?_⟩
      rw [if_neg (by simp; omega)]; simp
    · right
      have hl2 := hs.2
      refine ⟨hk, by omega, ?_⟩
      rw [if_pos (by simp; omega)]
      match hc : s.container ++ [(k, v)] with
      | [] => simp at hc
      | (e, w) :: c' => exact ⟨e, w, c', rfl, rfl⟩

theorem delitem_cases (s : Ru K V) (k : K) :
    (k ∉ s.keys ∧ s.delitem k = (s, .error .keyError)) ∨
    (∃ v a b, s.container = a ++ (k, v) :: b ∧
      s.delitem k = ({ s with container := a ++ b, disposed := s.disposed ++ [v] }, .ok ())) := by
  unfold Ru.delitem Ru.keys
  cases h : PyDict.get? s.container k with
  | none => exact .inl ⟨(PyDict.get?_eq_none_iff _ _).1 h, rfl⟩
  | some v =>
    obtain ⟨a, b, h1, h2⟩ := PyDict.split_of_get? h
    refine .inr ⟨v, a, b, h1, ?_⟩
    simp only [h1, PyDict.erase_split h2]

omit [DecidableEq K] in
theorem inv_move {s : Ru K V} (hs : RuInv s) {k : K} {v : V} {a b}
    (h : s.container = a ++ (k, v) :: b) : RuInv { s with container := a ++ b ++ [(k, v)] } := by
  obtain ⟨h1, h2⟩ := hs
  rw [h] at h1 h2
  have hp : (a ++ b ++ [(k, v)]).Perm (a ++ (k, v) :: b) := by
    rw [List.append_assoc]
    exact List.Perm.append_left _ (List.perm_append_singleton _ _)
  exact ⟨(hp.map Prod.fst).symm.nodup h1, by rw [hp.length_eq]; exact h2⟩

theorem inv_getitem {s : Ru K V} (hs : RuInv s) (k : K) : RuInv (s.getitem k).1 := by
  rcases getitem_cases s hs k with ⟨_, h⟩ | ⟨v, a, b, h1, h⟩
  · rw [h]; exact hs
  · rw [h]; exact inv_move hs h1

theorem inv_setitem {s : Ru K V} (hs : RuInv s) (k : K) (v : V) : RuInv (s.setitem k v) := by
  rcases setitem_cases s hs k v with ⟨w, a, b, h1, _, h⟩ | ⟨hk, hl, h⟩ | ⟨hk, hl, e, w, c', h1, h⟩
  · rw [h]
    obtain ⟨n1, n2⟩ := hs
    rw [h1] at n1 n2
    exact ⟨by simpa using n1, by simpa using n2⟩
  · rw [h]
    refine ⟨?_, by simpa using hl⟩
    simp only [List.map_append, List.map_cons, List.map_nil, List.nodup_append]
    refine ⟨hs.1, by simp, ?_⟩
    intro x hx y hy; simp at hy; subst hy; rintro rfl; exact hk hx
  · rw [h]
    have hn : ((s.container ++ [(k, v)]).map Prod.fst).Nodup := by
      simp only [List.map_append, List.map_cons, List.map_nil, List.nodup_append]
      refine ⟨hs.1, by simp, ?_⟩
      intro x hx y hy; simp at hy; subst hy; rintro rfl; exact hk hx
    rw [h1] at hn
    have hlen := congrArg List.length h1
    simp at hlen
    exact ⟨(List.nodup_cons.1 hn).2, by simp; omega⟩

theorem inv_delitem {s : Ru K V} (hs : RuInv s) (k : K) : RuInv (s.delitem k).1 := by
  rcases delitem_cases s k with ⟨_, h⟩ | ⟨v, a, b, h1, h⟩
  · rw [h]; exact hs
  · rw [h]
    obtain ⟨n1, n2⟩ := hs
    rw [h1] at n1 n2
    refine ⟨?_, by simp at n2 ⊢; omega⟩
    refine List.Nodup.sublist ?_ n1
    exact (List.Sublist.append_left (List.sublist_cons_self _ _) a).map _

theorem inv_step {s : Ru K V} (hs : RuInv s) (op : RuOp K V) : RuInv (ruStep s op) := by
  cases op with
  | getitem k => exact inv_getitem hs k
  | get k => rw [ruStep, get_fst]; exact inv_getitem hs k
  | contains k => rw [ruStep, contains_fst]; exact inv_getitem hs k
  | setitem k v => exact inv_setitem hs k v
  | delitem k => exact inv_delitem hs k
  | clear => exact ⟨List.nodup_nil, Nat.zero_le _⟩
  | len => exact hs
  | keys => exact hs

theorem inv_foldl {s : Ru K V} (hs : RuInv s) (ops : List (RuOp K V)) : RuInv (ops.foldl ruStep s) := by
  induction ops generalizing s with
  | nil => exact hs
  | cons op ops ih => exact ih (inv_step hs op)

theorem inv_run (n : Nat) (ops : List (RuOp K V)) : RuInv (ruRun n ops) :=
  inv_foldl (s := { maxsize := n }) ⟨List.nodup_nil, Nat.zero_le _⟩ ops

theorem maxsize_step (s : Ru K V) (op : RuOp K V) : (ruStep s op).maxsize = s.maxsize := by
  cases op with
  | getitem k => simp only [ruStep, Ru.getitem]; split <;> rfl
  | get k => simp only [ruStep, get_fst, Ru.getitem]; split <;> rfl
  | contains k => simp only [ruStep, contains_fst, Ru.getitem]; split <;> rfl
  | setitem k v =>
    simp only [ruStep, Ru.setitem]
    split
    · split <;> rfl
    · rfl
  | delitem k => simp only [ruStep, Ru.delitem]; split <;> rfl
  | clear => rfl
  | len => rfl
  | keys => rfl

theorem ruRun_snoc (n : Nat) (ops : List (RuOp K V)) (op : RuOp K V) :
    ruRun n (ops ++ [op]) = ruStep (ruRun n ops) op := by simp [ruRun]

theorem maxsize_run (n : Nat) (ops : List (RuOp K V)) : (ruRun n ops).maxsize = n := by
  suffices ∀ s : Ru K V, (ops.foldl ruStep s).maxsize = s.maxsize from this _
  intro s
  induction ops generalizing s with
  | nil => rfl
  | cons op ops ih => rw [List.foldl_cons, ih, maxsize_step]

/-- the lookup after a move to the end is unchanged -/
theorem get?_move {a b : PyDict K V} {k : K} {v : V} (h : ((a ++ (k, v) :: b).map Prod.fst).Nodup) (k2 : K) :
    PyDict.get? (a ++ b ++ [(k, v)]) k2 = PyDict.get? (a ++ (k, v) :: b) k2 := by
  have hp : (a ++ b ++ [(k, v)]).Perm (a ++ (k, v) :: b) := by
    rw [List.append_assoc]
    exact List.Perm.append_left _ (List.perm_append_singleton _ _)
  have h2 := (hp.map Prod.fst).symm.nodup h
  cases hx : PyDict.get? (a ++ (k, v) :: b) k2 with
  | some w => exact PyDict.get?_of_mem h2 (hp.mem_iff.2 (PyDict.get?_mem hx))
  | none =>
    rw [PyDict.get?_eq_none_iff] at hx ⊢
    exact fun hm => hx ((hp.map Prod.fst).mem_iff.1 hm)

theorem get?_getitem {s : Ru K V} (hs : RuInv s) (k k2 : K) :
    PyDict.get? (s.getitem k).1.container k2 = PyDict.get? s.container k2 := by
  rcases getitem_cases s hs k with ⟨_, h⟩ | ⟨v, a, b, h1, h⟩
  · rw [h]
  · rw [h, h1]; exact get?_move (h1 ▸ hs.1) k2

end Bolt
