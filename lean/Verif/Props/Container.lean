import Verif.Lemmas.Container
import Verif.Spec.Container
/-! C29-C34: recently-used container and pool manager. -/
namespace Bolt
variable {K V : Type} [DecidableEq K]

/-! ### C29 -/

/-- C29: after any history the container holds at most `maxsize` entries and no key twice. -/
theorem C29_capacity (n : Nat) (ops : List (RuOp K V)) :
    (ruRun n ops).len ≤ n ∧ (ruRun n ops).keys.Nodup := by
  have h := inv_run n ops
  exact ⟨by have := h.2; rwa [maxsize_run] at this, h.1⟩

example : (ruRun 2 [.setitem 1 10, .setitem 2 20, .getitem 1, .setitem 3 (30 : Nat)]).container
    = [((1 : Nat), 10), (3, 30)] := by decide

/-! ### C30 -/

/-- the whole effect of one operation on one key, eviction apart -/
theorem effect_step {s : Ru K V} (hs : RuInv s) (op : RuOp K V) :
    (∀ k, PyDict.get? (ruStep s op).container k = Spec.mapEffect op k (PyDict.get? s.container k)) ∨
    (∃ k v e, op = .setitem k v ∧ k ∉ s.keys ∧ s.len = s.maxsize ∧ (e ∈ s.keys ∨ e = k) ∧
      ∀ k2, PyDict.get? (ruStep s op).container k2 =
        if k2 = e then none else Spec.mapEffect op k2 (PyDict.get? s.container k2)) := by
  cases op with
  | getitem k => exact .inl fun k2 => get?_getitem hs k k2
  | get k => exact .inl fun k2 => by rw [ruStep, get_fst]; exact get?_getitem hs k k2
  | contains k => exact .inl fun k2 => by rw [ruStep, contains_fst]; exact get?_getitem hs k k2
  | delitem k =>
    left
    intro k2
    rcases delitem_cases s k with ⟨hk, h⟩ | ⟨v, a, b, h1, h⟩
    · simp only [ruStep, h, Spec.mapEffect]
      split
      · next e => subst e; exact (PyDict.get?_eq_none_iff _ _).2 hk
      · rfl
    · have hn := hs.1
      simp only [ruStep, h, Spec.mapEffect, h1]
      rw [h1] at hn
      have hk : k ∉ (a ++ b).map Prod.fst := by
        simp only [List.map_append, List.map_cons, List.nodup_append, List.nodup_cons] at hn
        simp only [List.map_append, List.mem_append, not_or]
        exact ⟨fun hm => hn.2.2 _ hm _ (List.mem_cons_self ..) rfl, hn.2.1.1⟩
      split
      · next e => subst e; exact (PyDict.get?_eq_none_iff _ _).2 hk
      · next e => simp [PyDict.get?_append, PyDict.get?_cons, e]
  | clear => exact .inl fun k2 => rfl
  | len => exact .inl fun k2 => rfl
  | keys => exact .inl fun k2 => rfl
  | setitem k v =>
    rcases setitem_cases s hs k v with ⟨w, a, b, h1, hka, h⟩ | ⟨hk, hl, h⟩ | ⟨hk, hl, e, w, c', h1, h⟩
    · left; intro k2
      have : PyDict.set s.container k v = a ++ (k, v) :: b := by rw [h1]; exact PyDict.set_split hka
      simp only [ruStep, h]
      rw [← this, PyDict.get?_set]; rfl
    · left; intro k2
      simp only [ruStep, h]
      rw [← PyDict.set_of_not_mem hk, PyDict.get?_set]; rfl
    · right
      refine ⟨k, v, e, rfl, hk, hl, ?_, ?_⟩
      · have : e ∈ (s.container ++ [(k, v)]).map Prod.fst := by rw [h1]; simp
        simpa [Ru.keys] using this
      · intro k2
        have hset := inv_setitem hs k v
        have hall : ∀ x, PyDict.get? ((e, w) :: c') x = if k = x then some v else PyDict.get? s.container x := by
          intro x; rw [← h1, ← PyDict.set_of_not_mem hk, PyDict.get?_set]
        have hn : (((e, w) :: c').map Prod.fst).Nodup := by
          rw [← h1, ← PyDict.set_of_not_mem hk]; exact PyDict.nodup_set hs.1 k v
        simp only [ruStep, h, Spec.mapEffect]
        rw [← hall]
        by_cases he : k2 = e
        · subst he
          simp only [if_true]
          exact (PyDict.get?_eq_none_iff _ _).2 (List.nodup_cons.1 hn).1
        · simp [he, PyDict.get?_cons, show ¬ e = k2 from fun h => he h.symm]

theorem lastSet_of_get? (n : Nat) (ops : List (RuOp K V)) (k : K) (v : V)
    (h : PyDict.get? (ruRun n ops).container k = some v) : Spec.lastSet ops k = some v := by
  suffices ∀ (rops : List (RuOp K V)) v, PyDict.get? (ruRun n rops.reverse).container k = some v →
      Spec.lastSet rops.reverse k = some v by
    have := this ops.reverse v (by simpa using h); simpa using this
  intro rops
  induction rops with
  | nil => intro v h; simp [ruRun] at h
  | cons op rops ih =>
    intro v h
    rw [List.reverse_cons, ruRun_snoc] at h
    rw [List.reverse_cons, Spec.lastSet, List.foldl_append]
    simp only [List.foldl_cons, List.foldl_nil]
    have key : Spec.mapEffect op k (PyDict.get? (ruRun n rops.reverse).container k) = some v := by
      rcases effect_step (inv_run n rops.reverse) op with he | ⟨_, _, e, _, _, _, _, he⟩
      · rw [← he]; exact h
      · rw [he] at h; split at h
        · cases h
        · exact h
    cases op with
    | setitem k' v' =>
      simp only [Spec.mapEffect] at key ⊢
      split
      · next e => rw [if_pos e] at key; exact key
      · next e => rw [if_neg e] at key; exact ih _ key
    | delitem k' =>
      simp only [Spec.mapEffect] at key ⊢
      split
      · next e => rw [if_pos e] at key; exact key
      · next e => rw [if_neg e] at key; exact ih _ key
    | clear => exact key
    | getitem _ => exact ih _ key
    | get _ => exact ih _ key
    | contains _ => exact ih _ key
    | len => exact ih _ key
    | keys => exact ih _ key

theorem getitem_result {s : Ru K V} (k : K) :
    (s.getitem k).2 = match PyDict.get? s.container k with
      | some v => .ok v | none => .error .keyError := by
  unfold Ru.getitem; split <;> simp [*]

/-- C30: the container is a map with evictions.
1. A successful get returns the value most recently set for the key and not deleted or cleared since.
2. A key with no such value (never set, deleted, cleared) is reported missing.
3. Every operation acts on every key exactly as on an unbounded map, except that setting a new key in a
   full container removes exactly one key; in particular no other key's value changes.
4. An entry that is present stays readable: `getitem` succeeds iff the key is listed. -/
theorem C30_map (n : Nat) (ops : List (RuOp K V)) :
    (∀ k v, ((ruRun n ops).getitem k).2 = .ok v → Spec.lastSet ops k = some v) ∧
    (∀ k, Spec.lastSet ops k = none → ((ruRun n ops).getitem k).2 = .error .keyError) ∧
    (∀ op : RuOp K V,
      (∀ k, PyDict.get? (ruRun n (ops ++ [op])).container k
          = Spec.mapEffect op k (PyDict.get? (ruRun n ops).container k)) ∨
      (∃ k v e, op = .setitem k v ∧ k ∉ (ruRun n ops).keys ∧ (ruRun n ops).len = n ∧
        (e ∈ (ruRun n ops).keys ∨ e = k) ∧
        ∀ k2, PyDict.get? (ruRun n (ops ++ [op])).container k2 =
          if k2 = e then none else Spec.mapEffect op k2 (PyDict.get? (ruRun n ops).container k2))) ∧
    (∀ k, (∃ v, ((ruRun n ops).getitem k).2 = .ok v) ↔ k ∈ (ruRun n ops).keys) := by
  refine ⟨?_, ?_, ?_, ?_⟩
  · intro k v h
    rw [getitem_result] at h
    apply lastSet_of_get? n ops k v
    split at h
    · next w hw => cases h; exact hw
    · cases h
  · intro k h
    rw [getitem_result]
    cases hx : PyDict.get? (ruRun n ops).container k with
    | none => rfl
    | some v => rw [lastSet_of_get? n ops k v hx] at h; cases h
  · intro op
    have := effect_step (inv_run n ops) op
    rw [maxsize_run] at this
    rw [ruRun_snoc]; exact this
  · intro k
    rw [getitem_result]
    have := PyDict.get?_isSome_iff (ruRun n ops).container k
    cases hx : PyDict.get? (ruRun n ops).container k with
    | none => rw [hx] at this; simp at this ⊢; simpa [Ru.keys] using this
    | some v => rw [hx] at this; simp at this ⊢; simpa [Ru.keys] using this

example : ((ruRun 2 [.setitem 1 10, .setitem 2 20, .setitem 1 11]).getitem 1).2 = .ok (11 : Nat)
    ∧ Spec.lastSet [RuOp.setitem 1 10, .setitem 2 20, .setitem 1 11] (1 : Nat) = some (11 : Nat)
    ∧ ((ruRun 1 [.setitem 1 10, .setitem 2 20]).getitem 1).2 = (.error .keyError : Except PyExc Nat)
    ∧ Spec.lastSet [RuOp.setitem 1 (10 : Nat), .delitem 1] (1 : Nat) = none := by decide

/-! ### C31 -/

/-- C31 at full strength: if a set evicts a key, every other key present was used more recently. -/
def C31_full : Prop :=
  ∀ (n : Nat) (ops : List (RuOp Nat Nat)) (k v e : Nat),
    e ∈ (ruRun n ops).keys → e ∉ (ruRun n (ops ++ [.setitem k v])).keys →
    ∀ k' ∈ (ruRun n ops).keys, k' ≠ e → Spec.Older ops e k'

/-- The code violates C31: overwriting a key does not refresh it. -/
theorem C31_violated : ¬ C31_full := by
  intro h
  have := h 2 [.setitem 1 10, .setitem 2 20, .setitem 1 11] 3 30 1 (by decide) (by decide) 2 (by decide)
    (by decide)
  obtain ⟨i, j, hi, hj, hlt⟩ := this
  have h1 : Spec.age [RuOp.setitem 1 10, .setitem 2 20, .setitem 1 (11 : Nat)] (1 : Nat) = some 0 := by decide
  rw [h1] at hi; cases hi
  omega

theorem age_snoc (ops : List (RuOp K V)) (op : RuOp K V) (k : K) :
    Spec.age (ops ++ [op]) k = if Spec.uses k op then some 0 else (Spec.age ops k).map (· + 1) := by
  simp only [Spec.age, List.reverse_append, List.reverse_cons, List.reverse_nil, List.nil_append,
    List.singleton_append, List.findIdx?_cons]

theorem older_snoc {ops : List (RuOp K V)} {op : RuOp K V} {a b : K} (h : Spec.Older ops a b)
    (ha : Spec.uses a op = false) : Spec.Older (ops ++ [op]) a b := by
  obtain ⟨i, j, hi, hj, hlt⟩ := h
  unfold Spec.Older
  simp only [age_snoc, ha, hi, hj]
  by_cases hb : Spec.uses b op
  · exact ⟨i + 1, 0, by simp, by simp [hb], by omega⟩
  · exact ⟨i + 1, j + 1, by simp, by simp [hb], by omega⟩

theorem older_new {ops : List (RuOp K V)} {op : RuOp K V} {a b : K} (h : (Spec.age ops a).isSome)
    (ha : Spec.uses a op = false) (hb : Spec.uses b op) : Spec.Older (ops ++ [op]) a b := by
  obtain ⟨i, hi⟩ := Option.isSome_iff_exists.1 h
  unfold Spec.Older
  simp only [age_snoc, ha, hi, hb]
  exact ⟨i + 1, 0, by simp, by simp, by omega⟩

theorem age_isSome_snoc {ops : List (RuOp K V)} {op : RuOp K V} {a : K} (h : (Spec.age ops a).isSome) :
    (Spec.age (ops ++ [op]) a).isSome := by
  rw [age_snoc]; split
  · rfl
  · simpa using h

/-- the order of the keys is the order of their last uses -/
def Sorted (ops : List (RuOp K V)) (ks : List K) : Prop :=
  ks.Pairwise (Spec.Older ops) ∧ ∀ k ∈ ks, (Spec.age ops k).isSome

theorem sorted_keep {ops : List (RuOp K V)} {op : RuOp K V} {ks : List K} (h : Sorted ops ks)
    (hu : ∀ k ∈ ks, Spec.uses k op = false) : Sorted (ops ++ [op]) ks :=
  ⟨h.1.imp_of_mem fun ha _ hab => older_snoc hab (hu _ ha), fun k hk => age_isSome_snoc (h.2 k hk)⟩

theorem sorted_snoc {ops : List (RuOp K V)} {op : RuOp K V} {ks : List K} {k : K} (h : Sorted ops ks)
    (hu : ∀ k ∈ ks, Spec.uses k op = false) (hk : Spec.uses k op) : Sorted (ops ++ [op]) (ks ++ [k]) := by
  have h' := sorted_keep h hu
  refine ⟨List.pairwise_append.2 ⟨h'.1, by simp, ?_⟩, ?_⟩
  · intro a ha b hb
    simp at hb; subst hb
    exact older_new (h.2 a ha) (hu a ha) hk
  · intro x hx
    rcases List.mem_append.1 hx with hx | hx
    · exact h'.2 x hx
    · simp at hx; subst hx; rw [age_snoc, if_pos hk]; rfl

theorem sorted_sublist {ops : List (RuOp K V)} {ks ks' : List K} (h : Sorted ops ks) (hs : ks'.Sublist ks) :
    Sorted ops ks' := ⟨h.1.sublist hs, fun k hk => h.2 k (hs.subset hk)⟩

theorem uses_ne {k k' : K} (h : k' ≠ k) : Spec.uses k (RuOp.getitem k' : RuOp K V) = false := by
  simp [Spec.uses, h]

theorem sorted_getitem {s : Ru K V} (hs : RuInv s) {ops : List (RuOp K V)} (h : Sorted ops s.keys) {op : RuOp K V}
    {k : K} (hop : ∀ k2, Spec.uses k2 op = (k == k2)) : Sorted (ops ++ [op]) (s.getitem k).1.keys := by
  rcases getitem_cases s hs k with ⟨hk, h1⟩ | ⟨v, a, b, h1, h2⟩
  · rw [h1]
    refine sorted_keep h fun k2 hk2 => ?_
    rw [hop]; simp; rintro rfl; exact hk hk2
  · rw [h2]
    have hn := hs.1
    rw [h1] at hn
    have he : ({ s with container := a ++ b ++ [(k, v)] } : Ru K V).keys = (a ++ b).map Prod.fst ++ [k] := by
      simp [Ru.keys]
    rw [he]
    refine sorted_snoc (sorted_sublist h ?_) ?_ (by rw [hop]; simp)
    · simp only [Ru.keys, h1]
      exact (List.Sublist.append_left (List.sublist_cons_self _ _) a).map _
    · intro k2 hk2
      rw [hop]; simp; rintro rfl
      simp only [List.map_append, List.map_cons, List.nodup_append, List.nodup_cons] at hn
      simp only [List.map_append, List.mem_append] at hk2
      rcases hk2 with hk2 | hk2
      · exact hn.2.2 _ hk2 _ (List.mem_cons_self ..) rfl
      · exact hn.2.1.1 hk2

/-- `set` is never applied to a key that is present. -/
def NoOverwrite (n : Nat) (ops : List (RuOp K V)) : Prop :=
  ∀ pre k v post, ops = pre ++ RuOp.setitem k v :: post → k ∉ (ruRun n pre).keys

theorem sorted_run (n : Nat) (ops : List (RuOp K V)) (h : NoOverwrite n ops) :
    Sorted ops (ruRun n ops).keys := by
  suffices ∀ (rops : List (RuOp K V)), NoOverwrite n rops.reverse →
      Sorted rops.reverse (ruRun n rops.reverse).keys by
    have := this ops.reverse (by simpa using h); simpa using this
  intro rops
  induction rops with
  | nil => intro _; exact ⟨by simp [ruRun, Ru.keys], by simp [ruRun, Ru.keys]⟩
  | cons op rops ih =>
    intro hno
    rw [List.reverse_cons] at hno ⊢
    have hS := ih (fun pre k v post e => hno pre k v (post ++ [op]) (by rw [e]; simp))
    have hI := inv_run n rops.reverse
    have hlast : ∀ k v, op = .setitem k v → k ∉ (ruRun n rops.reverse).keys :=
      fun k v e => hno rops.reverse k v [] (by rw [e])
    rw [ruRun_snoc]
    generalize ruRun n rops.reverse = s at *
    cases op with
    | getitem k => exact sorted_getitem hI hS fun k2 => rfl
    | get k => rw [ruStep, get_fst]; exact sorted_getitem hI hS fun k2 => rfl
    | contains k => rw [ruStep, contains_fst]; exact sorted_getitem hI hS fun k2 => rfl
    | clear => exact ⟨by simp [ruStep, Ru.clear, Ru.keys], by simp [ruStep, Ru.clear, Ru.keys]⟩
    | len => exact sorted_keep hS fun _ _ => rfl
    | keys => exact sorted_keep hS fun _ _ => rfl
    | delitem k =>
      rw [ruStep]
      rcases delitem_cases s k with ⟨_, h1⟩ | ⟨v, a, b, h1, h2⟩
      · rw [h1]; exact sorted_keep hS fun _ _ => rfl
      · rw [h2]
        refine sorted_sublist (sorted_keep hS fun _ _ => rfl) ?_
        simp only [Ru.keys, h1]
        exact (List.Sublist.append_left (List.sublist_cons_self _ _) a).map _
    | setitem k v =>
      have hk := hlast k v rfl
      have hS2 : Sorted (rops.reverse ++ [.setitem k v]) (s.keys ++ [k]) :=
        sorted_snoc hS (fun k2 hk2 => by simp [Spec.uses]; rintro rfl; exact hk hk2) (by simp [Spec.uses])
      rw [ruStep]
      rcases setitem_cases s hI k v with ⟨w, a, b, h1, _, _⟩ | ⟨_, _, h1⟩ | ⟨_, _, e, w, c', h1, h2⟩
      · exact absurd (by simp [Ru.keys, h1]) hk
      · rw [h1]; simpa [Ru.keys] using hS2
      · rw [h2]
        have : s.keys ++ [k] = e :: c'.map Prod.fst := by
          have := congrArg (List.map Prod.fst) h1
          simpa [Ru.keys] using this
        rw [this] at hS2
        exact sorted_sublist hS2 (List.sublist_cons_self _ _)

/-- C31, proved part: in every history that never overwrites a present key (which is how the pool manager
uses the container), the key evicted is the one whose last use is oldest. Missing from the full property:
histories in which a present key is set again. -/
theorem C31_lru_partial (n : Nat) (ops : List (RuOp K V)) (k : K) (v : V) (e : K)
    (hno : NoOverwrite n (ops ++ [.setitem k v]))
    (he : e ∈ (ruRun n ops).keys) (he' : e ∉ (ruRun n (ops ++ [.setitem k v])).keys) :
    ∀ k' ∈ (ruRun n ops).keys, k' ≠ e → Spec.Older ops e k' := by
  intro k' hk' hne
  have hS := sorted_run n ops (fun pre k2 v2 post e => hno pre k2 v2 (post ++ [.setitem k v]) (by rw [e]; simp))
  have hI := inv_run n ops
  rw [ruRun_snoc, ruStep] at he'
  generalize ruRun n ops = s at *
  rcases setitem_cases s hI k v with ⟨w, a, b, h1, _, h⟩ | ⟨_, _, h⟩ | ⟨hk, _, e2, w, c', h1, h⟩
  · rw [h] at he'
    exact absurd (by simpa [Ru.keys, h1] using he) (by simpa [Ru.keys] using he')
  · rw [h] at he'
    exact absurd he (fun hm => he' (by simp [Ru.keys] at hm ⊢; exact .inl hm))
  · rw [h] at he'
    match hc : s.container with
    | [] => simp [Ru.keys, hc] at he
    | (e3, w3) :: c3 =>
      rw [hc, List.cons_append] at h1
      injection h1 with h3 h4
      injection h3 with h5 h6
      have hks : s.keys = e3 :: c3.map Prod.fst := by simp [Ru.keys, hc]
      have hee : e = e3 := by
        rw [hks] at he
        rcases List.mem_cons.1 he with h | h
        · exact h
        · exact absurd (by rw [← h4]; simp [Ru.keys] at h ⊢; exact .inl h) he'
      subst hee
      rw [hks] at hS hk'
      rcases List.mem_cons.1 hk' with h | h
      · exact absurd h hne
      · exact (List.pairwise_cons.1 hS.1).1 k' h

example : NoOverwrite 2 [RuOp.setitem 1 10, .setitem 2 20, .getitem 1, .setitem (3 : Nat) (30 : Nat)]
    ∧ 2 ∈ (ruRun 2 [RuOp.setitem 1 10, .setitem 2 20, .getitem (1 : Nat)]).keys
    ∧ 2 ∉ (ruRun 2 [RuOp.setitem 1 10, .setitem 2 20, .getitem 1, .setitem (3 : Nat) (30 : Nat)]).keys := by
  refine ⟨?_, by decide, by decide⟩
  intro pre k v post h
  match pre, h with
  | [], h => simp at h; obtain ⟨⟨rfl, rfl⟩, -⟩ := h; decide
  | [_], h => simp at h; obtain ⟨rfl, ⟨rfl, rfl⟩, -⟩ := h; decide
  | [_, _], h => simp at h
  | [_, _, _], h => simp at h; obtain ⟨rfl, rfl, rfl, ⟨rfl, rfl⟩, -⟩ := h; decide
  | _ :: _ :: _ :: _ :: p, h => simp at h

/-! ### C32 -/

theorem disposed_step {s : Ru K V} (hs : RuInv s) (op : RuOp K V) :
    ((ruStep s op).disposed ++ (ruStep s op).container.map Prod.snd).Perm
      (s.disposed ++ s.container.map Prod.snd ++ Spec.valuesSet [op]) := by
  have mv : ∀ k, ((s.getitem k).1.disposed ++ (s.getitem k).1.container.map Prod.snd).Perm
      (s.disposed ++ s.container.map Prod.snd) := by
    intro k
    rcases getitem_cases s hs k with ⟨_, h⟩ | ⟨v, a, b, h1, h⟩
    · rw [h]
    · rw [h, h1]
      refine List.Perm.append_left _ ?_
      apply List.Perm.map
      rw [List.append_assoc]
      exact List.Perm.append_left _ (List.perm_append_singleton _ _)
  cases op with
  | getitem k => rw [ruStep]; simpa [Spec.valuesSet] using mv k
  | get k => rw [ruStep, get_fst]; simpa [Spec.valuesSet] using mv k
  | contains k => rw [ruStep, contains_fst]; simpa [Spec.valuesSet] using mv k
  | clear => simp [ruStep, Ru.clear, Spec.valuesSet]
  | len => simp [ruStep, Spec.valuesSet]
  | keys => simp [ruStep, Spec.valuesSet]
  | delitem k =>
    rw [ruStep]
    rcases delitem_cases s k with ⟨_, h⟩ | ⟨v, a, b, h1, h⟩
    · rw [h]; simp [Spec.valuesSet]
    · rw [h, h1]
      simp only [Spec.valuesSet, List.filterMap_cons, List.filterMap_nil, List.append_nil, List.append_assoc,
        List.map_append, List.map_cons]
      refine List.Perm.append_left _ ?_
      simpa using List.perm_middle.symm
  | setitem k v =>
    rw [ruStep]
    have hv : Spec.valuesSet [RuOp.setitem k v] = [v] := rfl
    rw [hv]
    rcases setitem_cases s hs k v with ⟨w, a, b, h1, _, h⟩ | ⟨hk, hl, h⟩ | ⟨hk, hl, e, w, c', h1, h⟩
    · rw [h, h1]
      simp only [List.append_assoc, List.map_append, List.map_cons]
      refine List.Perm.append_left _ ?_
      refine (List.Perm.append_left [w] List.perm_middle).trans ?_
      refine List.Perm.trans ?_ List.perm_middle.symm
      refine List.Perm.cons w ?_
      have := (List.perm_append_singleton v (a.map Prod.snd ++ b.map Prod.snd)).symm
      rw [List.append_assoc] at this
      exact this
    · rw [h]; simp
    · rw [h]
      have : (s.container.map Prod.snd ++ [v]) = w :: c'.map Prod.snd := by
        have := congrArg (List.map Prod.snd) h1; simpa using this
      simp [List.append_assoc, this]

/-- C32: after any history the disposed values together with the stored ones are exactly the values ever
set, with multiplicity; so if the values set are distinct, every value is either stored or disposed, never
both, and is disposed at most once. -/
theorem C32_dispose_once (n : Nat) (ops : List (RuOp K V)) :
    ((ruRun n ops).disposed ++ (ruRun n ops).container.map Prod.snd).Perm (Spec.valuesSet ops) ∧
    ((Spec.valuesSet ops).Nodup →
      ((ruRun n ops).disposed ++ (ruRun n ops).container.map Prod.snd).Nodup) := by
  have main : ((ruRun n ops).disposed ++ (ruRun n ops).container.map Prod.snd).Perm (Spec.valuesSet ops) := by
    suffices ∀ (rops : List (RuOp K V)),
        ((ruRun n rops.reverse).disposed ++ (ruRun n rops.reverse).container.map Prod.snd).Perm
          (Spec.valuesSet rops.reverse) by
      have := this ops.reverse; simpa using this
    intro rops
    induction rops with
    | nil => exact List.Perm.nil
    | cons op rops ih =>
      rw [List.reverse_cons, ruRun_snoc]
      refine (disposed_step (inv_run n rops.reverse) op).trans ?_
      have : Spec.valuesSet (rops.reverse ++ [op]) = Spec.valuesSet rops.reverse ++ Spec.valuesSet [op] := by
        simp only [Spec.valuesSet, List.filterMap_append]
      rw [this]
      exact List.Perm.append_right _ ih
  exact ⟨main, fun h => main.symm.nodup h⟩

example : (ruRun 2 [RuOp.setitem 1 10, .setitem 2 20, .setitem 1 11, .setitem (3 : Nat) 30, .delitem 2]).disposed
      = [10, 11, 20]
    ∧ (Spec.valuesSet [RuOp.setitem 1 10, .setitem 2 20, .setitem 1 11, .setitem (3 : Nat) 30,
        .delitem 2]).Nodup := by decide

end Bolt
