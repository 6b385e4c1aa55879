import Verif.Model.Py
/-! Lemmas about `PyDict`. -/
namespace Bolt
namespace PyDict
variable {K V W : Type} [DecidableEq K]

/-- the invariant of a real dict -/
def NodupKeys (d : PyDict K V) : Prop := (d.map Prod.fst).Nodup

instance (d : PyDict K V) : Decidable (NodupKeys d) := by unfold NodupKeys; infer_instance

@[simp] theorem get?_nil (k : K) : get? ([] : PyDict K V) k = none := rfl

theorem get?_cons (k' : K) (v : V) (d : PyDict K V) (k : K) :
    get? ((k', v) :: d) k = if k' = k then some v else get? d k := rfl

theorem get?_set (d : PyDict K V) (k : K) (v : V) (k2 : K) :
    get? (set d k v) k2 = if k = k2 then some v else get? d k2 := by
  induction d with
  | nil => simp [set, get?]
  | cons a d ih =>
    obtain ⟨k', v'⟩ := a
    by_cases h : k' = k
    · subst h
      simp only [set, if_true, get?]
      split <;> rfl
    · simp only [set, h, if_false, get?, ih]
      by_cases h2 : k' = k2
      · have : ¬ k = k2 := by intro e; apply h; rw [h2, e]
        simp [h2, this]
      · simp [h2]

theorem get?_append (a b : PyDict K V) (k : K) :
    get? (a ++ b) k = (get? a k).or (get? b k) := by
  induction a with
  | nil => simp
  | cons x a ih =>
    obtain ⟨k', v'⟩ := x
    simp only [List.cons_append, get?, ih]
    split <;> simp

theorem get?_eq_none_iff (d : PyDict K V) (k : K) : get? d k = none ↔ k ∉ d.map Prod.fst := by
  induction d with
  | nil => simp
  | cons a d ih =>
    obtain ⟨k', v'⟩ := a
    by_cases h : k' = k
    · simp [get?, h]
    · simp only [get?, h, if_false, ih, List.map_cons, List.mem_cons, not_or]
      constructor
      · intro h2; exact ⟨fun e => h e.symm, h2⟩
      · exact fun h2 => h2.2

theorem get?_isSome_iff (d : PyDict K V) (k : K) : (get? d k).isSome ↔ k ∈ d.map Prod.fst := by
  have := get?_eq_none_iff d k
  cases h : get? d k with
  | none => simp [this.1 h]
  | some v =>
    simp only [Option.isSome_some, true_iff]
    exact Classical.byContradiction fun hn => by rw [this.2 hn] at h; cases h

theorem contains_iff (d : PyDict K V) (k : K) : contains d k = true ↔ k ∈ d.map Prod.fst :=
  get?_isSome_iff d k

theorem get?_mem {d : PyDict K V} {k : K} {v : V} (h : get? d k = some v) : (k, v) ∈ d := by
  induction d with
  | nil => simp at h
  | cons a d ih =>
    obtain ⟨k', v'⟩ := a
    simp only [get?] at h
    split at h
    · next e => cases h; subst e; simp
    · exact List.mem_cons_of_mem _ (ih h)

theorem get?_of_mem {d : PyDict K V} (hd : NodupKeys d) {k : K} {v : V} (h : (k, v) ∈ d) :
    get? d k = some v := by
  induction d with
  | nil => simp at h
  | cons a d ih =>
    obtain ⟨k', v'⟩ := a
    have hd' : k' ∉ d.map Prod.fst ∧ (d.map Prod.fst).Nodup := by simpa [NodupKeys] using hd
    rcases List.mem_cons.1 h with h | h
    · cases h; simp [get?]
    · have : k' ≠ k := by
        intro e; subst e; exact hd'.1 (List.mem_map.2 ⟨_, h, rfl⟩)
      simp only [get?, this, if_false]; exact ih hd'.2 h

theorem set_of_not_mem {d : PyDict K V} {k : K} (h : k ∉ d.map Prod.fst) (v : V) :
    set d k v = d ++ [(k, v)] := by
  induction d with
  | nil => rfl
  | cons a d ih =>
    obtain ⟨k', v'⟩ := a
    simp only [List.map_cons, List.mem_cons, not_or] at h
    have : ¬ k' = k := fun e => h.1 e.symm
    simp [set, this, ih h.2]

theorem keys_set_of_mem {d : PyDict K V} {k : K} (h : k ∈ d.map Prod.fst) (v : V) :
    (set d k v).map Prod.fst = d.map Prod.fst := by
  induction d with
  | nil => simp at h
  | cons a d ih =>
    obtain ⟨k', v'⟩ := a
    by_cases e : k' = k
    · simp [set, e]
    · simp only [List.map_cons, List.mem_cons] at h
      rcases h with h | h
      · exact absurd h.symm e
      · simp [set, e, ih h]

theorem mem_keys_set {d : PyDict K V} {k : K} {v : V} {k2 : K} :
    k2 ∈ (set d k v).map Prod.fst ↔ k2 = k ∨ k2 ∈ d.map Prod.fst := by
  rw [← get?_isSome_iff, ← get?_isSome_iff, get?_set]
  by_cases h : k = k2
  · simp [h]
  · simp [h, show ¬ k2 = k from fun e => h e.symm]

theorem nodup_set {d : PyDict K V} (hd : NodupKeys d) (k : K) (v : V) : NodupKeys (set d k v) := by
  unfold NodupKeys at *
  by_cases h : k ∈ d.map Prod.fst
  · rw [keys_set_of_mem h]; exact hd
  · rw [set_of_not_mem h]
    simp only [List.map_append, List.map_cons, List.map_nil]
    rw [List.nodup_append]
    refine ⟨hd, by simp, ?_⟩
    intro a ha b hb
    simp at hb; subst hb
    rintro rfl; exact h ha

theorem nodup_update {d : PyDict K V} (hd : NodupKeys d) (kvs : List (K × V)) :
    NodupKeys (update d kvs) := by
  induction kvs generalizing d with
  | nil => exact hd
  | cons a kvs ih => exact ih (nodup_set hd a.1 a.2)

theorem nodup_ofPairs (kvs : List (K × V)) : NodupKeys (ofPairs kvs) :=
  nodup_update (by simp [NodupKeys]) kvs

theorem update_cons (d : PyDict K V) (k : K) (v : V) (kvs : List (K × V)) :
    update d ((k, v) :: kvs) = update (set d k v) kvs := rfl

theorem update_append (d : PyDict K V) (a b : List (K × V)) :
    update d (a ++ b) = update (update d a) b := by
  simp [update, List.foldl_append]

/-- last occurrence wins -/
theorem get?_update (d : PyDict K V) (kvs : List (K × V)) (k : K) :
    get? (update d kvs) k = (get? kvs.reverse k).or (get? d k) := by
  induction kvs generalizing d with
  | nil => simp [update]
  | cons a kvs ih =>
    obtain ⟨k', v'⟩ := a
    rw [update_cons, ih, get?_set, List.reverse_cons, get?_append]
    by_cases h : k' = k
    · simp [h, get?]
    · simp [h, get?]

theorem get?_reverse {d : PyDict K V} (hd : NodupKeys d) (k : K) : get? d.reverse k = get? d k := by
  induction d with
  | nil => rfl
  | cons a d ih =>
    obtain ⟨k', v'⟩ := a
    have hd' : k' ∉ d.map Prod.fst ∧ (d.map Prod.fst).Nodup := by simpa [NodupKeys] using hd
    rw [List.reverse_cons, get?_append, ih hd'.2]
    by_cases e : k' = k
    · subst e
      have := (get?_eq_none_iff d k').2 hd'.1
      simp [this, get?]
    · simp [get?, e]

theorem get?_update_nodup (d : PyDict K V) {kvs : List (K × V)} (h : NodupKeys kvs) (k : K) :
    get? (update d kvs) k = (get? kvs k).or (get? d k) := by
  rw [get?_update, get?_reverse h]

theorem mem_keys_update {d : PyDict K V} {kvs : List (K × V)} {k : K} :
    k ∈ (update d kvs).map Prod.fst ↔ k ∈ kvs.map Prod.fst ∨ k ∈ d.map Prod.fst := by
  induction kvs generalizing d with
  | nil => simp [update]
  | cons a kvs ih =>
    obtain ⟨k', v'⟩ := a
    rw [update_cons, ih, mem_keys_set]
    simp only [List.map_cons, List.mem_cons]
    constructor
    · rintro (h | h | h)
      · exact .inl (.inr h)
      · exact .inl (.inl h)
      · exact .inr h
    · rintro ((h | h) | h)
      · exact .inr (.inl h)
      · exact .inl h
      · exact .inr (.inr h)

theorem update_of_disjoint {d : PyDict K V} {kvs : List (K × V)}
    (hk : NodupKeys kvs) (hd : ∀ k ∈ kvs.map Prod.fst, k ∉ d.map Prod.fst) :
    update d kvs = d ++ kvs := by
  induction kvs generalizing d with
  | nil => simp [update]
  | cons a kvs ih =>
    obtain ⟨k', v'⟩ := a
    have hk' : k' ∉ kvs.map Prod.fst ∧ (kvs.map Prod.fst).Nodup := by simpa [NodupKeys] using hk
    rw [update_cons, set_of_not_mem (hd k' (by simp)), ih hk'.2]
    · simp
    · intro k hk2
      simp only [List.map_append, List.map_cons, List.map_nil, List.mem_append, List.mem_singleton]
      rintro (h | h)
      · exact hd k (by simp only [List.map_cons]; exact List.mem_cons_of_mem _ hk2) h
      · subst h; exact hk'.1 hk2

theorem ofPairs_of_nodup {kvs : List (K × V)} (hk : NodupKeys kvs) : ofPairs kvs = kvs := by
  unfold ofPairs; rw [update_of_disjoint hk (by simp)]; rfl

theorem nodup_erase {d : PyDict K V} (hd : NodupKeys d) (k : K) : NodupKeys (erase d k) := by
  have sub : (erase d k).map Prod.fst |>.Sublist (d.map Prod.fst) := by
    induction d with
    | nil => exact List.Sublist.slnil
    | cons a d ih =>
      obtain ⟨k', v'⟩ := a
      have hd' : k' ∉ d.map Prod.fst ∧ (d.map Prod.fst).Nodup := by simpa [NodupKeys] using hd
      by_cases e : k' = k
      · simp [erase, e]
      · simp only [erase, e, if_false, List.map_cons]; exact (ih hd'.2).cons_cons _
  exact List.Nodup.sublist sub hd

theorem get?_erase {d : PyDict K V} (hd : NodupKeys d) (k k2 : K) :
    get? (erase d k) k2 = if k = k2 then none else get? d k2 := by
  induction d with
  | nil => simp [erase]
  | cons a d ih =>
    obtain ⟨k', v'⟩ := a
    have hd' : k' ∉ d.map Prod.fst ∧ (d.map Prod.fst).Nodup := by simpa [NodupKeys] using hd
    by_cases e : k' = k
    · subst e
      simp only [erase, if_true, get?]
      by_cases e2 : k' = k2
      · subst e2; simp [(get?_eq_none_iff d k').2 hd'.1]
      · simp [e2]
    · simp only [erase, e, if_false, get?, ih hd'.2]
      by_cases e2 : k' = k2
      · subst e2; simp [show ¬ k = k' from fun h => e h.symm]
      · simp [e2]

theorem erase_of_not_mem {d : PyDict K V} {k : K} (h : k ∉ d.map Prod.fst) : erase d k = d := by
  induction d with
  | nil => rfl
  | cons a d ih =>
    obtain ⟨k', v'⟩ := a
    simp only [List.map_cons, List.mem_cons, not_or] at h
    simp [erase, show ¬ k' = k from fun e => h.1 e.symm, ih h.2]

theorem get?_map (d : PyDict K V) (f : V → W) (k : K) :
    get? (d.map (fun kv => (kv.1, f kv.2))) k = (get? d k).map f := by
  induction d with
  | nil => rfl
  | cons a d ih =>
    obtain ⟨k', v'⟩ := a
    simp only [List.map_cons, get?]
    split
    · rfl
    · exact ih

theorem mem_keys_erase {d : PyDict K V} (hd : NodupKeys d) {k k2 : K} :
    k2 ∈ (erase d k).map Prod.fst ↔ k2 ≠ k ∧ k2 ∈ d.map Prod.fst := by
  rw [← get?_isSome_iff, ← get?_isSome_iff, get?_erase hd]
  by_cases h : k = k2
  · simp [h]
  · simp [h, show ¬ k2 = k from fun e => h e.symm]

end PyDict
end Bolt
