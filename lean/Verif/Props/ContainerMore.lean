import Verif.Props.Container
import Verif.Lemmas.AioClient
/-!
# C31 for every history

Overwriting a present key does not refresh it. `touchedKeys` is the history with these overwritings blanked out; with
respect to it, every eviction in every history removes the key whose last use is oldest.
-/
namespace Bolt
variable {K V : Type} [DecidableEq K]

/-- the operation `op` after the history `pre`, blanked out if it overwrites a present key -/
def Spec.blanked (n : Nat) (pre : List (RuOp K V)) : RuOp K V → RuOp K V
  | .setitem k v => if k ∈ (ruRun n pre).keys then .len else .setitem k v
  | op => op

/-- The operations that count as uses: reads, and sets that insert a key. The others are blanked out (they keep their
place). -/
def Spec.touchedKeys (n : Nat) (ops : List (RuOp K V)) : List (RuOp K V) :=
  (ops.foldl (fun (acc : List (RuOp K V) × List (RuOp K V)) op => (acc.1 ++ [op], acc.2 ++ [Spec.blanked n acc.1 op]))
    ([], [])).2

theorem effective_fst (n : Nat) (ops : List (RuOp K V)) :
    (ops.foldl (fun (acc : List (RuOp K V) × List (RuOp K V)) op => (acc.1 ++ [op], acc.2 ++ [Spec.blanked n acc.1 op]))
      ([], [])).1 = ops := by
  induction ops using snoc_induct with
  | nil => rfl
  | snoc ops op ih => rw [List.foldl_append, List.foldl_cons, List.foldl_nil, ih]

theorem effective_snoc (n : Nat) (ops : List (RuOp K V)) (op : RuOp K V) :
    Spec.touchedKeys n (ops ++ [op]) = Spec.touchedKeys n ops ++ [Spec.blanked n ops op] := by
  unfold Spec.touchedKeys
  rw [List.foldl_append, List.foldl_cons, List.foldl_nil]
  simp only [effective_fst]

theorem sorted_all (n : Nat) (ops : List (RuOp K V)) : Sorted (Spec.touchedKeys n ops) (ruRun n ops).keys := by
  induction ops using snoc_induct with
  | nil => exact ⟨by simp [ruRun, Ru.keys], by simp [ruRun, Ru.keys]⟩
  | snoc ops op hS =>
    have hI := inv_run n ops
    rw [effective_snoc, ruRun_snoc]
    have hb : ∀ k v, Spec.blanked n ops (.setitem k v) = if k ∈ (ruRun n ops).keys then .len else .setitem k v :=
      fun _ _ => rfl
    generalize ruRun n ops = s at *
    cases op with
    | getitem k => exact sorted_getitem hI hS fun k2 => rfl
    | get k => rw [ruStep, get_fst]; exact sorted_getitem hI hS fun k2 => rfl
    | contains k => rw [ruStep, contains_fst]; exact sorted_getitem hI hS fun k2 => rfl
    | clear => exact ⟨by simp [ruStep, Ru.clear, Ru.keys], by simp [ruStep, Ru.clear, Ru.keys]⟩
    | len => exact sorted_keep hS fun _ _ => rfl
    | keys => exact sorted_keep hS fun _ _ => rfl
    | delitem k =>
      rw [ruStep]
      rcases delitem_cases s k with ⟨_, h1⟩ | ⟨v, a, b, h1, h2⟩
      · rw [h1]; exact sorted_keep hS fun _ _ => rfl
      · rw [h2]
        refine sorted_sublist (sorted_keep hS fun _ _ => rfl) ?_
        simp only [Ru.keys, h1]
        exact (List.Sublist.append_left (List.sublist_cons_self _ _) a).map _
    | setitem k v =>
      rw [ruStep, hb]
      rcases setitem_cases s hI k v with ⟨w, a, b, h1, _, h2⟩ | ⟨hk, _, h1⟩ | ⟨hk, _, e, w, c', h1, h2⟩
      · rw [if_pos (by simp [Ru.keys, h1]), h2]
        have : ({ s with container := a ++ (k, v) :: b, disposed := s.disposed ++ [w] } : Ru K V).keys = s.keys := by
          simp [Ru.keys, h1]
        rw [this]
        exact sorted_keep hS fun _ _ => rfl
      · have hS2 : Sorted (Spec.touchedKeys n ops ++ [.setitem k v]) (s.keys ++ [k]) :=
          sorted_snoc hS (fun k2 hk2 => by simp [Spec.uses]; rintro rfl; exact hk hk2) (by simp [Spec.uses])
        rw [if_neg hk, h1]
        simpa [Ru.keys] using hS2
      · have hS2 : Sorted (Spec.touchedKeys n ops ++ [.setitem k v]) (s.keys ++ [k]) :=
          sorted_snoc hS (fun k2 hk2 => by simp [Spec.uses]; rintro rfl; exact hk hk2) (by simp [Spec.uses])
        rw [if_neg hk, h2]
        have : s.keys ++ [k] = e :: c'.map Prod.fst := by
          have := congrArg (List.map Prod.fst) h1
          simpa [Ru.keys] using this
        rw [this] at hS2
        exact sorted_sublist hS2 (List.sublist_cons_self _ _)

/-- C31, what holds of every history: the keys are listed in the order of their last read or insertion, oldest first; a
key is evicted only by a set that inserts another key into a full container, and then it is the one whose last read or
insertion is oldest. Missing for C31: overwriting does not count as a use (`C31_violated`). -/
theorem C31_every_history_partial (n : Nat) (ops : List (RuOp K V)) :
    (ruRun n ops).keys.Pairwise (Spec.Older (Spec.touchedKeys n ops)) ∧
    ∀ k v e, e ∈ (ruRun n ops).keys → e ∉ (ruRun n (ops ++ [.setitem k v])).keys →
      k ∉ (ruRun n ops).keys ∧ (ruRun n ops).len = n ∧
      (∀ k' ∈ (ruRun n ops).keys, k' ≠ e → Spec.Older (Spec.touchedKeys n ops) e k') ∧
      ∀ k' ∈ (ruRun n ops).keys, k' ≠ e → k' ∈ (ruRun n (ops ++ [.setitem k v])).keys := by
  have hS := sorted_all n ops
  refine ⟨hS.1, ?_⟩
  intro k v e he he'
  have hI := inv_run n ops
  have hm := maxsize_run n ops
  rw [ruRun_snoc, ruStep] at he' ⊢
  generalize ruRun n ops = s at *
  rcases setitem_cases s hI k v with ⟨w, a, b, h1, _, h⟩ | ⟨_, _, h⟩ | ⟨hk, hlen, e2, w, c', h1, h⟩
  · rw [h] at he'
    exact absurd (by simpa [Ru.keys, h1] using he) (by simpa [Ru.keys] using he')
  · rw [h] at he'
    exact absurd he (fun hm => he' (by simp [Ru.keys] at hm ⊢; exact .inl hm))
  · rw [h] at he' ⊢
    refine ⟨hk, by rw [← hm]; exact hlen, ?_⟩
    match hc : s.container with
    | [] => simp [Ru.keys, hc] at he
    | (e3, w3) :: c3 =>
      rw [hc, List.cons_append] at h1
      injection h1 with h3 h4
      injection h3 with h5 h6
      have hks : s.keys = e3 :: c3.map Prod.fst := by simp [Ru.keys, hc]
      have hee : e = e3 := by
        rw [hks] at he
        rcases List.mem_cons.1 he with h | h
        · exact h
        · exact absurd (by rw [← h4]; simp [Ru.keys] at h ⊢; exact .inl h) he'
      subst hee
      rw [hks] at hS ⊢
      constructor
      · intro k' hk' hne
        rcases List.mem_cons.1 hk' with h | h
        · exact absurd h hne
        · exact (List.pairwise_cons.1 hS.1).1 k' h
      · intro k' hk' hne
        rcases List.mem_cons.1 hk' with h | h
        · exact absurd h hne
        · show k' ∈ c'.map Prod.fst
          rw [← h4, List.map_append]
          exact List.mem_append_left _ h

/-- With an overwriting set in the history: key 1 is evicted although it was set last, and key 2 was read or inserted
after key 1. -/
example :
    let ops : List (RuOp Nat Nat) := [.setitem 1 10, .setitem 2 20, .setitem 1 11]
    Spec.touchedKeys 2 ops = [.setitem 1 10, .setitem 2 20, .len] ∧
    1 ∈ (ruRun 2 ops).keys ∧ 1 ∉ (ruRun 2 (ops ++ [.setitem 3 30])).keys := by decide

end Bolt
