import Verif.Model.Threads
import Verif.Props.Process
/-!
# C118, C119: threads that share an `RpcId` or a `MeshClient`
-/
namespace Bolt
open Spec

/-! ## C118 -/

/-- C118 as listed: children of one span made by different threads have different rpc ids. -/
def C118_full : Prop := ∀ (n : Nat) (evs : List ChildEv), ((childRun n evs).made.map Prod.snd).Nodup

/-- both threads add one before either reads the counter for its child -/
theorem C118_violated : ¬ C118_full := by
  intro h
  have := h 2 [.call 0, .call 1, .step 0, .step 0, .step 1, .step 1, .step 0, .step 1]
  revert this
  decide

/-- a lost update: both children are number one -/
example : (childRun 2 [.call 0, .call 1, .step 0, .step 1, .step 0, .step 1, .step 0, .step 1]).made = [(0, 1), (1, 1)] := by
  decide

/-- at most one thread is inside `_new_child_of` -/
def Spec.Alone (s : ChildSt) : Prop :=
  ∀ i j : Nat, (∃ p, s.thr[i]? = some p ∧ p ≠ ChildPC.idle) → (∃ p, s.thr[j]? = some p ∧ p ≠ ChildPC.idle) → i = j

theorem childRun_snoc (n : Nat) (evs : List ChildEv) (e : ChildEv) :
    childRun n (evs ++ [e]) = childStep (childRun n evs) e := by
  simp [childRun, List.foldl_append]

structure ChildInv (s : ChildSt) : Prop where
  le : ∀ x ∈ s.made, x.2 ≤ s.count
  read : ∀ (i : Nat) r, s.thr[i]? = some (.write r) → r = s.count
  ext : ∀ (i : Nat), s.thr[i]? = some .extend → ∀ x ∈ s.made, x.2 < s.count
  nodup : (s.made.map Prod.snd).Nodup
  len : s.made.length + (if .extend ∈ s.thr then 1 else 0) = s.count

theorem mem_set_iff {α : Type} {l : List α} {i : Nat} {a b : α} (hi : i < l.length) :
    b ∈ l.set i a ↔ b = a ∨ ∃ j, j ≠ i ∧ l[j]? = some b := by
  rw [List.mem_iff_getElem?]
  constructor
  · rintro ⟨j, hj⟩
    rw [List.getElem?_set] at hj
    split at hj
    · next e =>
      exact .inl (by cases hj; rfl)
    · next e => exact .inr ⟨j, fun h => e h.symm, hj⟩
  · rintro (rfl | ⟨j, hj, h⟩)
    · exact ⟨i, by simp [hi]⟩
    · exact ⟨j, by rw [List.getElem?_set_ne (fun e => hj e.symm)]; exact h⟩

theorem ChildInv.step {s : ChildSt} (h : ChildInv s) (ha : Alone s) (e : ChildEv) (ha' : Alone (childStep s e)) :
    ChildInv (childStep s e) := by
  have ext_iff : ∀ {i : Nat} {p : ChildPC}, s.thr[i]? = some p → p ≠ .idle → p ≠ .extend → ¬ .extend ∈ s.thr := by
    intro i p hi hp hpe hm
    obtain ⟨j, hj⟩ := List.mem_iff_getElem?.1 hm
    have := ha i j ⟨p, hi, hp⟩ ⟨_, hj, by simp⟩
    subst this
    rw [hi] at hj
    cases hj
    exact hpe rfl
  cases e with
  | call i =>
    by_cases hi : s.thr[i]? = some .idle
    · have hlt := (List.getElem?_eq_some_iff.1 hi).1
      have e : childStep s (.call i) = { s with thr := s.thr.set i .read } := by simp [childStep, hi]
      rw [e] at ha' ⊢
      -- nobody else is inside
      have hnone : ¬ .extend ∈ s.thr := by
        intro hm
        obtain ⟨j, hj⟩ := List.mem_iff_getElem?.1 hm
        have hne : i ≠ j := by
          intro e; subst e; rw [hi] at hj; cases hj
        exact hne (ha' i j ⟨.read, by simp [hlt], by simp⟩
          ⟨.extend, by show (s.thr.set i .read)[j]? = _; rw [List.getElem?_set_ne hne]; exact hj, by simp⟩)
      refine ⟨h.le, ?_, ?_, h.nodup, ?_⟩
      · intro j r hj
        dsimp only at hj
        rw [List.getElem?_set] at hj
        split at hj
        · cases hj
        · exact h.read j r hj
      · intro j hj
        dsimp only at hj
        rw [List.getElem?_set] at hj
        split at hj
        · cases hj
        · exact absurd (List.mem_of_getElem? hj) hnone
      · dsimp only
        rw [if_neg (by
          rw [mem_set_iff hlt]
          rintro (e | ⟨j, -, hj⟩)
          · cases e
          · exact hnone (List.mem_of_getElem? hj))]
        have := h.len
        rw [if_neg hnone] at this
        exact this
    · have e : childStep s (.call i) = s := by simp [childStep, hi]
      rw [e]
      exact h
  | step i =>
    unfold childStep at ha' ⊢
    dsimp only at ha' ⊢
    split
    · next hi =>
      have hlt := (List.getElem?_eq_some_iff.1 hi).1
      have hnone := ext_iff hi (by simp) (by simp)
      refine ⟨h.le, ?_, ?_, h.nodup, ?_⟩
      · intro j r hj
        dsimp only at hj ⊢
        rw [List.getElem?_set] at hj
        split at hj
        · cases hj; rfl
        · exact h.read j r hj
      · intro j hj
        dsimp only at hj
        rw [List.getElem?_set] at hj
        split at hj
        · cases hj
        · exact absurd (List.mem_of_getElem? hj) hnone
      · dsimp only
        rw [if_neg (by
          rw [mem_set_iff hlt]
          rintro (e | ⟨j, -, hj⟩)
          · cases e
          · exact hnone (List.mem_of_getElem? hj))]
        have := h.len
        rw [if_neg hnone] at this
        exact this
    · next r hi =>
      have hlt := (List.getElem?_eq_some_iff.1 hi).1
      have hr := h.read i r hi
      have hnone := ext_iff hi (by simp) (by simp)
      subst hr
      refine ⟨fun x hx => ?_, ?_, fun j hj x hx => ?_, h.nodup, ?_⟩
      · have := h.le x hx
        dsimp only
        omega
      · intro j r hj
        dsimp only at hj
        rw [List.getElem?_set] at hj
        split at hj
        · cases hj
        · next hne =>
          exact absurd (ha i j ⟨_, hi, by simp⟩ ⟨_, hj, by simp⟩) hne
      · have := h.le x hx
        dsimp only
        omega
      · dsimp only
        rw [if_pos ((mem_set_iff hlt).2 (.inl rfl))]
        have := h.len
        rw [if_neg hnone] at this
        omega
    · next hi =>
      have hlt := (List.getElem?_eq_some_iff.1 hi).1
      have hext := h.ext i hi
      have others : ∀ (j : Nat) p, j ≠ i → s.thr[j]? = some p → p = .idle := by
        intro j p hne hj
        apply Classical.byContradiction
        intro hp
        exact hne (ha j i ⟨p, hj, hp⟩ ⟨_, hi, by simp⟩)
      refine ⟨?_, ?_, ?_, ?_, ?_⟩
      · intro x hx
        simp only [List.mem_append, List.mem_singleton] at hx
        rcases hx with hx | rfl
        · exact h.le x hx
        · exact Nat.le_refl _
      · intro j r hj
        dsimp only at hj
        rw [List.getElem?_set] at hj
        split at hj
        · cases hj
        · exact h.read j r hj
      · intro j hj
        dsimp only at hj
        rw [List.getElem?_set] at hj
        split at hj
        · cases hj
        · next hne =>
          have := others j _ (fun e => hne e.symm) hj
          cases this
      · dsimp only
        rw [List.map_append, List.nodup_append]
        refine ⟨h.nodup, by simp, ?_⟩
        intro a ha b hb
        obtain ⟨x, hx, rfl⟩ := List.mem_map.1 ha
        simp only [List.map_cons, List.map_nil, List.mem_singleton] at hb
        have := hext x hx
        omega
      · dsimp only
        rw [if_neg (by
          rw [mem_set_iff hlt]
          rintro (e | ⟨j, hne, hj⟩)
          · cases e
          · have := others j _ hne hj
            cases this)]
        have := h.len
        rw [if_pos (List.mem_of_getElem? hi)] at this
        rw [List.length_append]
        exact this
    · exact h

/-- C118, what holds: if the threads make children of the span one at a time, the children are numbered 1, 2, 3, ... in this
order, as in a single thread, so their rpc ids differ. Missing for C118: threads that overlap (`_child_count` is not
locked). -/
theorem C118_alone_partial (n : Nat) (evs : List ChildEv) (h : ∀ pre, pre <+: evs → Alone (childRun n pre)) :
    (childRun n evs).made.map Prod.snd = List.range' 1 (childRun n evs).made.length ∧
    ((childRun n evs).made.map Prod.snd).Nodup := by
  have key : ChildInv (childRun n evs) ∧
      (childRun n evs).made.map Prod.snd = List.range' 1 (childRun n evs).made.length := by
    induction evs using snoc_induct with
    | nil =>
      refine ⟨⟨fun x hx => (by cases hx), ?_, ?_, List.nodup_nil, ?_⟩, rfl⟩
      · intro i r hi
        have := List.mem_of_getElem? hi
        simp [childRun] at this
      · intro i hi
        have := List.mem_of_getElem? hi
        simp [childRun] at this
      · simp [childRun]
    | snoc evs e ih =>
      obtain ⟨h1, h2⟩ := ih fun pre hp => h pre (hp.trans (List.prefix_append ..))
      have ha := h evs (List.prefix_append ..)
      have ha' := h (evs ++ [e]) (List.prefix_refl _)
      rw [childRun_snoc] at ha' ⊢
      refine ⟨h1.step ha e ha', ?_⟩
      generalize childRun n evs = s at *
      cases e with
      | call i => unfold childStep; dsimp only; split <;> exact h2
      | step i =>
        unfold childStep
        dsimp only
        split
        · exact h2
        · exact h2
        · next hi =>
          have := h1.len
          rw [if_pos (List.mem_of_getElem? hi)] at this
          dsimp only
          rw [List.map_append, h2, List.length_append]
          simp only [List.map_cons, List.map_nil, List.length_cons, List.length_nil, Nat.zero_add]
          rw [List.range'_1_concat, ← this, Nat.add_comm]
        · exact h2
  exact ⟨key.2, key.1.nodup⟩

example : (childRun 2 [.call 0, .step 0, .step 0, .step 0, .call 1, .step 1, .step 1, .step 1]).made = [(0, 1), (1, 2)] := by
  decide

/-! ### How far the damage goes -/

/-- `_new_child_of` from beginning to end, with nothing in between -/
def Spec.undisturbed (i : Nat) : List ChildEv := [.call i, .step i, .step i, .step i]

theorem undisturbed_run (s : ChildSt) (i : Nat) (h : s.thr[i]? = some .idle) :
    (undisturbed i).foldl childStep s = { s with count := s.count + 1, made := s.made ++ [(i, s.count + 1)] } := by
  have hlt := (List.getElem?_eq_some_iff.1 h).1
  have hset : s.thr.set i .idle = s.thr := by
    apply List.ext_getElem?
    intro j
    rw [List.getElem?_set]
    split
    · next e => subst e; rw [h]
    · rfl
  simp only [undisturbed, List.foldl_cons, List.foldl_nil]
  have h1 : childStep s (.call i) = { s with thr := s.thr.set i .read } := by unfold childStep; dsimp only; rw [if_pos h]
  have g : ∀ q, (s.thr.set i q)[i]? = some q := fun q => by simp [hlt]
  have h2 : ∀ c m, childStep { count := c, thr := s.thr.set i .read, made := m } (.step i) =
      { count := c, thr := s.thr.set i (.write c), made := m } := by
    intro c m; unfold childStep; dsimp only; rw [g]; dsimp only; rw [List.set_set]
  have h3 : ∀ c m r, childStep { count := c, thr := s.thr.set i (.write r), made := m } (.step i) =
      { count := r + 1, thr := s.thr.set i .extend, made := m } := by
    intro c m r; unfold childStep; dsimp only; rw [g]; dsimp only; rw [List.set_set]
  have h4 : ∀ c m, childStep { count := c, thr := s.thr.set i .extend, made := m } (.step i) =
      { count := c, thr := s.thr, made := m ++ [(i, c)] } := by
    intro c m; unfold childStep; dsimp only; rw [g]; dsimp only; rw [List.set_set, hset]
  rw [h1, h2, h3, h4]

theorem undisturbed_runs (k : Nat) (s : ChildSt) (i : Nat) (h : s.thr[i]? = some .idle) :
    ((List.replicate k (undisturbed i)).flatten).foldl childStep s =
      { s with count := s.count + k, made := s.made ++ (List.range' (s.count + 1) k).map fun x => (i, x) } := by
  induction k generalizing s with
  | zero => simp
  | succ k ih =>
    rw [List.replicate_succ, List.flatten_cons, List.foldl_append, undisturbed_run s i h,
      ih { s with count := s.count + 1, made := s.made ++ [(i, s.count + 1)] } h]
    simp only [List.range'_succ, List.map_cons, List.append_assoc, List.singleton_append, ChildSt.mk.injEq,
      and_true]
    omega

/-- One thread that is late by one statement undoes the counting of all others: whatever number of children thread 1 makes while
thread 0 is between reading and writing the counter, the next ones get the same numbers again, although nobody else is
making children any more. -/
theorem C118_later (k : Nat) :
    (childRun 2 ([.call 0, .step 0] ++ (List.replicate k (undisturbed 1)).flatten ++ [.step 0, .step 0] ++
        (List.replicate k (undisturbed 1)).flatten)).made =
      ((List.range' 1 k).map fun x => (1, x)) ++ [(0, 1)] ++ (List.range' 2 k).map fun x => (1, x) := by
  unfold childRun
  rw [List.foldl_append, List.foldl_append, List.foldl_append]
  have h1 : [ChildEv.call 0, .step 0].foldl childStep { thr := List.replicate 2 .idle } =
      { count := 0, thr := [.write 0, .idle] } := by decide
  rw [h1, undisturbed_runs k { count := 0, thr := [.write 0, .idle] } 1 rfl]
  have h2 : ∀ (c : Nat) (m : List (Nat × Nat)), [ChildEv.step 0, .step 0].foldl childStep
      { count := c, thr := [.write 0, .idle], made := m } = { count := 1, thr := [.idle, .idle], made := m ++ [(0, 1)] } :=
    fun _ _ => rfl
  dsimp only
  rw [h2, undisturbed_runs k { count := 1, thr := [.idle, .idle], made := _ } 1 rfl]
  simp

/-- the threads that have not yet written the counter in their call -/
def Spec.childPending (s : ChildSt) : Nat := s.thr.countP fun p => p == .read || (match p with | .write _ => true | _ => false)

/-- the calls in a schedule -/
def Spec.childCalls (evs : List ChildEv) : Nat := evs.countP fun e => match e with | .call _ => true | _ => false

structure ChildRange (c : Nat) (s : ChildSt) : Prop where
  count : s.count + childPending s ≤ c
  write : ∀ (i : Nat) r, s.thr[i]? = some (.write r) → r + childPending s ≤ c
  pos : (∀ (i : Nat), s.thr[i]? = some .extend → 1 ≤ s.count)
  made : ∀ x ∈ s.made, 1 ≤ x.2 ∧ x.2 ≤ c
  once : s.made.length + s.thr.countP (· == .extend) + childPending s ≤ c

theorem countP_set {α : Type} (p : α → Bool) (l : List α) (i : Nat) (a b : α) (h : l[i]? = some b) :
    (l.set i a).countP p + (if p b then 1 else 0) = l.countP p + (if p a then 1 else 0) := by
  induction l generalizing i with
  | nil => cases h
  | cons x l ih =>
    cases i with
    | zero =>
      simp only [List.getElem?_cons_zero, Option.some.injEq] at h
      subst h
      simp only [List.set_cons_zero, List.countP_cons]
      omega
    | succ i =>
      simp only [List.getElem?_cons_succ] at h
      have := ih i h
      simp only [List.set_cons_succ, List.countP_cons]
      omega

theorem ChildRange.step {c : Nat} {s : ChildSt} (h : ChildRange c s) (e : ChildEv) :
    ChildRange (c + childCalls [e]) (childStep s e) := by
  have hp := fun (i : Nat) (a b : ChildPC) (hi : s.thr[i]? = some b) =>
    countP_set (fun p => p == .read || (match p with | .write _ => true | _ => false)) s.thr i a b hi
  have hx := fun (i : Nat) (a b : ChildPC) (hi : s.thr[i]? = some b) => countP_set (· == .extend) s.thr i a b hi
  have get : ∀ (i : Nat) (q : ChildPC) (j : Nat) (r : ChildPC), (s.thr.set i q)[j]? = some r →
      (j = i ∧ r = q) ∨ (j ≠ i ∧ s.thr[j]? = some r) := by
    intro i q j r hj
    rw [List.getElem?_set] at hj
    split at hj
    · next e => exact .inl ⟨e.symm, by split at hj <;> cases hj; rfl⟩
    · next e => exact .inr ⟨fun h => e h.symm, hj⟩
  obtain ⟨h1, h2, h3, h4, h5⟩ := h
  unfold childPending at h1 h2 h5
  cases e with
  | call i =>
    have hc : childCalls [.call i] = 1 := rfl
    rw [hc]
    unfold childStep
    dsimp only
    split
    · next hi =>
      have e1 := hp i .read .idle hi
      have e2 := hx i .read .idle hi
      simp at e1 e2
      refine ⟨?_, ?_, ?_, ?_, ?_⟩ <;> (try unfold childPending) <;> dsimp only
      · omega
      · intro j r hj
        rcases get _ _ _ _ hj with ⟨-, e⟩ | ⟨-, e⟩
        · cases e
        · have := h2 j r e
          omega
      · intro j hj
        rcases get _ _ _ _ hj with ⟨-, e⟩ | ⟨-, e⟩
        · cases e
        · exact h3 j e
      · intro x hx
        have := h4 x hx
        omega
      · omega
    · refine ⟨?_, ?_, h3, ?_, ?_⟩ <;> (try unfold childPending)
      · omega
      · intro j r hj; have := h2 j r hj; omega
      · intro x hx; have := h4 x hx; omega
      · omega
  | step i =>
    have hc : childCalls [.step i] = 0 := rfl
    rw [hc, Nat.add_zero]
    unfold childStep
    dsimp only
    split
    · next hi =>
      have e1 := hp i (.write s.count) .read hi
      have e2 := hx i (.write s.count) .read hi
      simp at e1 e2
      refine ⟨?_, ?_, ?_, h4, ?_⟩ <;> (try unfold childPending) <;> dsimp only
      · omega
      · intro j r hj
        rcases get _ _ _ _ hj with ⟨-, e⟩ | ⟨-, e⟩
        · cases e; omega
        · have := h2 j r e
          omega
      · intro j hj
        rcases get _ _ _ _ hj with ⟨-, e⟩ | ⟨-, e⟩
        · cases e
        · exact h3 j e
      · omega
    · next r hi =>
      have e1 := hp i .extend (.write r) hi
      have e2 := hx i .extend (.write r) hi
      have h6 := h2 i r hi
      simp at e1 e2 h6
      refine ⟨?_, ?_, ?_, h4, ?_⟩ <;> (try unfold childPending) <;> dsimp only
      · omega
      · intro j r hj
        rcases get _ _ _ _ hj with ⟨-, e⟩ | ⟨-, e⟩
        · cases e
        · have := h2 j r e
          omega
      · intro j hj
        omega
      · omega
    · next hi =>
      have e1 := hp i .idle .extend hi
      have e2 := hx i .idle .extend hi
      have h6 := h3 i hi
      simp at e1 e2
      refine ⟨?_, ?_, ?_, ?_, ?_⟩ <;> (try unfold childPending) <;> dsimp only
      · omega
      · intro j r hj
        rcases get _ _ _ _ hj with ⟨-, e⟩ | ⟨-, e⟩
        · cases e
        · have := h2 j r e
          omega
      · intro j hj
        rcases get _ _ _ _ hj with ⟨-, e⟩ | ⟨-, e⟩
        · cases e
        · exact h3 j e
      · intro x hx
        simp only [List.mem_append, List.mem_singleton] at hx
        rcases hx with hx | rfl
        · exact h4 x hx
        · dsimp only; omega
      · rw [List.length_append, List.length_singleton]; omega
    · exact ⟨h1, h2, h3, h4, h5⟩

/-- What holds whatever the threads do: numbers of children are between one and the number of calls, and no call makes two
children. -/
theorem C118_range (n : Nat) (evs : List ChildEv) :
    (∀ x ∈ (childRun n evs).made, 1 ≤ x.2 ∧ x.2 ≤ childCalls evs) ∧ (childRun n evs).made.length ≤ childCalls evs := by
  have key : ChildRange (childCalls evs) (childRun n evs) := by
    induction evs using snoc_induct with
    | nil =>
      have h0 : ∀ p : ChildPC → Bool, p .idle = false → (List.replicate n ChildPC.idle).countP p = 0 := by
        intro p hp
        rw [List.countP_replicate, hp]; rfl
      refine ⟨?_, ?_, ?_, fun x hx => (by cases hx), ?_⟩
      · simp [childRun, childPending, childCalls, h0]
      · intro i r hi
        have := List.mem_of_getElem? hi
        simp [childRun] at this
      · intro i hi
        have := List.mem_of_getElem? hi
        simp [childRun] at this
      · simp [childRun, childPending, childCalls, h0]
    | snoc evs e ih =>
      have := ih.step e
      rw [childRun_snoc]
      have hc : childCalls (evs ++ [e]) = childCalls evs + childCalls [e] := by simp [childCalls, List.countP_append]
      rw [hc]
      exact this
  exact ⟨key.made, by have := key.once; omega⟩

example : (childRun 2 ([.call 0, .step 0] ++ (List.replicate 2 (undisturbed 1)).flatten ++ [.step 0, .step 0] ++
    (List.replicate 2 (undisturbed 1)).flatten)).made = [(1, 1), (1, 2), (0, 1), (1, 2), (1, 3)] := by decide

/-! ## C119 -/

theorem startRun_snoc (mesh : Mesh) (a : AppInfo) (n : Nat) (evs : List Nat) (i : Nat) :
    startRun mesh a n (evs ++ [i]) = startStep mesh a (startRun mesh a n evs) i := by
  simp [startRun, List.foldl_append]

/-- where a thread that holds the lock can be -/
def StartPC.inside : StartPC → Prop
  | .idle => False
  | .enter => False
  | _ => True

/-- the registration has been accepted -/
def Spec.Registered (mesh : Mesh) (a : AppInfo) (s : StartSt) : Prop :=
  ∃ k, s.log = List.replicate (k + 1) (appReq a) ∧ Accepts mesh (List.replicate k (appReq a)) (appReq a) ∧
    ∀ i, i < k → ¬ Accepts mesh (List.replicate i (appReq a)) (appReq a)

/-- every registration posted so far has been refused -/
def Spec.Refused (mesh : Mesh) (a : AppInfo) (s : StartSt) : Prop :=
  ∃ k, s.log = List.replicate k (appReq a) ∧ ∀ i, i < k → ¬ Accepts mesh (List.replicate i (appReq a)) (appReq a)

structure StartInv (mesh : Mesh) (a : AppInfo) (s : StartSt) : Prop where
  holder : ∀ (i : Nat) p, s.thr[i]? = some p → (p.inside ↔ s.lock = some i)
  free : ∀ (i : Nat), s.lock = some i → i < s.thr.length
  posted : if s.started then Registered mesh a s else
    (Refused mesh a s ∧ ∀ (i : Nat), s.thr[i]? ≠ some .set) ∨ (Registered mesh a s ∧ ∃ i : Nat, s.thr[i]? = some .set)
  atPost : ∀ (i : Nat), s.thr[i]? = some .post → s.started = false
  atSet : ∀ (i : Nat), s.thr[i]? = some .set → s.started = false
  ok : ∀ (i : Nat) b, (s.thr[i]? = some (.leave (.ok b)) ∨ (i, Except.ok b) ∈ s.done) → b = true ∧ s.started = true

theorem StartInv.step {mesh : Mesh} {a : AppInfo} {s : StartSt} (h : StartInv mesh a s) (i : Nat) :
    StartInv mesh a (startStep mesh a s i) := by
  unfold startStep
  cases hi : s.thr[i]? with
  | none => exact h
  | some p =>
    have hlt := (List.getElem?_eq_some_iff.1 hi).1
    -- what the others are doing while `i` is inside
    have others : p.inside → ∀ (j : Nat) q, j ≠ i → s.thr[j]? = some q → ¬ q.inside := by
      intro hp j q hne hj hq
      have h1 := (h.holder i p hi).1 hp
      have h2 := (h.holder j q hj).1 hq
      rw [h1] at h2
      cases h2
      exact hne rfl
    have get : ∀ (q : StartPC) (j : Nat) (r : StartPC), (s.thr.set i q)[j]? = some r →
        (j = i ∧ r = q) ∨ (j ≠ i ∧ s.thr[j]? = some r) := by
      intro q j r hj
      rw [List.getElem?_set] at hj
      split at hj
      · next e =>
        exact .inl ⟨e.symm, by cases hj; rfl⟩
      · next e => exact .inr ⟨fun h => e h.symm, hj⟩
    have noSet : p ≠ .set → (∀ q, q ≠ .set → (¬ ∃ j : Nat, s.thr[j]? = some .set) →
        ∀ j : Nat, (s.thr.set i q)[j]? ≠ some .set) := by
      intro _ q hq hn j hj
      rcases get q j _ hj with ⟨-, e⟩ | ⟨-, e⟩
      · exact hq e.symm
      · exact hn ⟨j, e⟩
    cases p with
    | idle =>
      dsimp only
      refine ⟨?_, by simpa using h.free, ?_, ?_, ?_, ?_⟩
      · intro j q hj
        rcases get _ j q hj with ⟨rfl, rfl⟩ | ⟨-, e⟩
        · have := h.holder _ _ hi
          simpa [StartPC.inside] using this
        · exact h.holder j q e
      · have := h.posted
        dsimp only
        split
        · next hs => rw [if_pos hs] at this; exact this
        · next hs =>
          rw [if_neg hs] at this
          rcases this with ⟨h1, h2⟩ | ⟨h1, j, h2⟩
          · exact .inl ⟨h1, noSet (by simp) _ (by simp) (fun ⟨j, hj⟩ => h2 j hj)⟩
          · refine .inr ⟨h1, j, ?_⟩
            rw [List.getElem?_set_ne (by intro e; subst e; rw [hi] at h2; cases h2)]
            exact h2
      · intro j hj
        rcases get _ j _ hj with ⟨-, e⟩ | ⟨-, e⟩
        · cases e
        · exact h.atPost j e
      · intro j hj
        rcases get _ j _ hj with ⟨-, e⟩ | ⟨-, e⟩
        · cases e
        · exact h.atSet j e
      · rintro j b (hj | hj)
        · rcases get _ j _ hj with ⟨-, e⟩ | ⟨-, e⟩
          · cases e
          · exact h.ok j b (.inl e)
        · exact h.ok j b (.inr hj)
    | enter =>
      dsimp only
      cases hl : s.lock with
      | some j => exact h
      | none =>
        have nobody : ∀ (j : Nat) q, s.thr[j]? = some q → ¬ q.inside := by
          intro j q hj hq
          have := (h.holder j q hj).1 hq
          rw [hl] at this
          cases this
        rw [if_neg (by simp)]
        refine ⟨?_, ?_, ?_, ?_, ?_, ?_⟩
        · intro j q hj
          rcases get _ j q hj with ⟨rfl, rfl⟩ | ⟨hne, e⟩
          · simp [StartPC.inside]
          · have := nobody j q e
            simp only [this, false_iff]
            intro e2
            cases e2
            exact hne rfl
        · intro j hj
          simp only [Option.some.injEq] at hj
          subst hj
          simpa using hlt
        · have := h.posted
          dsimp only
          split
          · next hs => rw [if_pos hs] at this; exact this
          · next hs =>
            rw [if_neg hs] at this
            rcases this with ⟨h1, h2⟩ | ⟨h1, j, h2⟩
            · exact .inl ⟨h1, noSet (by simp) _ (by simp) (fun ⟨j, hj⟩ => h2 j hj)⟩
            · exact absurd trivial (nobody j _ h2)
        · intro j hj
          rcases get _ j _ hj with ⟨-, e⟩ | ⟨-, e⟩
          · cases e
          · exact h.atPost j e
        · intro j hj
          rcases get _ j _ hj with ⟨-, e⟩ | ⟨-, e⟩
          · cases e
          · exact h.atSet j e
        · rintro j b (hj | hj)
          · rcases get _ j _ hj with ⟨-, e⟩ | ⟨-, e⟩
            · cases e
            · exact h.ok j b (.inl e)
          · exact h.ok j b (.inr hj)
    | check =>
      have oth := others trivial
      have hns : ∀ j : Nat, s.thr[j]? ≠ some .set := by
        intro j hj
        by_cases e : j = i
        · subst e; rw [hi] at hj; cases hj
        · exact oth j _ e hj trivial
      dsimp only
      refine ⟨?_, by simpa using h.free, ?_, ?_, ?_, ?_⟩
      · intro j q hj
        rcases get _ j q hj with ⟨rfl, rfl⟩ | ⟨-, e⟩
        · have := h.holder _ _ hi
          dsimp only
          rw [← this]
          split <;> simp [StartPC.inside]
        · exact h.holder j q e
      · have := h.posted
        dsimp only
        split
        · next hs => rw [if_pos hs] at this; exact this
        · next hs =>
          rw [if_neg hs] at this
          rcases this with ⟨h1, h2⟩ | ⟨h1, j, h2⟩
          · refine .inl ⟨h1, noSet (by simp) _ (by simp) (fun ⟨j, hj⟩ => h2 j hj)⟩
          · exact absurd h2 (hns j)
      · intro j hj
        rcases get _ j _ hj with ⟨-, e⟩ | ⟨-, e⟩
        · split at e
          · cases e
          · next hs => simpa using hs
        · exact h.atPost j e
      · intro j hj
        rcases get _ j _ hj with ⟨-, e⟩ | ⟨-, e⟩
        · split at e <;> cases e
        · exact h.atSet j e
      · rintro j b (hj | hj)
        · rcases get _ j _ hj with ⟨-, e⟩ | ⟨-, e⟩
          · split at e
            · next hs => cases e; exact ⟨rfl, hs⟩
            · cases e
          · exact h.ok j b (.inl e)
        · exact h.ok j b (.inr hj)
    | post =>
      have oth := others trivial
      have hns : ∀ j : Nat, s.thr[j]? ≠ some .set := by
        intro j hj
        by_cases e : j = i
        · subst e; rw [hi] at hj; cases hj
        · exact oth j _ e hj trivial
      have hst := h.atPost i hi
      obtain ⟨k, hk1, hk2⟩ : Refused mesh a s := by
        have := h.posted
        rw [if_neg (by simp [hst])] at this
        rcases this with ⟨h1, -⟩ | ⟨-, j, h2⟩
        · exact h1
        · exact absurd h2 (hns j)
      have hrep : s.log ++ [appReq a] = List.replicate (k + 1) (appReq a) := by
        rw [hk1, List.replicate_succ']
      rcases meshPost_accepts mesh s.log (py "configs/application") a.payload with ⟨d, h1, h2⟩ | ⟨e, h1, h2⟩
      · rw [h1]
        dsimp only
        refine ⟨?_, by simpa using h.free, ?_, ?_, ?_, ?_⟩
        · intro j q hj
          rcases get _ j q hj with ⟨rfl, rfl⟩ | ⟨-, e⟩
          · have := h.holder _ _ hi
            simpa [StartPC.inside] using this
          · exact h.holder j q e
        · rw [if_neg (by simp [hst])]
          refine .inr ⟨⟨k, hrep, by rw [← hk1]; exact h2, hk2⟩, i, ?_⟩
          simp [hlt]
        · intro j hj
          exact hst
        · intro j hj
          exact hst
        · rintro j b (hj | hj)
          · rcases get _ j _ hj with ⟨-, e⟩ | ⟨-, e⟩
            · cases e
            · exact h.ok j b (.inl e)
          · exact h.ok j b (.inr hj)
      · rw [h1]
        dsimp only
        refine ⟨?_, by simpa using h.free, ?_, ?_, ?_, ?_⟩
        · intro j q hj
          rcases get _ j q hj with ⟨rfl, rfl⟩ | ⟨-, e⟩
          · have := h.holder _ _ hi
            simpa [StartPC.inside] using this
          · exact h.holder j q e
        · rw [if_neg (by simp [hst])]
          refine .inl ⟨⟨k + 1, hrep, ?_⟩, noSet (by simp) _ (by simp) (fun ⟨j, hj⟩ => hns j hj)⟩
          intro m hm
          by_cases e : m = k
          · subst e
            rw [← hk1]
            exact h2
          · exact hk2 m (by omega)
        · intro j hj
          exact hst
        · intro j hj
          exact hst
        · rintro j b (hj | hj)
          · rcases get _ j _ hj with ⟨-, e⟩ | ⟨-, e⟩
            · cases e
            · exact h.ok j b (.inl e)
          · exact h.ok j b (.inr hj)
    | set =>
      have oth := others trivial
      have hst := h.atSet i hi
      have hreg : Registered mesh a s := by
        have := h.posted
        rw [if_neg (by simp [hst])] at this
        rcases this with ⟨-, h1⟩ | ⟨h1, -⟩
        · exact absurd hi (h1 i)
        · exact h1
      dsimp only
      refine ⟨?_, by simpa using h.free, ?_, ?_, ?_, ?_⟩
      · intro j q hj
        rcases get _ j q hj with ⟨rfl, rfl⟩ | ⟨-, e⟩
        · have := h.holder _ _ hi
          simpa [StartPC.inside] using this
        · exact h.holder j q e
      · rw [if_pos rfl]
        exact hreg
      · intro j hj
        rcases get _ j _ hj with ⟨-, e⟩ | ⟨hne, e⟩
        · cases e
        · exact absurd trivial (oth j _ hne e)
      · intro j hj
        rcases get _ j _ hj with ⟨-, e⟩ | ⟨hne, e⟩
        · cases e
        · exact absurd trivial (oth j _ hne e)
      · rintro j b (hj | hj)
        · rcases get _ j _ hj with ⟨-, e⟩ | ⟨-, e⟩
          · cases e; exact ⟨rfl, rfl⟩
          · exact ⟨(h.ok j b (.inl e)).1, rfl⟩
        · exact ⟨(h.ok j b (.inr hj)).1, rfl⟩
    | leave r =>
      have oth := others trivial
      have hns : ∀ j : Nat, s.thr[j]? ≠ some .set := by
        intro j hj
        by_cases e : j = i
        · subst e; rw [hi] at hj; cases hj
        · exact oth j _ e hj trivial
      dsimp only
      refine ⟨?_, fun j hj => (by cases hj), ?_, ?_, ?_, ?_⟩
      · intro j q hj
        rcases get _ j q hj with ⟨rfl, rfl⟩ | ⟨hne, e⟩
        · simp [StartPC.inside]
        · have := oth j q hne e
          simp [this]
      · have := h.posted
        dsimp only
        split
        · next hs => rw [if_pos hs] at this; exact this
        · next hs =>
          rw [if_neg hs] at this
          rcases this with ⟨h1, h2⟩ | ⟨h1, j, h2⟩
          · exact .inl ⟨h1, noSet (by simp) _ (by simp) (fun ⟨j, hj⟩ => h2 j hj)⟩
          · exact absurd h2 (hns j)
      · intro j hj
        rcases get _ j _ hj with ⟨-, e⟩ | ⟨-, e⟩
        · cases e
        · exact h.atPost j e
      · intro j hj
        rcases get _ j _ hj with ⟨-, e⟩ | ⟨-, e⟩
        · cases e
        · exact h.atSet j e
      · rintro j b (hj | hj)
        · rcases get _ j _ hj with ⟨-, e⟩ | ⟨-, e⟩
          · cases e
          · exact h.ok j b (.inl e)
        · simp only [List.mem_append, List.mem_singleton] at hj
          rcases hj with hj | hj
          · exact h.ok j b (.inr hj)
          · cases hj
            exact h.ok i b (.inl hi)

theorem StartInv.run (mesh : Mesh) (a : AppInfo) (n : Nat) (evs : List Nat) : StartInv mesh a (startRun mesh a n evs) := by
  induction evs using snoc_induct with
  | nil =>
    have hthr : ∀ (i : Nat) p, (startRun mesh a n []).thr[i]? = some p → p = .idle := by
      intro i p hi
      have := List.mem_of_getElem? hi
      exact (List.mem_replicate.1 this).2
    refine ⟨?_, fun i h => (by cases h), ?_, ?_, ?_, ?_⟩
    · intro i p hi
      rw [hthr i p hi]
      simp [StartPC.inside, startRun]
    · rw [if_neg (by simp [startRun])]
      refine .inl ⟨⟨0, rfl, fun i hi => absurd hi (by omega)⟩, fun i hi => ?_⟩
      cases hthr i _ hi
    · intro i hi
      cases hthr i _ hi
    · intro i hi
      cases hthr i _ hi
    · rintro i b (hi | hi)
      · cases hthr i _ hi
      · cases hi
  | snoc evs i ih =>
    rw [startRun_snoc]
    exact ih.step i

/-- C119. Any number of threads call `startup` of one `MeshClient`, any number of times, interleaved in any way. The
registrations posted are refused ones followed by at most one that is accepted, after which nothing is posted; a call that
has returned, returned `True` after the registration was accepted; and at most one thread is inside at a time. -/
theorem C119_startup_threads (mesh : Mesh) (a : AppInfo) (n : Nat) (evs : List Nat) :
    let s := startRun mesh a n evs
    (Refused mesh a s ∨ Registered mesh a s) ∧
    (∀ more, Registered mesh a s → (startRun mesh a n (evs ++ more)).log = s.log) ∧
    (∀ i b, (i, Except.ok b) ∈ s.done → b = true ∧ Registered mesh a s) ∧
    (∀ (i j : Nat) p q, s.thr[i]? = some p → s.thr[j]? = some q → p.inside → q.inside → i = j) := by
  intro s
  have hreg : ∀ s', StartInv mesh a s' → Refused mesh a s' ∨ Registered mesh a s' := by
    intro s' h
    have := h.posted
    split at this
    · exact .inr this
    · exact this.elim (fun h => .inl h.1) (fun h => .inr h.1)
  have h := StartInv.run mesh a n evs
  refine ⟨hreg _ h, ?_, ?_, ?_⟩
  · intro more hr
    have key : ∀ more, ∃ k, (startRun mesh a n (evs ++ more)).log = s.log ++ List.replicate k (appReq a) := by
      intro more
      induction more using snoc_induct with
      | nil => exact ⟨0, by simp [s]⟩
      | snoc more i ih =>
        obtain ⟨k, hk⟩ := ih
        rw [← List.append_assoc, startRun_snoc]
        generalize startRun mesh a n (evs ++ more) = t at hk ⊢
        unfold startStep
        split
        · exact ⟨k, hk⟩
        · exact ⟨k, hk⟩
        · split
          · exact ⟨k, hk⟩
          · exact ⟨k, hk⟩
        · exact ⟨k, hk⟩
        · refine ⟨k + 1, ?_⟩
          rw [List.replicate_succ', ← List.append_assoc, ← hk]
          rcases meshPost_accepts mesh t.log (py "configs/application") a.payload with ⟨d, h1, -⟩ | ⟨e, h1, -⟩ <;>
            (rw [h1]; rfl)
        · exact ⟨k, hk⟩
        · exact ⟨k, hk⟩
    obtain ⟨m, hm⟩ := key more
    obtain ⟨k, hk1, hk2, hk3⟩ := hr
    -- the accepted one is the last one
    rw [hm]
    cases m with
    | zero => simp
    | succ m =>
      exfalso
      have e : (startRun mesh a n (evs ++ more)).log = List.replicate (k + 1 + (m + 1)) (appReq a) := by
        rw [hm, hk1, List.replicate_append_replicate]
      rcases hreg _ (StartInv.run mesh a n (evs ++ more)) with ⟨k', h1, h2⟩ | ⟨k', h1, h2, h3⟩
      · have : k' = k + 1 + (m + 1) := by
          have := congrArg List.length (h1.symm.trans e)
          simpa using this
        exact h2 k (by omega) hk2
      · have : k' + 1 = k + 1 + (m + 1) := by
          have := congrArg List.length (h1.symm.trans e)
          simpa using this
        exact h3 k (by omega) hk2
  · intro i b hm
    obtain ⟨h1, h2⟩ := h.ok i b (.inr hm)
    refine ⟨h1, ?_⟩
    have := h.posted
    rw [if_pos h2] at this
    exact this
  · intro i j p q hi hj hp hq
    have h1 := (h.holder i p hi).1 hp
    have h2 := (h.holder j q hj).1 hq
    rw [h1] at h2
    cases h2
    rfl

/-- Three threads; the first registration is refused. -/
example :
    let mesh : Mesh := fun log _ => if log.length = 0 then .resp 503 .invalid else .resp 200 (.object [(py "success", .bool true)])
    let s := startRun mesh { appName := .none } 3 [0, 1, 2, 0, 1, 0, 0, 2, 0, 1, 1, 1, 1, 2, 1, 2, 2, 2]
    s.done = [(0, .error .connectionError), (1, .ok true), (2, .ok true)] ∧ s.log.length = 2 := by
  decide

end Bolt
