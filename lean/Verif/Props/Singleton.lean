import Verif.Model.Singleton
import Verif.Lemmas.Dict
/-!
# C160: one object per client class
-/
namespace Bolt

/-- all successful constructions of class `c` in the history give the same object -/
def OneObject (ops : List (ClassDef × Nat × Bool)) (c : ClassDef) : Prop :=
  ∀ (i j : Nat) a a' r r' o o', ops[i]? = some (c, a, r) → ops[j]? = some (c, a', r') →
    (sgRun {} ops).2[i]? = some (some o) → (sgRun {} ops).2[j]? = some (some o') → o = o'

/-- Full claim: the classes meant to be singletons have one object each. -/
def C160_full : Prop :=
  ∀ (ops : List (ClassDef × Nat × Bool)) (c : ClassDef), c.metaKeyword = true ∨ c.metaAttribute = true → OneObject ops c

/-- Assigning `__metaclass__` has no effect: each `Client(...)` is another object, and so for the other two classes. -/
theorem C160_violated : ¬ C160_full ∧
    ∀ c ∈ [clientClass, aioClientClass, meshClientClass], ¬ OneObject [(c, 1, false), (c, 2, false)] c := by
  have key : ∀ c ∈ [clientClass, aioClientClass, meshClientClass], ¬ OneObject [(c, 1, false), (c, 2, false)] c := by
    intro c hc h
    have := h 0 1 1 2 false false 0 1 rfl rfl
    simp only [List.mem_cons, List.not_mem_nil, or_false] at hc
    rcases hc with rfl | rfl | rfl <;> exact absurd (this (by decide) (by decide)) (by decide)
  exact ⟨fun h => key clientClass (by simp) (h _ _ (by decide)), key⟩

theorem SgSt.call_keeps (s : SgSt) (c : ClassDef) (a : Nat) (r : Bool) (k o : Nat) (h : s.instances.get? k = some o) :
    (s.call c a r).1.instances.get? k = some o := by
  unfold SgSt.call
  split
  · split
    · exact h
    · rename_i hn
      split
      · rename_i t p hnew
        have ht : t.instances = s.instances := by
          unfold SgSt.new at hnew; split at hnew <;> cases hnew; rfl
        show (t.instances.set c.id p).get? k = _
        rw [PyDict.get?_set, ht]
        split
        · rename_i e; subst e; rw [hn] at h; cases h
        · exact h
      · rename_i t hnew
        have ht : t.instances = s.instances := by
          unfold SgSt.new at hnew; split at hnew <;> cases hnew; rfl
        rw [ht]; exact h
  · unfold SgSt.new; split <;> exact h

theorem SgSt.call_stores (s : SgSt) (c : ClassDef) (a : Nat) (r : Bool) (o : Nat) (hc : c.isSingleton = true)
    (h : (s.call c a r).2 = some o) : (s.call c a r).1.instances.get? c.id = some o := by
  unfold SgSt.call at h ⊢
  rw [if_pos hc] at h ⊢
  split at h
  · rename_i p hp; cases h; exact hp
  · rename_i hn
    split at h
    · rename_i t p hnew
      cases h
      show (t.instances.set c.id o).get? c.id = _
      rw [PyDict.get?_set, if_pos rfl]
    · cases h

theorem sgRun_keeps (ops : List (ClassDef × Nat × Bool)) : ∀ (s : SgSt) (k o : Nat), s.instances.get? k = some o →
    (sgRun s ops).1.instances.get? k = some o := by
  induction ops with
  | nil => intro s k o h; exact h
  | cons op ops ih =>
    obtain ⟨c, a, r⟩ := op
    intro s k o h
    exact ih _ k o (s.call_keeps c a r k o h)

theorem sgRun_result (ops : List (ClassDef × Nat × Bool)) : ∀ (s : SgSt) (i : Nat) (c : ClassDef) a r o,
    c.isSingleton = true → ops[i]? = some (c, a, r) → (sgRun s ops).2[i]? = some (some o) →
    (sgRun s ops).1.instances.get? c.id = some o := by
  induction ops with
  | nil => intro s i c a r o _ h; simp at h
  | cons op ops ih =>
    obtain ⟨c', a', r'⟩ := op
    intro s i c a r o hc h1 h2
    cases i with
    | zero =>
      simp only [List.getElem?_cons_zero, Option.some.injEq, Prod.mk.injEq] at h1
      obtain ⟨rfl, rfl, rfl⟩ := h1
      simp only [sgRun, List.getElem?_cons_zero, Option.some.injEq] at h2
      exact sgRun_keeps ops _ _ _ (s.call_stores _ _ _ _ hc h2)
    | succ i =>
      simp only [sgRun, List.getElem?_cons_succ] at h1 h2
      exact ih _ i c a r o hc h1 h2

/-- Where `Singleton` is the metaclass, one thread gets one object, whatever else is constructed and whichever
constructors raise. -/
theorem C160_one_object_partial (ops : List (ClassDef × Nat × Bool)) (c : ClassDef) (hc : c.isSingleton = true) :
    OneObject ops c := by
  intro i j a a' r r' o o' hi hj hri hrj
  have h1 := sgRun_result ops {} i c a r o hc hi hri
  have h2 := sgRun_result ops {} j c a' r' o' hc hj hrj
  rw [h1] at h2
  exact Option.some.inj h2

/-- what has been made, for a class all of whose constructions go through `Singleton` -/
structure SgSt.Inv (s : SgSt) (k : Nat) : Prop where
  stored : ∀ o, s.instances.get? k = some o → ∃ a, s.objs[o]? = some (k, a)
  none : s.instances.get? k = none → ∀ x ∈ s.objs, x.1 ≠ k
  one : ∀ (o o' : Nat) a a', s.objs[o]? = some (k, a) → s.objs[o']? = some (k, a') → o = o'

theorem getElem?_append_singleton_eq {α} (l : List α) (x y : α) (i : Nat) (h : (l ++ [x])[i]? = some y) :
    l[i]? = some y ∨ (i = l.length ∧ y = x) := by
  rw [List.getElem?_append] at h
  split at h
  · exact .inl h
  · rcases Nat.eq_zero_or_pos (i - l.length) with h0 | h0
    · rw [h0] at h; simp at h; exact .inr ⟨by omega, h.symm⟩
    · rw [List.getElem?_eq_none (by simp; omega)] at h; cases h

theorem SgSt.Inv.call {s : SgSt} {k : Nat} (h : s.Inv k) (c : ClassDef) (a : Nat) (r : Bool)
    (hc : c.id = k → c.isSingleton = true) : (s.call c a r).1.Inv k := by
  have addOther : c.id ≠ k → ∀ (d : PyDict Nat Nat), d.get? k = s.instances.get? k →
      SgSt.Inv { instances := d, objs := s.objs ++ [(c.id, a)] } k := by
    intro hk d hd
    refine ⟨?_, ?_, ?_⟩
    · intro o ho
      obtain ⟨b, hb⟩ := h.stored o (by rw [← hd]; exact ho)
      exact ⟨b, by
        show (s.objs ++ [(c.id, a)])[o]? = _
        rw [List.getElem?_append_left (List.getElem?_eq_some_iff.1 hb).1]; exact hb⟩
    · intro hn x hx
      rcases List.mem_append.1 hx with hx | hx
      · exact h.none (by rw [← hd]; exact hn) x hx
      · simp at hx; subst hx; exact hk
    · intro o o' b b' h1 h2
      rcases getElem?_append_singleton_eq _ _ _ _ h1 with h1 | ⟨_, h1⟩
      · rcases getElem?_append_singleton_eq _ _ _ _ h2 with h2 | ⟨_, h2⟩
        · exact h.one o o' b b' h1 h2
        · cases h2; exact absurd rfl hk
      · cases h1; exact absurd rfl hk
  unfold SgSt.call
  by_cases hs : c.isSingleton = true
  · rw [if_pos hs]
    split
    · exact h
    · rename_i hn
      unfold SgSt.new
      cases r with
      | true => exact h
      | false =>
        simp only [Bool.false_eq_true, if_false]
        by_cases hk : c.id = k
        · subst hk
          refine ⟨?_, ?_, ?_⟩
          · intro o ho
            simp only [PyDict.get?_set, if_true] at ho
            cases ho
            exact ⟨a, by simp⟩
          · intro hn'; simp only [PyDict.get?_set, if_true] at hn'; cases hn'
          · intro o o' b b' h1 h2
            have no := h.none hn
            rcases getElem?_append_singleton_eq _ _ _ _ h1 with h1 | ⟨h1, _⟩
            · exact absurd rfl (no _ (List.mem_of_getElem? h1))
            · rcases getElem?_append_singleton_eq _ _ _ _ h2 with h2 | ⟨h2, _⟩
              · exact absurd rfl (no _ (List.mem_of_getElem? h2))
              · omega
        · exact addOther hk _ (by rw [PyDict.get?_set, if_neg hk])
  · rw [if_neg hs]
    have hk : c.id ≠ k := fun e => hs (hc e)
    unfold SgSt.new
    cases r with
    | true => exact h
    | false => exact addOther hk _ rfl

/-- Where `Singleton` is the metaclass: at most one object of the class is ever made, all constructions give it, and
therefore different classes give different objects. -/
theorem C160_made_once_partial (ops : List (ClassDef × Nat × Bool)) (c : ClassDef) (hc : c.isSingleton = true)
    (hall : ∀ op ∈ ops, op.1.id = c.id → op.1 = c) :
    ((sgRun {} ops).1.objs.filter fun x => x.1 == c.id).length ≤ 1 ∧
    ∀ (i : Nat) a r o, ops[i]? = some (c, a, r) → (sgRun {} ops).2[i]? = some (some o) →
      ∃ a', (sgRun {} ops).1.objs[o]? = some (c.id, a') := by
  have inv : ∀ (ops : List (ClassDef × Nat × Bool)) (s : SgSt), (∀ op ∈ ops, op.1.id = c.id → op.1 = c) → s.Inv c.id →
      (sgRun s ops).1.Inv c.id := by
    intro ops
    induction ops with
    | nil => intro s _ h; exact h
    | cons op ops ih =>
      obtain ⟨d, a, r⟩ := op
      intro s hall h
      refine ih _ (fun op' h' => hall op' (by simp [h'])) (h.call d a r fun e => ?_)
      have : d = c := hall (d, a, r) (by simp) e
      rw [this]; exact hc
  have hI := inv ops {} hall ⟨by intro o h; exact absurd h (by simp [PyDict.get?]), by simp, by simp⟩
  refine ⟨?_, fun i a r o hi hr => hI.stored o (sgRun_result ops {} i c a r o hc hi hr)⟩
  have one := hI.one
  generalize (sgRun {} ops).1.objs = l at one
  clear hI inv hall hc ops
  have gen : ∀ (l : List (Nat × Nat)), (∀ (o o' : Nat) a a', l[o]? = some (c.id, a) → l[o']? = some (c.id, a') → o = o') →
      (l.filter fun x => x.1 == c.id).length ≤ 1 := by
    intro l
    induction l with
    | nil => intro _; simp
    | cons x l ih =>
      intro one
      by_cases hx : x.1 = c.id
      · have : l.filter (fun x => x.1 == c.id) = [] := by
          rw [List.filter_eq_nil_iff]
          intro y hy hyc
          obtain ⟨j, hj⟩ := List.mem_iff_getElem?.1 hy
          have := one 0 (j + 1) x.2 y.2 (by simp [← hx]) (by simp [hj, ← (beq_iff_eq.1 hyc)])
          omega
        simp [hx, this]
      · simp only [List.filter_cons, beq_iff_eq, hx, if_false]
        exact ih fun o o' a a' h1 h2 => by
          have := one (o + 1) (o' + 1) a a' (by simpa using h1) (by simpa using h2); omega
  exact gen l one

/-! ### Threads -/

/-- two calls that look before either stores its object make two objects and return different ones -/
theorem C160_threads_violated : ∃ evs, (sgThreads evs).calls = [.done 0, .done 1] :=
  ⟨[.call, .call, .step 0, .step 1, .step 0, .step 1, .step 0, .step 0, .step 1, .step 1], by decide⟩

theorem SgThreads.step_inst (s : SgThreads) (ev : SgEv) (h : s.inst.isSome) : (s.step ev).inst.isSome := by
  cases ev with
  | call => exact h
  | step i =>
    simp only [SgThreads.step]
    split <;> try exact h
    · rfl
    · split <;> exact h

/-- Once a call has returned, the calls that begin later construct nothing. -/
theorem C160_threads_partial (evs evs' : List SgEv) (o : Nat) (hd : SgPc.done o ∈ (sgThreads evs).calls) (i : Nat) (pc : SgPc)
    (hi : (sgThreads evs).calls.length ≤ i) (hpc : (sgThreads (evs ++ evs')).calls[i]? = some pc) :
    pc = .start ∨ pc = .reading ∨ ∃ o', pc = .done o' ∧ o' < (sgThreads (evs ++ evs')).made := by
  -- what holds in every state
  have base : ∀ (evs : List SgEv) (s : SgThreads), ((∀ o, SgPc.done o ∈ s.calls → s.inst.isSome) ∧
      (∀ o, s.inst = some o → o < s.made) ∧ (∀ o, SgPc.storing o ∈ s.calls → o < s.made) ∧
      (∀ o, SgPc.done o ∈ s.calls → o < s.made)) →
      (let t := evs.foldl SgThreads.step s
       (∀ o, SgPc.done o ∈ t.calls → t.inst.isSome) ∧ (∀ o, t.inst = some o → o < t.made) ∧
       (∀ o, SgPc.storing o ∈ t.calls → o < t.made) ∧ (∀ o, SgPc.done o ∈ t.calls → o < t.made)) := by
    intro evs
    induction evs with
    | nil => exact fun s h => h
    | cons ev evs ih =>
      intro s ⟨h1, h2, h3, h4⟩
      refine ih (s.step ev) ?_
      cases ev with
      | call =>
        have mem : ∀ (x : SgPc), x ≠ .start → x ∈ s.calls ++ [.start] → x ∈ s.calls := by
          intro x hx h; simpa [hx] using h
        exact ⟨fun o h => h1 o (mem _ (by simp) h), h2, fun o h => h3 o (mem _ (by simp) h),
          fun o h => h4 o (mem _ (by simp) h)⟩
      | step i =>
        have mem : ∀ (x y : SgPc), x ≠ y → x ∈ s.calls.set i y → x ∈ s.calls := fun x y hx h =>
          (List.mem_or_eq_of_mem_set h).resolve_right hx
        simp only [SgThreads.step]
        split
        · have ne : ∀ (x : SgPc), x ≠ .reading → x ≠ .making → x ≠ if s.inst.isSome then .reading else .making := by
            intro x h h'; split <;> assumption
          exact ⟨fun o h => h1 o (mem _ _ (ne _ (by simp) (by simp)) h), h2,
            fun o h => h3 o (mem _ _ (ne _ (by simp) (by simp)) h), fun o h => h4 o (mem _ _ (ne _ (by simp) (by simp)) h)⟩
        · refine ⟨fun o h => h1 o (mem _ _ (by simp) h), fun o h => Nat.lt_succ_of_lt (h2 o h), fun o h => ?_,
            fun o h => Nat.lt_succ_of_lt (h4 o (mem _ _ (by simp) h))⟩
          rcases List.mem_or_eq_of_mem_set h with h | h
          · exact Nat.lt_succ_of_lt (h3 o h)
          · cases h; exact Nat.lt_succ_self _
        · rename_i o ho
          have ho := h3 o (List.mem_of_getElem? ho)
          exact ⟨fun _ _ => rfl, fun o' h => (by cases h; exact ho), fun o h => h3 o (mem _ _ (by simp) h),
            fun o h => h4 o (mem _ _ (by simp) h)⟩
        · split
          · rename_i o ho
            refine ⟨fun _ _ => by rw [ho]; rfl, h2, fun o h => h3 o (mem _ _ (by simp) h), fun o' h => ?_⟩
            rcases List.mem_or_eq_of_mem_set h with h | h
            · exact h4 o' h
            · cases h; exact h2 o ho
          · exact ⟨h1, h2, h3, h4⟩
        · exact ⟨h1, h2, h3, h4⟩
  have b := base evs {} (by simp)
  have hs : (sgThreads evs).inst.isSome := b.1 o hd
  have later : ∀ (evs' : List SgEv) (s : SgThreads) (n : Nat), s.inst.isSome →
      (∀ (i : Nat) pc, n ≤ i → s.calls[i]? = some pc → pc = .start ∨ pc = .reading ∨ ∃ o, pc = .done o) →
      ∀ (i : Nat) pc, n ≤ i → (evs'.foldl SgThreads.step s).calls[i]? = some pc →
        pc = .start ∨ pc = .reading ∨ ∃ o, pc = .done o := by
    intro evs'
    induction evs' with
    | nil => exact fun s n _ h => h
    | cons ev evs' ih =>
      intro s n hi h
      refine ih (s.step ev) n (s.step_inst ev hi) ?_
      intro j pc hj hpc
      cases ev with
      | call =>
        simp only [SgThreads.step] at hpc
        rcases getElem?_append_singleton_eq _ _ _ _ hpc with hpc | ⟨_, rfl⟩
        · exact h j pc hj hpc
        · exact .inl rfl
      | step k =>
        have upd : ∀ (x y : SgPc), s.calls[k]? = some x → (s.calls.set k y)[j]? = some pc →
            s.calls[j]? = some pc ∨ (s.calls[j]? = some x ∧ pc = y) := by
          intro x y hx h
          rw [List.getElem?_set] at h
          split at h
          · rename_i e; subst e
            split at h
            · exact .inr ⟨hx, (Option.some.inj h).symm⟩
            · cases h
          · exact .inl h
        simp only [SgThreads.step] at hpc
        split at hpc
        · rename_i hk
          rcases upd _ _ hk hpc with h' | ⟨_, h'⟩
          · exact h j pc hj h'
          · rw [if_pos hi] at h'; exact .inr (.inl h')
        · rename_i hk
          rcases upd _ _ hk hpc with h' | ⟨h', _⟩
          · exact h j pc hj h'
          · have := h j _ hj h'; simp at this
        · rename_i o hk
          rcases upd _ _ hk hpc with h' | ⟨_, h'⟩
          · exact h j pc hj h'
          · exact .inr (.inl h')
        · rename_i hk
          split at hpc
          · rename_i o _
            rcases upd _ _ hk hpc with h' | ⟨_, h'⟩
            · exact h j pc hj h'
            · exact .inr (.inr ⟨o, h'⟩)
          · exact h j pc hj hpc
        · exact h j pc hj hpc
  have hfold : sgThreads (evs ++ evs') = evs'.foldl SgThreads.step (sgThreads evs) := by
    simp only [sgThreads, List.foldl_append]
  have l := later evs' (sgThreads evs) (sgThreads evs).calls.length hs
    (fun i pc hi h => absurd (List.getElem?_eq_some_iff.1 h).1 (by omega)) i pc hi (by rw [← hfold]; exact hpc)
  have b' := (base (evs ++ evs') {} (by simp)).2.2.2
  rcases l with l | l | ⟨o', rfl⟩
  · exact .inl l
  · exact .inr (.inl l)
  · exact .inr (.inr ⟨o', rfl, b' o' (List.mem_of_getElem? hpc)⟩)

/-! ### Examples -/

-- the three classes are different ones
example : clientClass.id ≠ aioClientClass.id ∧ aioClientClass.id ≠ meshClientClass.id ∧ clientClass.id ≠ meshClientClass.id := by decide

-- a class with the keyword: the first constructor raises, the second call makes the object, the third gets it
example : sgRun {} [({ id := 7, metaKeyword := true }, 1, true), ({ id := 7, metaKeyword := true }, 2, false),
    (clientClass, 3, false), ({ id := 7, metaKeyword := true }, 4, false), (clientClass, 5, false)] =
    ({ instances := [(7, 0)], objs := [(7, 2), (0, 3), (0, 5)] }, [none, some 0, some 1, some 0, some 2]) := by decide

-- a call that begins when another one has returned gets the stored object
example : (sgThreads [.call, .step 0, .step 0, .step 0, .step 0, .call, .step 1, .step 1]).calls = [.done 0, .done 0] := by
  decide

end Bolt
