import Verif.Spec.Refs
/-!
# Reference counting: invariants
-/
namespace Bolt
open Spec

theorem getElem?_modify_eq' {α} (l : List α) (i j : Nat) (f : α → α) :
    (l.modify i f)[j]? = if i = j then l[j]?.map f else l[j]? := by
  rw [List.getElem?_modify]; split <;> simp_all

theorem RSt.alive_iff {s : RSt} {o : Nat} : s.alive o = true ↔ ∃ x, s.objs[o]? = some x ∧ x.freed = false := by
  unfold RSt.alive; cases s.objs[o]? <;> simp

theorem RSt.sum_zero {l : List Nat} : l.sum = 0 ↔ ∀ n ∈ l, n = 0 := by
  induction l with
  | nil => simp
  | cons a l ih => simp [ih]

theorem RSt.count_zero {s : RSt} {o : Nat} :
    s.count o = 0 ↔ o ∉ s.vars ∧ ∀ (x : Nat) (a : RObj), s.objs[x]? = some a → a.freed = false → o ∉ a.refs := by
  unfold RSt.count
  rw [Nat.add_eq_zero_iff, List.count_eq_zero, RSt.sum_zero]
  constructor
  · rintro ⟨h1, h2⟩
    refine ⟨h1, fun x a hx hf => ?_⟩
    have := h2 (a.refs.count o) (List.mem_map.2 ⟨a, List.mem_filter.2 ⟨List.mem_of_getElem? hx, by simp [hf]⟩, rfl⟩)
    exact List.count_eq_zero.1 this
  · rintro ⟨h1, h2⟩
    refine ⟨h1, fun n hn => ?_⟩
    obtain ⟨a, ha, rfl⟩ := List.mem_map.1 hn
    obtain ⟨ha, hf⟩ := List.mem_filter.1 ha
    obtain ⟨x, hx⟩ := List.mem_iff_getElem?.1 ha
    exact List.count_eq_zero.2 (h2 x a hx (by simpa using hf))

/-! ### Freeing -/

theorem RSt.free_get {s : RSt} {o x : Nat} : (s.free o).objs[x]? =
    if o = x then s.objs[x]?.map fun a => { a with freed := true, closed := a.closed || a.kind == .conn }
    else s.objs[x]? := getElem?_modify_eq' ..

/-- an invariant that freeing an object without references keeps, is kept by the sweep -/
theorem RSt.sweep_keeps {P : RSt → Prop} (h : ∀ s o, P s → s.alive o = true → s.count o = 0 → P (s.free o)) :
    ∀ n s, P s → P (s.sweep n) := by
  intro n
  induction n with
  | zero => exact fun s hs => hs
  | succ n ih =>
    intro s hs
    rw [RSt.sweep]
    split
    · exact hs
    · rename_i o ho
      have := List.find?_some ho
      simp only [Bool.and_eq_true, beq_iff_eq] at this
      exact ih _ (h s o hs this.1 this.2)

theorem RSt.sweep_vars (n : Nat) (s : RSt) : (s.sweep n).vars = s.vars :=
  RSt.sweep_keeps (P := fun t => t.vars = s.vars) (fun _ _ h _ _ => h) n s rfl

theorem RSt.sweep_length (n : Nat) (s : RSt) : (s.sweep n).objs.length = s.objs.length :=
  RSt.sweep_keeps (P := fun t => t.objs.length = s.objs.length) (fun _ _ h _ _ => by simpa [RSt.free] using h) n s rfl

/-- number of objects that have not been freed -/
def RSt.living (s : RSt) : Nat := s.objs.countP fun x => !x.freed

theorem countP_modify_lt {α} (p : α → Bool) (f : α → α) : ∀ (l : List α) (i : Nat) (x : α), l[i]? = some x → p x = true →
    p (f x) = false → (l.modify i f).countP p + 1 = l.countP p
  | [], _, _, h, _, _ => by simp at h
  | a :: l, 0, x, h, h1, h2 => by
    simp at h; subst h; simp [List.modify_cons, h1, h2]
  | a :: l, i + 1, x, h, h1, h2 => by
    have := countP_modify_lt p f l i x (by simpa using h) h1 h2
    simp only [List.modify_succ_cons, List.countP_cons]; omega

theorem RSt.free_living {s : RSt} {o : Nat} (h : s.alive o = true) : (s.free o).living + 1 = s.living := by
  obtain ⟨x, hx, hf⟩ := RSt.alive_iff.1 h
  exact countP_modify_lt _ _ _ _ x hx (by simp [hf]) (by simp)

theorem RSt.sweep_done : ∀ (n : Nat) (s : RSt), s.living ≤ n → ∀ o, (s.sweep n).alive o = true → (s.sweep n).count o ≠ 0 := by
  intro n
  induction n with
  | zero =>
    intro s hs o ho
    obtain ⟨x, hx, hf⟩ := RSt.alive_iff.1 ho
    have : s.living = 0 := by omega
    unfold RSt.living at this
    rw [List.countP_eq_zero] at this
    have := this x (List.mem_of_getElem? hx)
    simp [hf] at this
  | succ n ih =>
    intro s hs
    rw [RSt.sweep]
    split
    · rename_i hn
      intro o ho hc
      have ho' := ho
      obtain ⟨x, hx, hf⟩ := RSt.alive_iff.1 ho
      have := List.find?_eq_none.1 hn o (List.mem_range.2 (List.getElem?_eq_some_iff.1 hx).1)
      simp [ho', hc] at this
    · rename_i o ho
      have := List.find?_some ho
      simp only [Bool.and_eq_true, beq_iff_eq] at this
      have := RSt.free_living this.1
      exact ih _ (by omega)

/-! ### What holds in every run -/

/-- what variables and living objects refer to is alive; freed connections are closed -/
structure RSt.Sound (s : RSt) : Prop where
  vars : ∀ o ∈ s.vars, s.alive o = true
  refs : ∀ (x : Nat) a, s.objs[x]? = some a → a.freed = false → ∀ o ∈ a.refs, s.alive o = true
  bound : ∀ (x : Nat) a, s.objs[x]? = some a → ∀ o ∈ a.refs, o < s.objs.length
  freed : ∀ (x : Nat) a, s.objs[x]? = some a → a.freed = true → a.kind = .conn → a.closed = true

theorem RSt.alive_lt {s : RSt} {o : Nat} (h : s.alive o = true) : o < s.objs.length := by
  obtain ⟨x, hx, _⟩ := RSt.alive_iff.1 h
  exact (List.getElem?_eq_some_iff.1 hx).1

theorem RSt.Sound.free {s : RSt} (h : s.Sound) {o : Nat} (hc : s.count o = 0) : (s.free o).Sound := by
  obtain ⟨h1, h2⟩ := RSt.count_zero.1 hc
  have keep : ∀ p, p ≠ o → s.alive p = true → (s.free o).alive p = true := by
    intro p hp ha
    obtain ⟨x, hx, hf⟩ := RSt.alive_iff.1 ha
    exact RSt.alive_iff.2 ⟨x, by rw [RSt.free_get, if_neg (Ne.symm hp)]; exact hx, hf⟩
  refine ⟨fun p hp => keep p (fun e => h1 (e ▸ hp)) (h.vars p hp), ?_, ?_, ?_⟩
  · intro x a hx hf p hp
    rw [RSt.free_get] at hx
    split at hx
    · cases h3 : s.objs[x]? with
      | none => rw [h3] at hx; cases hx
      | some b => rw [h3] at hx; cases hx; cases hf
    · exact keep p (fun e => h2 x a hx hf (e ▸ hp)) (h.refs x a hx hf p hp)
  · intro x a hx p hp
    rw [RSt.free_get] at hx
    have hl : (s.free o).objs.length = s.objs.length := by simp [RSt.free]
    rw [hl]
    split at hx
    · cases h3 : s.objs[x]? with
      | none => rw [h3] at hx; cases hx
      | some b => rw [h3] at hx; cases hx; exact h.bound x b h3 p hp
    · exact h.bound x a hx p hp
  · intro x a hx hf hk
    rw [RSt.free_get] at hx
    split at hx
    · cases h3 : s.objs[x]? with
      | none => rw [h3] at hx; cases hx
      | some b => rw [h3] at hx; cases hx; simp only at hk; simp [hk]
    · exact h.freed x a hx hf hk

theorem RSt.make_get {s : RSt} {n : RObj} {x : Nat} {a : RObj} :
    (s.make n).objs[x]? = some a ↔ s.objs[x]? = some a ∨ (x = s.objs.length ∧ a = n) := by
  simp only [RSt.make, List.getElem?_append]
  split
  · rename_i h
    constructor
    · exact Or.inl
    · rintro (h' | ⟨h', _⟩)
      · exact h'
      · omega
  · rename_i h
    rw [List.getElem?_eq_none (by omega : s.objs.length ≤ x)]
    rcases Nat.lt_or_ge s.objs.length x with h1 | h1
    · rw [List.getElem?_eq_none (by simp; omega)]; simp; omega
    · have : x = s.objs.length := by omega
      subst this; simp [eq_comm]

theorem RSt.make_alive {s : RSt} {n : RObj} {o : Nat} (h : s.alive o = true) : (s.make n).alive o = true := by
  obtain ⟨x, hx, hf⟩ := RSt.alive_iff.1 h
  exact RSt.alive_iff.2 ⟨x, RSt.make_get.2 (.inl hx), hf⟩

theorem RSt.Sound.make {s : RSt} (h : s.Sound) (n : RObj) (hn : n.freed = false)
    (hr : ∀ o ∈ n.refs, o = s.objs.length ∨ s.alive o = true) : (s.make n).Sound := by
  have new : (s.make n).alive s.objs.length = true := RSt.alive_iff.2 ⟨n, RSt.make_get.2 (.inr ⟨rfl, rfl⟩), hn⟩
  refine ⟨?_, ?_, ?_, ?_⟩
  · intro o ho
    rcases List.mem_append.1 ho with ho | ho
    · exact RSt.make_alive (h.vars o ho)
    · simp at ho; subst ho; exact new
  · intro x a hx hf o ho
    rcases RSt.make_get.1 hx with hx | ⟨_, rfl⟩
    · exact RSt.make_alive (h.refs x a hx hf o ho)
    · rcases hr o ho with rfl | ha
      · exact new
      · exact RSt.make_alive ha
  · intro x a hx o ho
    have hl : (s.make n).objs.length = s.objs.length + 1 := by simp [RSt.make]
    rcases RSt.make_get.1 hx with hx | ⟨_, rfl⟩
    · have := h.bound x a hx o ho; omega
    · rcases hr o ho with rfl | ha
      · omega
      · have := RSt.alive_lt ha; omega
  · intro x a hx hf hk
    rcases RSt.make_get.1 hx with hx | ⟨_, rfl⟩
    · exact h.freed x a hx hf hk
    · rw [hn] at hf; cases hf

/-- the references and the closed flag of one object change -/
theorem RSt.Sound.upd {s : RSt} (h : s.Sound) (x : Nat) (f : RObj → RObj) (vs : List Nat)
    (hf : ∀ a, (f a).freed = a.freed ∧ (f a).kind = a.kind ∧ (a.closed = true → (f a).closed = true))
    (hr : ∀ a, s.objs[x]? = some a → ∀ o ∈ (f a).refs, o ∈ a.refs ∨ o ∈ s.vars)
    (hv : ∀ o ∈ vs, s.alive o = true) : RSt.Sound { objs := s.objs.modify x f, vars := vs } := by
  have get : ∀ (y : Nat) (b : RObj), (s.objs.modify x f)[y]? = some b →
      ∃ a, s.objs[y]? = some a ∧ (b = a ∨ (x = y ∧ b = f a)) := by
    intro y b hb
    rw [getElem?_modify_eq'] at hb
    split at hb
    · rename_i e
      cases h3 : s.objs[y]? with
      | none => rw [h3] at hb; cases hb
      | some a => rw [h3] at hb; cases hb; exact ⟨a, rfl, .inr ⟨e, rfl⟩⟩
    · exact ⟨b, hb, .inl rfl⟩
  have keep : ∀ p, s.alive p = true → RSt.alive { objs := s.objs.modify x f, vars := vs } p = true := by
    intro p hp
    obtain ⟨a, ha, hfr⟩ := RSt.alive_iff.1 hp
    refine RSt.alive_iff.2 ?_
    by_cases e : x = p
    · refine ⟨f a, ?_, by rw [(hf a).1]; exact hfr⟩
      show (s.objs.modify x f)[p]? = _
      rw [getElem?_modify_eq', if_pos e, ha]; rfl
    · refine ⟨a, ?_, hfr⟩
      show (s.objs.modify x f)[p]? = _
      rw [getElem?_modify_eq', if_neg e, ha]
  refine ⟨fun o ho => keep o (hv o ho), ?_, ?_, ?_⟩
  · intro y b hb hfr o ho
    obtain ⟨a, ha, rfl | ⟨rfl, rfl⟩⟩ := get y b hb
    · exact keep o (h.refs y _ ha hfr o ho)
    · rcases hr a ha o ho with h1 | h1
      · exact keep o (h.refs _ a ha (by rw [← (hf a).1]; exact hfr) o h1)
      · exact keep o (h.vars o h1)
  · intro y b hb o ho
    show o < (s.objs.modify x f).length
    rw [List.length_modify]
    obtain ⟨a, ha, rfl | ⟨rfl, rfl⟩⟩ := get y b hb
    · exact h.bound y _ ha o ho
    · rcases hr a ha o ho with h1 | h1
      · exact h.bound _ a ha o h1
      · exact RSt.alive_lt (h.vars o h1)
  · intro y b hb hfr hk
    obtain ⟨a, ha, rfl | ⟨rfl, rfl⟩⟩ := get y b hb
    · exact h.freed y _ ha hfr hk
    · exact (hf a).2.2 (h.freed _ a ha (by rw [← (hf a).1]; exact hfr) (by rw [← (hf a).2.1]; exact hk))

theorem RSt.mem_refs {s : RSt} {x y : Nat} (h : y ∈ (s.objs[x]?.map RObj.refs).getD []) :
    ∃ a, s.objs[x]? = some a ∧ y ∈ a.refs := by
  cases hx : s.objs[x]? with
  | none => rw [hx] at h; simp at h
  | some a => rw [hx] at h; exact ⟨a, rfl, by simpa using h⟩

theorem RSt.Sound.varsOf {s : RSt} (h : s.Sound) {vs : List Nat} (hv : ∀ o ∈ vs, s.alive o = true) :
    RSt.Sound { s with vars := vs } := ⟨hv, h.refs, h.bound, h.freed⟩

theorem RSt.Sound.reached {s : RSt} (h : s.Sound) {x y : Nat} (hx : x ∈ s.vars)
    (hy : y ∈ (s.objs[x]?.map RObj.refs).getD []) : s.alive y = true := by
  obtain ⟨a, ha, hya⟩ := RSt.mem_refs hy
  obtain ⟨b, hb, hf⟩ := RSt.alive_iff.1 (h.vars x hx)
  rw [ha] at hb; cases hb
  exact h.refs x a ha hf y hya

theorem RSt.Sound.act {s : RSt} (h : s.Sound) (op : ROp) : (s.act op).Sound := by
  have app : ∀ y, s.alive y = true → ∀ o ∈ s.vars ++ [y], s.alive o = true := by
    intro y hy o ho
    rcases List.mem_append.1 ho with ho | ho
    · exact h.vars o ho
    · simp at ho; subst ho; exact hy
  cases op with
  | opens => exact h.make _ rfl (by simp)
  | pool => exact h.make _ rfl (by simp)
  | manager => exact h.make _ rfl (by simp)
  | error p =>
    simp only [RSt.act]; split
    · rename_i hp
      exact h.make _ rfl (by simp; exact .inr (h.vars p hp))
    · exact h
  | enter x y =>
    simp only [RSt.act]; split
    · rename_i hp
      refine h.upd x _ s.vars (fun a => ⟨rfl, rfl, id⟩) ?_ h.vars
      intro a ha o ho
      rcases List.mem_append.1 ho with ho | ho
      · exact .inl ho
      · simp at ho; subst ho; exact .inr hp.2.1
    · exact h
  | take x y =>
    simp only [RSt.act]; split
    · rename_i hp
      exact h.upd x _ _ (fun a => ⟨rfl, rfl, id⟩) (fun a _ o ho => .inl (List.mem_of_mem_erase ho))
        (app y (h.reached hp.1 hp.2.1))
    · exact h
  | look x y =>
    simp only [RSt.act]; split
    · rename_i hp; exact h.varsOf (app y (h.reached hp.1 hp.2))
    · exact h
  | copy o =>
    simp only [RSt.act]; split
    · rename_i hp; exact h.varsOf (app o (h.vars o hp))
    · exact h
  | drop o => exact h.varsOf fun p hp => h.vars p (List.mem_of_mem_erase hp)
  | close c =>
    simp only [RSt.act]; split
    · exact h.upd c _ s.vars (fun a => ⟨rfl, rfl, fun _ => rfl⟩) (fun a _ o ho => .inl ho) h.vars
    · exact h

theorem RSt.Sound.step {s : RSt} (h : s.Sound) (op : ROp) : (rStep s op).Sound :=
  RSt.sweep_keeps (fun _ _ h _ hc => h.free hc) _ _ (h.act op)

theorem RSt.Sound.steps {s : RSt} (h : s.Sound) (ops : List ROp) : (ops.foldl rStep s).Sound := by
  induction ops generalizing s with
  | nil => exact h
  | cons op ops ih => exact ih (h.step op)

theorem RSt.Sound.empty : RSt.Sound {} := ⟨by simp, by simp, by simp, by simp⟩

theorem rRun_sound (ops : List ROp) : (rRun ops).Sound := RSt.Sound.empty.steps ops

/-- after every step each living object has a reference -/
theorem rStep_swept (s : RSt) (op : ROp) : ∀ o, (rStep s op).alive o = true → (rStep s op).count o ≠ 0 :=
  RSt.sweep_done _ _ (List.countP_le_length)

/-! ### Objects made from number `n` on: kinds have decreasing rank -/

structure RSt.Strat (n : Nat) (s : RSt) : Prop where
  old : ∀ (x : Nat) a, s.objs[x]? = some a → x < n → ∀ o ∈ a.refs, o < n
  new : ∀ (x : Nat) a, s.objs[x]? = some a → n ≤ x → ∀ o ∈ a.refs, ∃ b, s.objs[o]? = some b ∧ b.kind.rank < a.kind.rank

theorem RSt.Strat.usable {n : Nat} {s : RSt} (h : s.Strat n) (hc : ∀ o, s.alive o = true → s.count o ≠ 0) :
    ∀ (k : Nat) (o : Nat) a, s.objs[o]? = some a → a.freed = false → n ≤ o → 3 ≤ a.kind.rank + k →
      ∃ v ∈ s.vars, n ≤ v ∧ Usable s o := by
  intro k
  induction k with
  | zero =>
    intro o a ha hf hn hk
    refine Classical.byContradiction fun hno => hc o (RSt.alive_iff.2 ⟨a, ha, hf⟩) (RSt.count_zero.2 ⟨?_, ?_⟩)
    · exact fun hv => hno ⟨o, hv, hn, .var hv⟩
    · intro x b hb hfb ho
      rcases Nat.lt_or_ge x n with hx | hx
      · have := h.old x b hb hx o ho; omega
      · obtain ⟨a', ha', hr⟩ := h.new x b hb hx o ho
        rw [ha] at ha'; cases ha'
        have : b.kind.rank ≤ 3 := by cases b.kind <;> decide
        omega
  | succ k ih =>
    intro o a ha hf hn hk
    refine Classical.byContradiction fun hno => hc o (RSt.alive_iff.2 ⟨a, ha, hf⟩) (RSt.count_zero.2 ⟨?_, ?_⟩)
    · exact fun hv => hno ⟨o, hv, hn, .var hv⟩
    · intro x b hb hfb ho
      rcases Nat.lt_or_ge x n with hx | hx
      · have := h.old x b hb hx o ho; omega
      · obtain ⟨a', ha', hr⟩ := h.new x b hb hx o ho
        rw [ha] at ha'; cases ha'
        obtain ⟨v, hv, hvn, hu⟩ := ih x b hb hfb hx (by omega)
        exact hno ⟨v, hv, hvn, .ref hu hb ho⟩

/-- operations that make no error and put nothing into objects before number `n` -/
def ROp.After (n : Nat) : ROp → Prop
  | .error _ => False
  | .enter x _ => n ≤ x
  | _ => True

theorem RSt.Strat.mono {n : Nat} {s t : RSt} (h : s.Strat n)
    (fwd : ∀ (x : Nat) a, s.objs[x]? = some a → ∃ b, t.objs[x]? = some b ∧ b.kind = a.kind)
    (bwd : ∀ (x : Nat) b, t.objs[x]? = some b → ∃ a, s.objs[x]? = some a ∧ b.kind = a.kind ∧
      ∀ o ∈ b.refs, o ∈ a.refs ∨ (n ≤ x ∧ ∃ c, s.objs[o]? = some c ∧ c.kind.rank < a.kind.rank)) : t.Strat n := by
  refine ⟨?_, ?_⟩
  · intro x b hb hx o ho
    obtain ⟨a, ha, _, h2⟩ := bwd x b hb
    rcases h2 o ho with h3 | h3
    · exact h.old x a ha hx o h3
    · omega
  · intro x b hb hx o ho
    obtain ⟨a, ha, h1, h2⟩ := bwd x b hb
    have : ∃ c, s.objs[o]? = some c ∧ c.kind.rank < a.kind.rank := by
      rcases h2 o ho with h3 | h3
      · exact h.new x a ha hx o h3
      · exact h3.2
    obtain ⟨c, hc, hr⟩ := this
    obtain ⟨d, hd, hk⟩ := fwd o c hc
    exact ⟨d, hd, by rw [hk, h1]; exact hr⟩

theorem RSt.Strat.make {n : Nat} {s : RSt} (h : s.Strat n) {a : RObj} (hr : a.refs = []) :
    (s.make a).Strat n := by
  refine ⟨?_, ?_⟩
  · intro x b hb hx o ho
    rcases RSt.make_get.1 hb with hb | ⟨_, rfl⟩
    · exact h.old x b hb hx o ho
    · rw [hr] at ho; cases ho
  · intro x b hb hx o ho
    rcases RSt.make_get.1 hb with hb | ⟨_, rfl⟩
    · obtain ⟨c, hc, hr⟩ := h.new x b hb hx o ho
      exact ⟨c, RSt.make_get.2 (.inl hc), hr⟩
    · rw [hr] at ho; cases ho

theorem RSt.Strat.upd {n : Nat} {s : RSt} (h : s.Strat n) (x : Nat) (f : RObj → RObj) (vs : List Nat)
    (hk : ∀ a, (f a).kind = a.kind)
    (hr : ∀ a, s.objs[x]? = some a → ∀ o ∈ (f a).refs, o ∈ a.refs ∨
      (n ≤ x ∧ ∃ c, s.objs[o]? = some c ∧ c.kind.rank < a.kind.rank)) :
    RSt.Strat n { objs := s.objs.modify x f, vars := vs } := by
  refine h.mono ?_ ?_
  · intro y a ha
    show ∃ b, (s.objs.modify x f)[y]? = some b ∧ _
    rw [getElem?_modify_eq', ha]
    split
    · exact ⟨f a, rfl, hk a⟩
    · exact ⟨a, rfl, rfl⟩
  · intro y b hb
    replace hb : (s.objs.modify x f)[y]? = some b := hb
    rw [getElem?_modify_eq'] at hb
    split at hb
    · rename_i e; subst e
      cases h3 : s.objs[x]? with
      | none => rw [h3] at hb; cases hb
      | some a => rw [h3] at hb; cases hb; exact ⟨a, rfl, hk a, hr a h3⟩
    · exact ⟨b, hb, rfl, fun o ho => .inl ho⟩

theorem RSt.holds_rank {s : RSt} {x y : Nat} (h : s.holds x y = true) : ∃ a b, s.objs[x]? = some a ∧ s.objs[y]? = some b ∧
    b.kind.rank < a.kind.rank := by
  unfold RSt.holds at h
  split at h
  · rename_i a b ha hb
    refine ⟨a, b, ha, hb, ?_⟩
    simp only [Bool.or_eq_true, Bool.and_eq_true, beq_iff_eq] at h
    rcases h with ⟨h1, h2⟩ | ⟨h1, h2⟩ <;> rw [h1, h2] <;> decide
  · cases h

theorem RSt.Strat.act {n : Nat} {s : RSt} (h : s.Strat n) (op : ROp) (ho : op.After n) : (s.act op).Strat n := by
  cases op with
  | opens => exact h.make rfl
  | pool => exact h.make rfl
  | manager => exact h.make rfl
  | error p => exact ho.elim
  | enter x y =>
    simp only [RSt.act]; split
    · rename_i hp
      refine h.upd x _ s.vars (fun a => rfl) ?_
      intro a ha o ho'
      rcases List.mem_append.1 ho' with ho' | ho'
      · exact .inl ho'
      · simp at ho'; subst ho'
        obtain ⟨a', b, ha', hb, hr⟩ := RSt.holds_rank hp.2.2
        rw [ha] at ha'; cases ha'
        exact .inr ⟨ho, b, hb, hr⟩
    · exact h
  | take x y =>
    simp only [RSt.act]; split
    · exact h.upd x _ _ (fun a => rfl) (fun a _ o ho => .inl (List.mem_of_mem_erase ho))
    · exact h
  | look x y => simp only [RSt.act]; split <;> exact ⟨h.old, h.new⟩
  | copy o => simp only [RSt.act]; split <;> exact ⟨h.old, h.new⟩
  | drop o => exact ⟨h.old, h.new⟩
  | close c =>
    simp only [RSt.act]; split
    · exact h.upd c _ s.vars (fun a => rfl) (fun a _ o ho => .inl ho)
    · exact h

theorem RSt.Strat.step {n : Nat} {s : RSt} (h : s.Strat n) (op : ROp) (ho : op.After n) : (rStep s op).Strat n :=
  RSt.sweep_keeps (fun s o h _ _ => h.upd o _ s.vars (fun _ => rfl) (fun _ _ _ ho => .inl ho)) _ _ (h.act op ho)

theorem RSt.Strat.steps {n : Nat} {s : RSt} (h : s.Strat n) (ops : List ROp) (ho : ∀ op ∈ ops, op.After n) :
    (ops.foldl rStep s).Strat n := by
  induction ops generalizing s with
  | nil => exact h
  | cons op ops ih => exact ih (h.step op (ho op (by simp))) fun op' h' => ho op' (by simp [h'])

end Bolt
