import Verif.Lemmas.Refs
/-!
# C159: connections that nobody can use are closed
-/
namespace Bolt
open Spec

/-- Full claim: at every moment of every history each connection that is still open can be used by the program. -/
def C159_full : Prop :=
  ∀ (ops : List ROp) (o : Nat) (x : RObj), (rRun ops).objs[o]? = some x → x.kind = .conn → x.closed = false →
    Usable (rRun ops) o

/-- a pool with one connection, of which an error is raised; then the error and the pool are dropped -/
def C159_errorOps : List ROp := [.pool, .opens, .enter 0 1, .drop 1, .error 0, .drop 2, .drop 0]

/-- The errors of a pool refer to themselves and to the pool: an error that is dropped is not freed, and keeps the pool and
its connections, which nobody can reach any more. -/
theorem C159_violated : ¬ C159_full := by
  intro h
  have h1 : (rRun C159_errorOps).objs[1]? = some { kind := .conn } := by decide +kernel
  have hv : (rRun C159_errorOps).vars = [] := by decide +kernel
  have := h C159_errorOps 1 _ h1 rfl rfl
  have none : ∀ o, ¬ Usable (rRun C159_errorOps) o := by
    intro o ho
    induction ho with
    | var h => rw [hv] at h; cases h
    | ref _ _ _ ih => exact ih
  exact none 1 this

/-- Without such errors, each connection that is still open can be used. -/
theorem C159_released_partial (ops : List ROp) (hne : ∀ p, ROp.error p ∉ ops) (o : Nat) (x : RObj)
    (hx : (rRun ops).objs[o]? = some x) (hk : x.kind = .conn) (hc : x.closed = false) : Usable (rRun ops) o := by
  have hs : (rRun ops).Strat 0 := by
    refine RSt.Strat.steps (s := {}) ⟨by simp, by simp⟩ ops fun op hop => ?_
    cases op <;> first | trivial | exact Nat.zero_le _ | exact absurd hop (hne _)
  have hf : x.freed = false := by
    cases h : x.freed with
    | false => rfl
    | true => have := (rRun_sound ops).freed o x hx h hk; rw [hc] at this; cases this
  have sw : ∀ o, (rRun ops).alive o = true → (rRun ops).count o ≠ 0 := by
    rcases List.eq_nil_or_concat ops with rfl | ⟨l, op, rfl⟩
    · intro o ho; simp [rRun, RSt.alive] at ho
    · simp only [rRun, List.concat_eq_append, List.foldl_append, List.foldl_cons, List.foldl_nil]
      exact rStep_swept _ _
  obtain ⟨_, _, _, hu⟩ := hs.usable sw 3 o x hx hf (Nat.zero_le _) (by omega)
  exact hu

/-- Nothing that can be used is taken away, errors or not: it is not freed, and a connection is closed only where the program
closed it. -/
theorem C159_in_use (ops : List ROp) (o : Nat) (h : Usable (rRun ops) o) :
    ∃ x, (rRun ops).objs[o]? = some x ∧ x.freed = false ∧ (x.closed = true → ROp.close o ∈ ops) := by
  have alive : (rRun ops).alive o = true := by
    have hs := rRun_sound ops
    induction h with
    | var h => exact hs.vars _ h
    | ref _ ha ho ih =>
      obtain ⟨b, hb, hf⟩ := RSt.alive_iff.1 ih
      rw [ha] at hb; cases hb
      exact hs.refs _ _ ha hf _ ho
  obtain ⟨x, hx, hf⟩ := RSt.alive_iff.1 alive
  refine ⟨x, hx, hf, ?_⟩
  clear h alive
  have gen : ∀ (ops : List ROp) (s : RSt) (done : List ROp),
      (∀ (o : Nat) x, s.objs[o]? = some x → x.freed = false → x.closed = true → ROp.close o ∈ done) →
      ∀ (o : Nat) x, (ops.foldl rStep s).objs[o]? = some x → x.freed = false → x.closed = true →
        ROp.close o ∈ done ++ ops := by
    intro ops
    induction ops with
    | nil => intro s done h o x hx hf hc; simpa using h o x hx hf hc
    | cons op ops ih =>
      intro s done h o x hx hf hc
      have step : ∀ (o : Nat) x, (rStep s op).objs[o]? = some x → x.freed = false → x.closed = true →
          ROp.close o ∈ done ++ [op] := by
        refine RSt.sweep_keeps (P := fun t => ∀ (o : Nat) x, t.objs[o]? = some x → x.freed = false → x.closed = true →
          ROp.close o ∈ done ++ [op]) ?_ _ _ ?_
        · intro t p ht _ _ o x hx hf hc
          rw [RSt.free_get] at hx
          split at hx
          · cases h3 : t.objs[o]? with
            | none => rw [h3] at hx; cases hx
            | some b => rw [h3] at hx; cases hx; cases hf
          · exact ht o x hx hf hc
        · have old : ∀ (o : Nat) x, s.objs[o]? = some x → x.freed = false → x.closed = true →
              ROp.close o ∈ done ++ [op] := fun o x h1 h2 h3 => by simp [h o x h1 h2 h3]
          have mk : ∀ (n : RObj), n.closed = false → ∀ (o : Nat) x, (s.make n).objs[o]? = some x → x.freed = false →
              x.closed = true → ROp.close o ∈ done ++ [op] := by
            intro n hn o x hx hf hc
            rcases RSt.make_get.1 hx with hx | ⟨_, rfl⟩
            · exact old o x hx hf hc
            · rw [hn] at hc; cases hc
          have up : ∀ (p : Nat) (f : RObj → RObj), (∀ a, (f a).freed = a.freed) →
              (∀ a, (f a).closed = true → a.closed = true ∨ op = .close p) →
              ∀ (o : Nat) x, (s.objs.modify p f)[o]? = some x → x.freed = false → x.closed = true →
                ROp.close o ∈ done ++ [op] := by
            intro p f hfr hcl o x hx hf hc
            rw [getElem?_modify_eq'] at hx
            split at hx
            · rename_i e; subst e
              cases h3 : s.objs[p]? with
              | none => rw [h3] at hx; cases hx
              | some b =>
                rw [h3] at hx; cases hx
                rcases hcl b hc with h4 | h4
                · exact old p b h3 (by rw [← hfr]; exact hf) h4
                · simp [h4]
            · exact old o x hx hf hc
          cases op with
          | opens => exact mk _ rfl
          | pool => exact mk _ rfl
          | manager => exact mk _ rfl
          | error p => simp only [RSt.act]; split <;> first | exact old | exact mk _ rfl
          | enter a b => simp only [RSt.act]; split <;> first | exact old | exact up _ _ (fun _ => rfl) (fun _ h => .inl h)
          | take a b => simp only [RSt.act]; split <;> first | exact old | exact up _ _ (fun _ => rfl) (fun _ h => .inl h)
          | look a b => simp only [RSt.act]; split <;> exact old
          | copy a => simp only [RSt.act]; split <;> exact old
          | drop a => exact old
          | close c => simp only [RSt.act]; split <;> first | exact old | exact up _ _ (fun _ => rfl) (fun _ _ => .inr rfl)
      have := ih (rStep s op) (done ++ [op]) step o x hx hf hc
      simpa using this
  intro hc
  simpa using gen ops {} [] (by simp) o x hx hf hc

/-! ### A call of the synchronous client leaves no connection open -/

/-- upper bound for the number of variables that hold `o`, with the number of objects -/
def rBound (o : Nat) : Nat × Nat → ROp → Nat × Nat
  | (m, b), .opens => (m + 1, if m = o then b + 1 else b)
  | (m, b), .pool => (m + 1, if m = o then b + 1 else b)
  | (m, b), .manager => (m + 1, if m = o then b + 1 else b)
  | (m, b), .error _ => (m, b)
  | (m, b), .enter _ _ => (m, b)
  | (m, b), .take _ y => (m, if y = o then b + 1 else b)
  | (m, b), .look _ y => (m, if y = o then b + 1 else b)
  | (m, b), .copy y => (m, if y = o then b + 1 else b)
  | (m, b), .drop y => (m, if y = o then b - 1 else b)
  | (m, b), .close _ => (m, b)

theorem rBound_step {o n : Nat} {s : RSt} {m b : Nat} (op : ROp) (hop : op.After n) (hm : s.objs.length = m)
    (hb : s.vars.count o ≤ b) : (rStep s op).objs.length = (rBound o (m, b) op).1 ∧
      (rStep s op).vars.count o ≤ (rBound o (m, b) op).2 := by
  rw [rStep, RSt.sweep_length, RSt.sweep_vars]
  subst hm
  have cnt : ∀ y, (s.vars ++ [y]).count o ≤ if y = o then b + 1 else b := by
    intro y
    rw [List.count_append, List.count_singleton]
    by_cases e : y = o <;> simp [e] <;> omega
  have cnt' : ∀ y, s.vars.count o ≤ if y = o then b + 1 else b := by intro y; split <;> omega
  cases op with
  | opens => exact ⟨by simp [RSt.act, RSt.make, rBound], cnt _⟩
  | pool => exact ⟨by simp [RSt.act, RSt.make, rBound], cnt _⟩
  | manager => exact ⟨by simp [RSt.act, RSt.make, rBound], cnt _⟩
  | error p => exact hop.elim
  | enter x y => simp only [RSt.act]; split <;> exact ⟨by simp [rBound], hb⟩
  | take x y => simp only [RSt.act]; split <;> first | exact ⟨by simp [rBound], cnt' _⟩ | exact ⟨by simp [rBound], cnt _⟩
  | look x y => simp only [RSt.act]; split <;> first | exact ⟨by simp [rBound], cnt' _⟩ | exact ⟨by simp [rBound], cnt _⟩
  | copy y => simp only [RSt.act]; split <;> first | exact ⟨by simp [rBound], cnt' _⟩ | exact ⟨by simp [rBound], cnt _⟩
  | drop y =>
    refine ⟨by simp [RSt.act, rBound], ?_⟩
    show (s.vars.erase y).count o ≤ _
    simp only [rBound]
    rw [List.count_erase]
    by_cases e : y = o <;> simp [e] <;> omega
  | close c => simp only [RSt.act]; split <;> exact ⟨by simp [rBound], hb⟩

theorem rBound_steps {o n : Nat} (ops : List ROp) : ∀ {s : RSt} {m b : Nat}, (∀ op ∈ ops, op.After n) →
    s.objs.length = m → s.vars.count o ≤ b →
    (ops.foldl rStep s).vars.count o ≤ (ops.foldl (rBound o) (m, b)).2 := by
  induction ops with
  | nil => intro s m b _ _ hb; exact hb
  | cons op ops ih =>
    intro s m b hop hm hb
    obtain ⟨h1, h2⟩ := rBound_step op (hop op (by simp)) hm hb
    exact ih (fun op' h => hop op' (by simp [h])) h1 h2

/-- 1 if `conn` holds `o` -/
def heldBy (conn : Option Nat) (o : Nat) : Nat := if conn = some o then 1 else 0

theorem rBound_getPool (o n b : Nat) :
    (getPoolOps n).foldl (rBound o) (n, b) = (n + 3, if n + 1 = o then b + 1 else b) := by
  simp only [getPoolOps, rBound, List.foldl_cons, List.foldl_nil, Prod.mk.injEq, true_and]
  rcases (by omega : o = n ∨ o = n + 1 ∨ o = n + 2 ∨ (o ≠ n ∧ o ≠ n + 1 ∧ o ≠ n + 2)) with rfl | rfl | rfl | ⟨h1, h2, h3⟩
  · simp [show ¬ o + 1 + 1 = o by omega]
  · simp
  · simp
  · simp [Ne.symm h1, Ne.symm h2, Ne.symm h3]

theorem rBound_getConn (o n b : Nat) (r : Bool) :
    (getConnOps n r).foldl (rBound o) (n + 3, b) =
      (n + 4, if n + 1 = o then b - 1 else if n + 2 = o then b + 1 else b) := by
  have : (getConnOps n r).foldl (rBound o) (n + 3, b) = (getConnOps n false).foldl (rBound o) (n + 3, b) := by
    cases r <;> rfl
  rw [this]
  simp only [getConnOps, Bool.false_eq_true, if_false, List.append_nil, List.cons_append, List.nil_append, rBound,
    List.foldl_cons, List.foldl_nil, Prod.mk.injEq, true_and]
  rcases (by omega : o = n + 3 ∨ o = n + 1 ∨ o = n + 2 ∨ (o ≠ n + 3 ∧ o ≠ n + 1 ∧ o ≠ n + 2)) with
    rfl | rfl | rfl | ⟨h1, h2, h3⟩
  · simp
  · simp
  · simp
  · simp [Ne.symm h1, Ne.symm h2, Ne.symm h3]

theorem rBound_attempts (o : Nat) : ∀ (rs : List Bool) (n : Nat) (conn : Option Nat), (∀ c, conn = some c → c < n) →
    (attemptOps rs n conn).1.foldl (rBound o) (n, heldBy conn o) =
        ((attemptOps rs n conn).2.1, heldBy (attemptOps rs n conn).2.2 o) ∧
      (∀ c, (attemptOps rs n conn).2.2 = some c → c < (attemptOps rs n conn).2.1) := by
  intro rs
  induction rs with
  | nil => intro n conn h; exact ⟨rfl, h⟩
  | cons r rs ih =>
    intro n conn h
    obtain ⟨h1, h2⟩ := ih (n + 4) (some (n + 2)) (by intro c hc; cases hc; omega)
    refine ⟨?_, h2⟩
    simp only [attemptOps, List.foldl_append]
    rw [← h1, rBound_getPool, rBound_getConn]
    congr 1
    cases conn with
    | none =>
      simp only [List.foldl_nil, heldBy, Prod.mk.injEq, true_and, Option.some.injEq, reduceCtorEq, if_false]
      by_cases e : n + 1 = o
      · subst e; simp
      · simp [e]
    | some c =>
      have := h c rfl
      simp only [List.foldl_cons, List.foldl_nil, rBound, heldBy, Prod.mk.injEq, true_and, Option.some.injEq]
      by_cases e : c = o
      · subst e
        simp [show ¬ n + 1 = c by omega, show ¬ n + 2 = c by omega]
      · by_cases e' : n + 1 = o
        · subst e'; simp [e]
        · simp [e, e']

theorem rBound_call (o : Nat) (rs : List Bool) (e : REnd) (n : Nat) :
    ((callOps rs e n).foldl (rBound o) (n, 0)).2 = 0 := by
  obtain ⟨h1, h2⟩ := rBound_attempts o rs n none (by simp)
  simp only [callOps, List.foldl_append]
  rw [show (0 : Nat) = heldBy none o from rfl, h1]
  revert h2
  cases (attemptOps rs n none).2.2 with
  | none => intro _; rfl
  | some c =>
    intro h2
    have := h2 c rfl
    cases e with
    | put =>
      simp only [endOps, List.foldl_append, rBound_getPool, List.foldl_cons, List.foldl_nil, rBound, heldBy,
        Option.some.injEq]
      by_cases e : c = o
      · subst e
        simp [show ¬ (attemptOps rs n none).2.1 + 1 = c by omega]
      · by_cases e' : (attemptOps rs n none).2.1 + 1 = o
        · simp [e, e']
        · simp [e, e']
    | closes => simp only [endOps, List.foldl_cons, List.foldl_nil, rBound, heldBy, Option.some.injEq]; split <;> simp
    | raises => simp only [endOps, List.foldl_cons, List.foldl_nil, rBound, heldBy, Option.some.injEq]; split <;> simp

theorem attemptOps_after (m : Nat) : ∀ (rs : List Bool) (n : Nat) (conn : Option Nat), m ≤ n →
    (∀ op ∈ (attemptOps rs n conn).1, op.After m) ∧ m ≤ (attemptOps rs n conn).2.1 := by
  intro rs
  induction rs with
  | nil => intro n conn h; exact ⟨by simp [attemptOps], h⟩
  | cons r rs ih =>
    intro n conn h
    obtain ⟨h1, h2⟩ := ih (n + 4) (some (n + 2)) (by omega)
    refine ⟨?_, h2⟩
    intro op hop
    simp only [attemptOps, List.mem_append] at hop
    rcases hop with ((hop | hop) | hop) | hop
    · simp only [getPoolOps, List.mem_cons, List.not_mem_nil, or_false] at hop
      rcases hop with rfl | rfl | rfl | rfl | rfl | rfl | rfl <;> simp [ROp.After] <;> omega
    · cases r <;> simp only [getConnOps, List.mem_append, List.mem_cons, List.not_mem_nil, or_false, if_true,
        Bool.false_eq_true, if_false] at hop <;> grind [ROp.After]
    · cases conn <;> simp at hop; subst hop; trivial
    · exact h1 op hop

theorem callOps_after (rs : List Bool) (e : REnd) (n : Nat) : ∀ op ∈ callOps rs e n, op.After n := by
  obtain ⟨h1, h2⟩ := attemptOps_after n rs n none (Nat.le_refl _)
  intro op hop
  simp only [callOps, List.mem_append] at hop
  rcases hop with hop | hop
  · exact h1 op hop
  · revert hop
    cases (attemptOps rs n none).2.2 with
    | none => intro h; cases h
    | some c =>
      intro hop
      cases e <;> simp only [endOps, getPoolOps, List.cons_append, List.nil_append, List.mem_cons, List.not_mem_nil,
        or_false] at hop <;> grind [ROp.After]

/-- A call of the synchronous client leaves no connection open, whatever happened before (errors of other pools included),
however many rounds it takes, whichever connections are readable, and however it ends. -/
theorem C159_call (ops : List ROp) (rs : List Bool) (e : REnd) (o : Nat) (x : RObj)
    (hn : (rRun ops).objs.length ≤ o)
    (hx : (rRun (ops ++ callOps rs e (rRun ops).objs.length)).objs[o]? = some x) (hk : x.kind = .conn) :
    x.closed = true := by
  have hs := rRun_sound (ops ++ callOps rs e (rRun ops).objs.length)
  refine Classical.byContradiction fun hc => ?_
  have hf : x.freed = false := by
    cases h : x.freed with
    | false => rfl
    | true => exact absurd (hs.freed o x hx h hk) hc
  have sw : ∀ o, (rRun (ops ++ callOps rs e (rRun ops).objs.length)).alive o = true →
      (rRun (ops ++ callOps rs e (rRun ops).objs.length)).count o ≠ 0 := by
    rcases List.eq_nil_or_concat (ops ++ callOps rs e (rRun ops).objs.length) with h | ⟨l, op, h⟩
    · rw [h]; intro o ho; simp [rRun, RSt.alive] at ho
    · rw [h]
      simp only [rRun, List.concat_eq_append, List.foldl_append, List.foldl_cons, List.foldl_nil]
      exact rStep_swept _ _
  have hfold : rRun (ops ++ callOps rs e (rRun ops).objs.length) =
      (callOps rs e (rRun ops).objs.length).foldl rStep (rRun ops) := by simp only [rRun, List.foldl_append]
  have st : (rRun (ops ++ callOps rs e (rRun ops).objs.length)).Strat (rRun ops).objs.length := by
    rw [hfold]
    refine RSt.Strat.steps ⟨fun x a ha _ p hp => (rRun_sound ops).bound x a ha p hp, fun x a ha hx => ?_⟩ _
      (callOps_after rs e _)
    exact absurd (List.getElem?_eq_some_iff.1 ha).1 (by omega)
  obtain ⟨v, hv, hvn, _⟩ := st.usable sw 3 o x hx hf hn (by omega)
  have h0 : (rRun ops).vars.count v ≤ 0 := by
    rw [Nat.le_zero, List.count_eq_zero]
    intro hv'
    have := RSt.alive_lt ((rRun_sound ops).vars v hv'); omega
  have := rBound_steps (o := v) (callOps rs e (rRun ops).objs.length) (callOps_after rs e _) rfl h0
  rw [rBound_call, ← hfold, Nat.le_zero, List.count_eq_zero] at this
  exact this hv

/-! ### Examples -/

/-- the numbers of the open connections -/
def RSt.openConns (s : RSt) : List Nat :=
  (List.range s.objs.length).filter fun o => match s.objs[o]? with | some x => x.kind == .conn && !x.closed | none => false

-- a call that takes two rounds, step by step: the open connections after each operation
set_option maxRecDepth 20000 in
example : (List.range 42).map (fun k => (rRun ((callOps [true, false] .put 0).take k)).openConns.length) =
    [0, 0, 0, 1, 1, 1, 1, 1, 1, 2, 2, 2, 1, 0, 0, 0, 1, 1, 1, 1, 1, 1, 2, 2, 2, 1, 1, 1, 1, 2, 2, 2, 2, 2, 2, 1, 0, 0, 0, 0, 0,
      0] := by decide +kernel

-- without dropping the error the pool can still be used; without the error its connection is closed
set_option maxRecDepth 20000 in
example : (rRun C159_errorOps).openConns = [1] ∧
    (rRun [.pool, .opens, .enter 0 1, .drop 1, .drop 0]).openConns = [] ∧
    (rRun [.pool, .opens, .enter 0 1, .drop 1]).openConns = [1] := by decide +kernel

-- a manager keeps its pool, and the pool its connection
set_option maxRecDepth 20000 in
example : (rRun [.manager, .pool, .opens, .enter 1 2, .enter 0 1, .drop 2, .drop 1]).openConns = [2] ∧
    (rRun [.manager, .pool, .opens, .enter 1 2, .enter 0 1, .drop 2, .drop 1, .drop 0]).openConns = [] := by decide +kernel

end Bolt
