import Verif.Lemmas.Pool
/-! C36, C38-C41 (sequential part of the connection pool); C37's sequential part. -/
namespace Bolt
open CPool

/-! ### C36 -/

namespace Spec
/-- Connections put back and not handed out since, most recent first, computed from the history alone. -/
def pending (log : List PoolEv) : List ConnRef :=
  log.foldl (fun st ev => match ev with
    | .back c => c :: st
    | .out c => st.erase c) []
end Spec

/-- C36 at full strength. -/
def C36_full : Prop :=
  ∀ (cfg : PoolCfg) (p : CPool) (ops : List PoolOp), CPool.init cfg = .ok p →
    let s := poolRun cfg p ops
    s.pool.freeL.length ≤ cfg.maxFree ∧
    ∀ (t r : Bool), s.pool.freeL.length > cfg.minFree →
      ∃ c, (getConn cfg s.pool t r).2 = .ok c ∧ (Spec.pending s.log).head? = some c

/-- `max_free_connections=0` makes the `LifoQueue` unbounded. -/
theorem C36_violated : ¬ C36_full := by
  intro h
  have := (h { maxFree := 0 } _ [] rfl).1
  exact absurd this (by decide)

/-- The free stack against the history: connections added by the pool itself have fewer than `minFree`
connections below them. -/
inductive Stk (m : Nat) : List ConnRef → List ConnRef → Prop
  | nil : Stk m [] []
  | user {c q pd} : Stk m q pd → Stk m (c :: q) (c :: pd)
  | auto {c q pd} : q.length < m → Stk m q pd → Stk m (c :: q) pd

theorem stk_sublist {m : Nat} {q pd : List ConnRef} (h : Stk m q pd) : pd.Sublist q := by
  induction h with
  | nil => exact List.Sublist.slnil
  | user _ ih => exact ih.cons_cons _
  | auto _ _ ih => exact ih.cons _

theorem stk_refl (m : Nat) (q : List ConnRef) : Stk m q q := by
  induction q with
  | nil => exact .nil
  | cons c q ih => exact .user ih

theorem stk_pop {m : Nat} {c : ConnRef} {q pd : List ConnRef} (h : Stk m (c :: q) pd) (hn : (c :: q).Nodup) :
    Stk m q (pd.erase c) := by
  cases h with
  | user h => simpa using h
  | auto _ h =>
    have : c ∉ pd := fun hm => (List.nodup_cons.1 hn).1 ((stk_sublist h).subset hm)
    rw [List.erase_of_not_mem this]; exact h

theorem stk_top {m : Nat} {c : ConnRef} {q pd : List ConnRef} (h : Stk m (c :: q) pd) (hm : m ≤ q.length) :
    pd.head? = some c := by
  cases h with
  | user h => rfl
  | auto hl _ => omega

theorem pending_snoc (log : List PoolEv) (ev : PoolEv) : Spec.pending (log ++ [ev]) =
    match ev with | .back c => c :: Spec.pending log | .out c => (Spec.pending log).erase c := by
  simp only [Spec.pending, List.foldl_append, List.foldl_cons, List.foldl_nil]

theorem pending_start (q : List ConnRef) : Spec.pending (q.reverse.map .back) = q := by
  induction q with
  | nil => rfl
  | cons c q ih => rw [List.reverse_cons, List.map_append, List.map_cons, List.map_nil, pending_snoc, ih]

theorem getConn_free_pop {cfg : PoolCfg} {p : CPool} {c : ConnRef} {q : List ConnRef}
    (hq : p.free = some (c :: q)) (t r : Bool) :
    (∃ e, getConn cfg p t r = ({ p with free := some q }, .raise e)) ∨
    ((getConn cfg p t r).2 = .ok c ∧
      ((getConn cfg p t r).1.free = some q ∨
        (q.length < cfg.minFree ∧ (getConn cfg p t r).1.free = some (p.made :: q)))) := by
  rcases getConn_cases cfg p t r with ⟨hf, h1⟩ | ⟨hf, _, h1⟩ | ⟨hf, _, _, h1⟩ | ⟨hf, _, p', hn, h1⟩ |
    ⟨c', q', hf, _, _, h1⟩ | ⟨c', q', p2, hf, h2, h1⟩
  · rw [hq] at hf; cases hf
  · rw [hq] at hf; cases hf
  · rw [hq] at hf; cases hf
  · rw [hq] at hf; cases hf
  · rw [hq] at hf; cases hf; exact .inl ⟨_, h1⟩
  · rw [hq] at hf; cases hf
    right
    have hfree : p2.free = some q ∨ (q.length < cfg.minFree ∧ p2.free = some (p.made :: q)) := by
      rcases h2 with ⟨hl, p1, h3, rfl⟩ | ⟨_, rfl⟩
      · have h4 : p1.free = some q := by
          unfold newConn at h3
          split at h3
          · cases h3
          · cases h3; rfl
        unfold putConn
        rw [h4]
        dsimp only
        split
        · exact .inl rfl
        · exact .inr ⟨hl, rfl⟩
      · exact .inl rfl
    rw [h1]
    split
    · exact ⟨rfl, hfree⟩
    · exact ⟨rfl, hfree⟩

theorem getConn_free_none {cfg : PoolCfg} {p : CPool} (hq : p.free = none) (t r : Bool) :
    getConn cfg p t r = (p, .raise .closedPool) := by unfold getConn; rw [hq]

theorem getConn_free_nil {cfg : PoolCfg} {p : CPool} (hq : p.free = some []) (t r : Bool) :
    (getConn cfg p t r).1.free = some [] := by
  rcases getConn_cases cfg p t r with ⟨hf, h1⟩ | ⟨hf, _, h1⟩ | ⟨hf, _, _, h1⟩ | ⟨hf, _, p', hn, h1⟩ |
    ⟨c', q', hf, _, _, h1⟩ | ⟨c', q', p2, hf, h2, h1⟩
  · rw [hq] at hf; cases hf
  · rw [h1]; exact hq
  · rw [h1]; exact hq
  · rw [h1]
    unfold newConn at hn
    split at hn
    · cases hn
    · cases hn; exact hq
  · rw [hq] at hf; cases hf
  · rw [hq] at hf; cases hf

theorem stk_step {cfg : PoolCfg} {s : PoolSys} (hl : Loc cfg s.pool (s.held ++ s.lost))
    (h : ∀ q, s.pool.free = some q → Stk cfg.minFree q (Spec.pending s.log)) (op : PoolOp) :
    ∀ q, (poolStep cfg s op).pool.free = some q → Stk cfg.minFree q (Spec.pending (poolStep cfg s op).log) := by
  cases op with
  | get t r =>
    intro q' hq'
    match hf : s.pool.free with
    | none =>
      simp [poolStep, getConn_free_none hf, hf] at hq'
    | some [] =>
      have hp : s.popped = [] := by simp [PoolSys.popped, hf]
      have h1 := getConn_free_nil (cfg := cfg) hf t r
      simp only [poolStep] at hq' ⊢
      split at hq' <;> simp_all
    | some (c :: q) =>
      have hp : s.popped = [c] := by simp [PoolSys.popped, hf]
      have hn : (c :: q).Nodup := by
        have := hl.nodup
        have hL : s.pool.freeL = c :: q := by simp [freeL, hf]
        rw [hL] at this
        exact (List.nodup_append.1 this).1
      have hpop := stk_pop (h _ hf) hn
      have hlog : Spec.pending (poolStep cfg s (.get t r)).log = (Spec.pending s.log).erase c := by
        simp only [poolStep]
        split <;> simp only [hp, List.map_cons, List.map_nil, pending_snoc]
      rw [hlog]
      have hpool : (poolStep cfg s (.get t r)).pool = (getConn cfg s.pool t r).1 := by
        simp only [poolStep]; split <;> simp [*]
      rw [hpool] at hq'
      rcases getConn_free_pop (cfg := cfg) hf t r with ⟨e, h1⟩ | ⟨_, h1 | ⟨hlt, h1⟩⟩
      · rw [h1] at hq'; cases hq'; exact hpop
      · rw [h1] at hq'; cases hq'; exact hpop
      · rw [h1] at hq'; cases hq'; exact .auto hlt hpop
  | put c =>
    intro q' hq'
    simp only [poolStep] at hq' ⊢
    split at hq'
    · next hc =>
      rw [if_pos hc]
      dsimp only at hq' ⊢
      match hf : s.pool.free with
      | none => simp [putConn, hf, CPool.closeConn] at hq'
      | some q =>
        dsimp only
        by_cases hfull : full cfg q = true
        · simp only [putConn, hf, hfull, if_true, CPool.closeConn] at hq'
          simp only [hfull, if_true, List.append_nil]
          cases hq'; exact h _ hf
        · simp only [putConn, hf, hfull, Bool.false_eq_true, if_false] at hq'
          simp only [hfull, Bool.false_eq_true, if_false, pending_snoc]
          cases hq'; exact .user (h _ hf)
    · next hc => rw [if_neg hc]; exact h _ hq'
  | closeConn c =>
    intro q' hq'
    simp only [poolStep] at hq' ⊢
    split at hq'
    · next hc => rw [if_pos hc]; exact h _ hq'
    · next hc => rw [if_neg hc]; exact h _ hq'
  | closePool =>
    intro q' hq'
    simp only [poolStep, CPool.close] at hq'
    split at hq'
    · next hf => rw [hf] at hq'; cases hq'
    · cases hq'

theorem stk_run {cfg : PoolCfg} {p : CPool} (hp : CPool.init cfg = .ok p) (ops : List PoolOp) :
    ∀ q, (poolRun cfg p ops).pool.free = some q →
      Stk cfg.minFree q (Spec.pending (poolRun cfg p ops).log) := by
  have h0 : Loc cfg (poolStart p).pool ((poolStart p).held ++ (poolStart p).lost) := (loc_init hp).1
  have h1 : ∀ q, (poolStart p).pool.free = some q → Stk cfg.minFree q (Spec.pending (poolStart p).log) := by
    intro q hq
    have hL : p.free = some q := hq
    simp only [poolStart, hL, Option.getD_some, pending_start]
    exact stk_refl _ _
  unfold poolRun
  generalize poolStart p = s at h0 h1
  induction ops generalizing s with
  | nil => exact h1
  | cons op ops ih => exact ih _ (loc_step h0 op) (stk_step h0 h1 op)

/-- C36, proved part: for every history of a pool, at most `max_free_connections` connections are free if this is at
least 1, and with more than `min_free_connections` free ones `get_conn` returns the connection most recently put back
(and not handed out since). Missing: the bound for `max_free_connections = 0`, where the code keeps arbitrarily many
(`C36_grows`). -/
theorem C36_lifo_partial (cfg : PoolCfg) (p : CPool) (ops : List PoolOp) (hp : CPool.init cfg = .ok p) :
    let s := poolRun cfg p ops
    (0 < cfg.maxFree → s.pool.freeL.length ≤ cfg.maxFree) ∧
    ∀ (t r : Bool), s.pool.freeL.length > cfg.minFree →
      ∃ c, (getConn cfg s.pool t r).2 = .ok c ∧ (Spec.pending s.log).head? = some c := by
  intro s
  have hl := loc_run hp ops
  refine ⟨hl.freeCap, ?_⟩
  intro t r hlen
  match hf : s.pool.free with
  | none => simp [freeL, hf] at hlen
  | some [] => simp [freeL, hf] at hlen
  | some (c :: q) =>
    have hlen' : cfg.minFree ≤ q.length := by
      simp only [freeL, hf, Option.getD_some, List.length_cons] at hlen; omega
    refine ⟨c, ?_, stk_top (stk_run hp ops _ hf) hlen'⟩
    rcases getConn_free_pop (cfg := cfg) hf t r with ⟨e, h1⟩ | ⟨h2, _⟩
    · exfalso
      rcases getConn_cases cfg s.pool t r with ⟨hf', h1⟩ | ⟨hf', _, h1⟩ | ⟨hf', _, _, h1⟩ | ⟨hf', _, p', hn, h1⟩ |
        ⟨c', q', hf', h3, _, _⟩ | ⟨c', q', p2, hf', h2, h3⟩
      · rw [hf] at hf'; cases hf'
      · rw [hf] at hf'; cases hf'
      · rw [hf] at hf'; cases hf'
      · rw [hf] at hf'; cases hf'
      · rw [hf] at hf'; cases hf'; omega
      · rw [h1] at h3; have h4 := congrArg Prod.snd h3; split at h4 <;> cases h4
    · exact h2

example : CPool.init { initial := 3 } = .ok { free := some [2, 1, 0], num := 3, made := 3 }
    ∧ (poolRun { initial := 3 } { free := some [2, 1, 0], num := 3, made := 3 }
        [.get false false, .get false false, .put 2, .put 1]).pool.freeL = [1, 2, 0]
    ∧ Spec.pending (poolRun { initial := 3 } { free := some [2, 1, 0], num := 3, made := 3 }
        [.get false false, .get false false, .put 2, .put 1]).log = [1, 2, 0] := by decide

/-- `n` connections are handed out and found dropped, each replaced by a new one -/
theorem dropped_gets (n : Nat) : ∃ log lost, poolRun { maxFree := 0 } { free := some [0], num := 1, made := 1 }
    (List.replicate n (.get false true)) =
      { pool := { free := some [n], num := 1, made := n + 1, closed := (List.range n).reverse }
        held := (List.range n).reverse, log := log, lost := lost } := by
  induction n with
  | zero => exact ⟨_, _, rfl⟩
  | succ n ih =>
    obtain ⟨log, lost, h⟩ := ih
    refine ⟨log ++ [.out n], lost, ?_⟩
    rw [List.replicate_succ', poolRun, List.foldl_append]
    rw [poolRun] at h
    rw [h]
    simp only [List.foldl_cons, List.foldl_nil, poolStep, getConn, newConn, putConn, full, isDropped, CPool.closeConn,
      List.length_nil, Nat.lt_irrefl, decide_false, Bool.false_and, Bool.false_eq_true, if_false, Bool.or_true, if_true]
    rw [if_pos (by decide), if_neg (by decide)]
    simp only [Int.add_sub_cancel, List.range_succ, List.reverse_append, List.reverse_cons, List.reverse_nil, List.nil_append,
      List.singleton_append]
    rfl

/-- and put back -/
theorem puts_keep (cs : List ConnRef) : ∀ s : PoolSys, (∃ q, s.pool.free = some q) → cs.Sublist s.held →
    (cs.map PoolOp.put |>.foldl (poolStep { maxFree := 0 }) s).pool.freeL.length = s.pool.freeL.length + cs.length := by
  induction cs with
  | nil => intro s _ _; rfl
  | cons c cs ih =>
    rintro s ⟨q, hq⟩ hs
    have hc : c ∈ s.held := hs.subset (List.mem_cons_self ..)
    rw [List.map_cons, List.foldl_cons, ih]
    · simp only [poolStep, if_pos hc, putConn, hq, full]
      simp [freeL, hq]
      omega
    · simp only [poolStep, if_pos hc, putConn, hq, full]
      exact ⟨_, rfl⟩
    · simp only [poolStep, if_pos hc]
      have := hs.erase c
      rwa [List.erase_cons_head] at this

/-- With `max_free_connections = 0` nothing bounds the free connections, not even `max_connections` (here 20): connections
that were found dropped are not counted any more and are kept when they are put back. -/
theorem C36_grows (n : Nat) : ∃ (p : CPool) (ops : List PoolOp), CPool.init { maxFree := 0 } = .ok p ∧
    (poolRun { maxFree := 0 } p ops).pool.freeL.length = n + 1 := by
  refine ⟨{ free := some [0], num := 1, made := 1 }, List.replicate n (.get false true) ++
    (List.range n).reverse.map PoolOp.put, rfl, ?_⟩
  obtain ⟨log, lost, h⟩ := dropped_gets n
  rw [poolRun] at h
  rw [poolRun, List.foldl_append]
  rw [h, puts_keep _ _ ⟨_, rfl⟩ (List.Sublist.refl _)]
  simp [freeL]
  omega

/-! ### C37 (calls one after the other; the interleaving part is in `Props/PoolThreads.lean`) -/

/-- C37, sequential histories: the count never exceeds `max_connections`. -/
theorem C37_cap_sequential_partial (cfg : PoolCfg) (p : CPool) (hp : CPool.init cfg = .ok p)
    (ops : List PoolOp) : (poolRun cfg p ops).pool.num ≤ cfg.maxConns := (loc_run hp ops).cap

example : (poolRun { maxConns := 2 } { free := some [0], num := 1, made := 1 }
    [.get false false, .get false false, .get false false]).pool.num = 2 := by decide

/-! ### C38 -/

/-- open connections that are free or handed out -/
def openCount (s : PoolSys) : Nat :=
  ((s.pool.freeL ++ s.held).filter (fun c => !s.pool.closed.contains c)).length

/-- C38 at full strength. -/
def C38_full : Prop :=
  ∀ (cfg : PoolCfg) (p : CPool) (ops : List PoolOp), CPool.init cfg = .ok p →
    (poolRun cfg p ops).pool.num = openCount (poolRun cfg p ops)

/-- The code violates C38: a dropped connection put back and taken again is subtracted twice, so the count
even becomes negative while a connection is open. -/
theorem C38_violated : ¬ C38_full := by
  intro h
  have h1 := h {} { free := some [0], num := 1, made := 1 }
    [.get false true, .put 0, .get false true, .put 0, .get false true, .put 0, .get false true] rfl
  exact absurd h1 (by decide)

/-- A second violation: when replenishing fails, `get_conn` raises `EmptyPoolError` and the connection it had
already taken from the queue is neither free nor handed out, but still counted. -/
theorem C38_violated_by_exhaustion :
    ∃ (cfg : PoolCfg) (p : CPool), CPool.init cfg = .ok p ∧
      (poolRun cfg p [.get false false]).pool.num = 1 ∧ openCount (poolRun cfg p [.get false false]) = 0 :=
  ⟨{ maxConns := 1 }, _, rfl, by decide, by decide⟩

/-- Histories in which no connection is dropped by its peer or closed by its user, and the pool stays open. -/
def Calm (ops : List PoolOp) : Prop := ∀ op ∈ ops, (∃ t, op = .get t false) ∨ (∃ c, op = .put c)

structure CalmInv (cfg : PoolCfg) (s : PoolSys) : Prop where
  loc : Loc cfg s.pool (s.held ++ s.lost)
  isOpen : s.pool.free.isSome
  count : s.pool.num = s.pool.freeL.length + s.held.length + s.lost.length
  fresh : ∀ c ∈ s.pool.freeL ++ s.held, c ∉ s.pool.closed
  old : ∀ c ∈ s.pool.closed, c < s.pool.made

theorem calm_get {cfg : PoolCfg} {s : PoolSys} (h : CalmInv cfg s) (t : Bool) :
    CalmInv cfg (poolStep cfg s (.get t false)) ∧
    ∀ c, (getConn cfg s.pool t false).2 = .ok c → c ∉ (getConn cfg s.pool t false).1.closed := by
  have hloc := loc_step h.loc (.get t false)
  rcases getConn_cases cfg s.pool t false with ⟨hf, h1⟩ | ⟨hf, _, h1⟩ | ⟨hf, _, _, h1⟩ | ⟨hf, _, p', hn, h1⟩ |
    ⟨c, q, hf, _, _, h1⟩ | ⟨c, q, p2, hf, h2, h1⟩
  · have := h.isOpen; rw [hf] at this; cases this
  · have hp : s.popped = [] := by simp [PoolSys.popped, hf]
    refine ⟨?_, ?_⟩
    · have e : poolStep cfg s (.get t false) = s := by
        cases t <;> simp [poolStep, h1, hp]
      rw [e]; exact h
    · intro c hc; rw [h1] at hc; dsimp only at hc; split at hc <;> cases hc
  · have hp : s.popped = [] := by simp [PoolSys.popped, hf]
    refine ⟨?_, ?_⟩
    · have e : poolStep cfg s (.get t false) = s := by
        simp [poolStep, h1, hp]
      rw [e]; exact h
    · intro c hc; rw [h1] at hc; cases hc
  · have hp : s.popped = [] := by simp [PoolSys.popped, hf]
    obtain ⟨_, _, e1, e2, e3, e4⟩ := loc_newConn h.loc hn
    have e : poolStep cfg s (.get t false) = { s with pool := p', held := s.pool.made :: s.held } := by
      simp [poolStep, h1, hp]
    have eL : p'.freeL = s.pool.freeL := by simp [freeL, e1]
    have hfresh : s.pool.made ∉ s.pool.closed := fun hm => Nat.lt_irrefl _ (h.old _ hm)
    refine ⟨?_, ?_⟩
    · rw [e] at hloc ⊢
      refine ⟨hloc, by show p'.free.isSome; rw [e1]; exact h.isOpen, ?_, ?_, ?_⟩
      · show p'.num = p'.freeL.length + (s.held.length + 1 : Nat) + s.lost.length
        rw [e3, eL, h.count]; omega
      · intro c hc
        show c ∉ p'.closed
        rw [e2]
        have hc' : c ∈ p'.freeL ++ s.pool.made :: s.held := hc
        rw [eL] at hc'
        simp only [List.mem_append, List.mem_cons] at hc'
        rcases hc' with hc' | rfl | hc'
        · exact h.fresh c (List.mem_append_left _ hc')
        · exact hfresh
        · exact h.fresh c (List.mem_append_right _ hc')
      · intro c hc
        show c < p'.made
        have := h.old c (by rw [← e2]; exact hc)
        rw [e4]; exact Nat.lt_succ_of_lt this
    · intro c hc; rw [h1] at hc ⊢; cases hc; show _ ∉ p'.closed; rw [e2]; exact hfresh
  · have hp : s.popped = [c] := by simp [PoolSys.popped, hf]
    have eL : s.pool.freeL = c :: q := by simp [freeL, hf]
    have e : poolStep cfg s (.get t false)
        = { s with pool := { s.pool with free := some q }, lost := c :: s.lost, log := s.log ++ [.out c] } := by
      simp [poolStep, h1, hp]
    refine ⟨?_, fun c' hc => (by rw [h1] at hc; cases hc)⟩
    rw [e] at hloc ⊢
    refine ⟨hloc, rfl, ?_, ?_, h.old⟩
    · have := h.count
      rw [eL] at this
      show s.pool.num = (q.length : Int) + s.held.length + (s.lost.length + 1 : Nat)
      simp at this ⊢; omega
    · intro x hx
      refine h.fresh x ?_
      rw [eL]
      have hx' : x ∈ q ++ s.held := hx
      simp only [List.cons_append, List.mem_cons]
      exact .inr hx'
  · have hp : s.popped = [c] := by simp [PoolSys.popped, hf]
    have eL : s.pool.freeL = c :: q := by simp [freeL, hf]
    have hcb : c < s.pool.made := h.loc.bound c (by rw [eL]; simp)
    have hcc : c ∉ s.pool.closed := h.fresh c (by rw [eL]; simp)
    have hmf : s.pool.made ∉ s.pool.closed := fun hm => Nat.lt_irrefl _ (h.old _ hm)
    have hqf : ∀ x ∈ q ++ s.held, x ∉ s.pool.closed := fun x hx =>
      h.fresh x (by rw [eL, List.cons_append]; exact List.mem_cons_of_mem _ hx)
    have hcount := h.count
    rw [eL, List.length_cons] at hcount
    -- facts about the intermediate pool
    have key : p2.free.isSome ∧ p2.num = p2.freeL.length + (s.held.length + 1 : Nat) + s.lost.length ∧
        (∀ x ∈ p2.freeL ++ c :: s.held, x ∉ p2.closed) ∧ (∀ x ∈ p2.closed, x < p2.made) := by
      rcases h2 with ⟨_, p1, h3, rfl⟩ | ⟨_, rfl⟩
      · have hp1 : p1 = { s.pool with free := some q, num := s.pool.num + 1, made := s.pool.made + 1 } := by
          unfold newConn at h3
          split at h3
          · cases h3
          · cases h3; rfl
        subst hp1
        unfold putConn
        dsimp only
        split
        · refine ⟨rfl, ?_, ?_, ?_⟩
          · show s.pool.num + 1 - 1 = (q.length : Int) + (s.held.length + 1 : Nat) + s.lost.length
            omega
          · intro x hx
            have hx' : x ∈ q ++ c :: s.held := hx
            show x ∉ s.pool.made :: s.pool.closed
            have hb : x < s.pool.made ∧ x ∉ s.pool.closed := by
              simp only [List.mem_append, List.mem_cons] at hx'
              rcases hx' with hx' | rfl | hx'
              · exact ⟨h.loc.bound x (by rw [eL]; simp [hx']), hqf x (by simp [hx'])⟩
              · exact ⟨hcb, hcc⟩
              · exact ⟨h.loc.bound x (by simp [hx']), hqf x (by simp [hx'])⟩
            simp only [List.mem_cons, not_or]
            exact ⟨Nat.ne_of_lt hb.1, hb.2⟩
          · intro x hx
            have hx' : x ∈ s.pool.made :: s.pool.closed := hx
            show x < s.pool.made + 1
            rcases List.mem_cons.1 hx' with rfl | hx'
            · exact Nat.lt_succ_self _
            · exact Nat.lt_succ_of_lt (h.old x hx')
        · refine ⟨rfl, ?_, ?_, ?_⟩
          · show s.pool.num + 1 = ((s.pool.made :: q).length : Int) + (s.held.length + 1 : Nat) + s.lost.length
            simp only [List.length_cons]; omega
          · intro x hx
            have hx' : x ∈ (s.pool.made :: q) ++ c :: s.held := hx
            show x ∉ s.pool.closed
            simp only [List.cons_append, List.mem_append, List.mem_cons] at hx'
            rcases hx' with rfl | hx' | rfl | hx'
            · exact hmf
            · exact hqf x (by simp [hx'])
            · exact hcc
            · exact hqf x (by simp [hx'])
          · intro x hx; exact Nat.lt_succ_of_lt (h.old x hx)
      · refine ⟨rfl, ?_, ?_, h.old⟩
        · show s.pool.num = (q.length : Int) + (s.held.length + 1 : Nat) + s.lost.length
          omega
        · intro x hx
          have hx' : x ∈ q ++ c :: s.held := hx
          show x ∉ s.pool.closed
          simp only [List.mem_append, List.mem_cons] at hx'
          rcases hx' with hx' | rfl | hx'
          · exact hqf x (by simp [hx'])
          · exact hcc
          · exact hqf x (by simp [hx'])
    obtain ⟨k1, k2, k3, k4⟩ := key
    have hc2 : c ∉ p2.closed := k3 c (by simp)
    have hnd : isDropped p2 c false = false := by simp [isDropped, hc2]
    rw [hnd, if_neg (by simp)] at h1
    have e : poolStep cfg s (.get t false)
        = { s with pool := p2, held := c :: s.held, log := s.log ++ [.out c] } := by
      simp [poolStep, h1, hp]
    refine ⟨?_, fun c' hc => (by rw [h1] at hc ⊢; cases hc; exact hc2)⟩
    rw [e] at hloc ⊢
    exact ⟨hloc, k1, k2, k3, k4⟩

theorem calm_put {cfg : PoolCfg} {s : PoolSys} (h : CalmInv cfg s) (c : ConnRef) :
    CalmInv cfg (poolStep cfg s (.put c)) := by
  have hloc := loc_step h.loc (.put c)
  by_cases hc : c ∈ s.held
  · obtain ⟨q, hq⟩ := Option.isSome_iff_exists.1 h.isOpen
    have eL : s.pool.freeL = q := by simp [freeL, hq]
    have hlen : (s.held.erase c).length + 1 = s.held.length := by
      rw [List.length_erase_of_mem hc]
      have := List.length_pos_of_mem hc
      omega
    have hcount := h.count
    rw [eL] at hcount
    have hnd : (q ++ s.held).Nodup := by
      have := h.loc.nodup; rw [eL, ← List.append_assoc] at this
      exact (List.nodup_append.1 this).1
    have hheld : s.held.Nodup := (List.nodup_append.1 hnd).2.1
    have hcq : c ∉ q := fun hm => (List.nodup_append.1 hnd).2.2 c hm c hc rfl
    simp only [poolStep, if_pos hc] at hloc ⊢
    by_cases hfull : full cfg q = true
    · have e : putConn cfg s.pool c = { s.pool with num := s.pool.num - 1 }.closeConn c := by
        simp [putConn, hq, hfull]
      rw [e] at hloc ⊢
      refine ⟨hloc, h.isOpen, ?_, ?_, ?_⟩
      · show s.pool.num - 1 = (s.pool.freeL.length : Int) + (s.held.erase c).length + s.lost.length
        rw [eL]; omega
      · intro x hx
        have hx' : x ∈ s.pool.freeL ++ s.held.erase c := hx
        show x ∉ c :: s.pool.closed
        rw [eL] at hx'
        simp only [List.mem_cons, not_or]
        rcases List.mem_append.1 hx' with hm | hm
        · exact ⟨fun e => hcq (e ▸ hm), h.fresh x (by rw [eL]; simp [hm])⟩
        · exact ⟨fun e => (List.Nodup.not_mem_erase hheld) (e ▸ hm),
            h.fresh x (List.mem_append_right _ (List.mem_of_mem_erase hm))⟩
      · intro x hx
        have hx' : x ∈ c :: s.pool.closed := hx
        show x < s.pool.made
        rcases List.mem_cons.1 hx' with rfl | hm
        · exact h.loc.bound x (by simp [hc])
        · exact h.old x hm
    · have e : putConn cfg s.pool c = { s.pool with free := some (c :: q) } := by
        simp [putConn, hq, hfull]
      rw [e] at hloc ⊢
      refine ⟨hloc, rfl, ?_, ?_, h.old⟩
      · show s.pool.num = ((c :: q).length : Int) + (s.held.erase c).length + s.lost.length
        simp only [List.length_cons]; omega
      · intro x hx
        have hx' : x ∈ (c :: q) ++ s.held.erase c := hx
        refine h.fresh x ?_
        rw [eL]
        simp only [List.cons_append, List.mem_cons, List.mem_append] at hx' ⊢
        rcases hx' with rfl | hm | hm
        · exact .inr hc
        · exact .inl hm
        · exact .inr (List.mem_of_mem_erase hm)
  · have e : poolStep cfg s (.put c) = s := by simp [poolStep, hc]
    rw [e]; exact h

theorem calm_run {cfg : PoolCfg} {p : CPool} (hp : CPool.init cfg = .ok p) (ops : List PoolOp) (hc : Calm ops) :
    CalmInv cfg (poolRun cfg p ops) := by
  obtain ⟨h1, h2, h3, h4⟩ := loc_init hp
  have h0 : CalmInv cfg (poolStart p) := by
    refine ⟨h1, h2, ?_, ?_, ?_⟩
    · show p.num = _; rw [h4]; simp [poolStart]
    · intro c _; show c ∉ p.closed; rw [h3]; simp
    · intro c hc; have : c ∈ p.closed := hc; rw [h3] at this; cases this
  unfold poolRun
  generalize poolStart p = s at h0
  induction ops generalizing s with
  | nil => exact h0
  | cons op ops ih =>
    have hc' : Calm ops := fun op h => hc op (List.mem_cons_of_mem _ h)
    rcases hc op (List.mem_cons_self ..) with ⟨t, rfl⟩ | ⟨c, rfl⟩
    · exact ih hc' _ (calm_get h0 t).1
    · exact ih hc' _ (calm_put h0 c)

/-- C38, proved part: as long as no connection is dropped or closed by its user and the pool is open, the
count equals the open connections that are free or handed out plus one for every `get_conn` that failed
after taking a connection. Missing: dropped connections, user-closed ones, a closed pool, and the
connections lost by such failures. -/
theorem C38_count_partial (cfg : PoolCfg) (p : CPool) (hp : CPool.init cfg = .ok p) (ops : List PoolOp)
    (hc : Calm ops) :
    (poolRun cfg p ops).pool.num = openCount (poolRun cfg p ops) + (poolRun cfg p ops).lost.length := by
  have h := calm_run hp ops hc
  have : openCount (poolRun cfg p ops) = ((poolRun cfg p ops).pool.freeL ++ (poolRun cfg p ops).held).length := by
    unfold openCount
    congr 1
    rw [List.filter_eq_self]
    intro c hc; simp [h.fresh c hc]
  rw [this, h.count, List.length_append]
  omega

example : Calm [.get false false, .get true false, .put 0]
    ∧ openCount (poolRun {} { free := some [0], num := 1, made := 1 } [.get false false, .get true false, .put 0]) = 3 := by
  refine ⟨?_, by decide⟩
  intro op h
  simp at h
  rcases h with rfl | rfl | rfl
  · exact .inl ⟨_, rfl⟩
  · exact .inl ⟨_, rfl⟩
  · exact .inr ⟨_, rfl⟩

/-! ### C39 -/

/-- C39 at full strength: what `get_conn` returns is not closed, and was not detected as dropped if it came
from the queue. -/
def C39_full : Prop :=
  ∀ (cfg : PoolCfg) (p : CPool) (ops : List PoolOp) (t r : Bool) (c : ConnRef), CPool.init cfg = .ok p →
    let s := (poolRun cfg p ops).pool
    (getConn cfg s t r).2 = .ok c →
      c ∉ (getConn cfg s t r).1.closed ∧ (c ∈ s.freeL → isDropped s c r = false)

/-- The code violates C39: the dropped connection is closed and then returned. -/
theorem C39_violated : ¬ C39_full := by
  intro h
  have := (h {} { free := some [0], num := 1, made := 1 } [] false true 0 rfl (by decide)).1
  exact this (by decide)

/-- C39, proved part: in histories without drops the connection returned is open; and in every history
a returned connection is closed only if it was detected as dropped. Missing: the dropped case itself. -/
theorem C39_returned_open_partial (cfg : PoolCfg) (p : CPool) (hp : CPool.init cfg = .ok p) :
    (∀ (ops : List PoolOp) (t : Bool) (c : ConnRef), Calm ops →
      (getConn cfg (poolRun cfg p ops).pool t false).2 = .ok c →
      c ∉ (getConn cfg (poolRun cfg p ops).pool t false).1.closed) ∧
    (∀ (s : CPool) (H : List ConnRef) (t r : Bool) (c : ConnRef), Loc cfg s H → (∀ x ∈ s.closed, x < s.made) →
      (getConn cfg s t r).2 = .ok c → c ∈ (getConn cfg s t r).1.closed →
      c ∈ s.freeL ∧ isDropped s c r = true) := by
  refine ⟨fun ops t c hc h => (calm_get (calm_run hp ops hc) t).2 c h, ?_⟩
  intro s H t r c hl hold h hcl
  rcases getConn_cases cfg s t r with ⟨hf, h1⟩ | ⟨hf, _, h1⟩ | ⟨hf, _, _, h1⟩ | ⟨hf, _, p', hn, h1⟩ |
    ⟨c', q, hf, _, _, h1⟩ | ⟨c', q, p2, hf, h2, h1⟩
  · rw [h1] at h; cases h
  · rw [h1] at h; dsimp only at h; split at h <;> cases h
  · rw [h1] at h; cases h
  · exfalso
    rw [h1] at h hcl; cases h
    have := (loc_newConn hl hn).2.2.2.1
    have hcl' : s.made ∈ p'.closed := hcl
    rw [this] at hcl'
    exact Nat.lt_irrefl _ (hold _ hcl')
  · rw [h1] at h; cases h
  · have hcc : c' = c := by
      rw [h1] at h; split at h <;> (cases h; rfl)
    subst hcc
    have hmem : c' ∈ s.freeL := by simp [freeL, hf]
    refine ⟨hmem, ?_⟩
    have hlt := hl.bound c' (List.mem_append_left _ hmem)
    have hp2 : c' ∈ p2.closed → c' ∈ s.closed := by
      rcases h2 with ⟨_, p1, h3, rfl⟩ | ⟨_, rfl⟩
      · have hp1 : p1.closed = s.closed := by
          unfold newConn at h3
          split at h3
          · cases h3
          · cases h3; rfl
        intro hm
        unfold putConn at hm
        split at hm
        · rcases List.mem_cons.1 hm with e | hm
          · exact absurd e (Nat.ne_of_lt hlt)
          · rwa [hp1] at hm
        · split at hm
          · rcases List.mem_cons.1 hm with e | hm
            · exact absurd e (Nat.ne_of_lt hlt)
            · rwa [← hp1]
          · rwa [← hp1]
      · exact id
    by_cases hd : isDropped p2 c' r = true
    · simp only [isDropped, Bool.or_eq_true, List.contains_iff_mem] at hd ⊢
      rcases hd with hd | hd
      · exact .inl (hp2 hd)
      · exact .inr hd
    · rw [h1, if_neg hd] at hcl
      have := hp2 hcl
      simp [isDropped, this]

example : (getConn {} (poolRun {} { free := some [0], num := 1, made := 1 } [.get false false]).pool false false).2
    = .ok 1 := by decide

/-! ### C40 -/

theorem closed_mono_get (cfg : PoolCfg) (p : CPool) (t r : Bool) : ∀ c ∈ p.closed, c ∈ (getConn cfg p t r).1.closed := by
  intro c hc
  have hput : ∀ (p : CPool) n, c ∈ p.closed → c ∈ (putConn cfg p n).closed := by
    intro p n h
    unfold putConn
    split
    · exact List.mem_cons_of_mem _ h
    · split
      · exact List.mem_cons_of_mem _ h
      · exact h
  have hnew : ∀ (p p' : CPool) n, newConn cfg p = (p', .ok n) → c ∈ p.closed → c ∈ p'.closed := by
    intro p p' n h hc
    unfold newConn at h
    split at h
    · cases h
    · cases h; exact hc
  rcases getConn_cases cfg p t r with ⟨hf, h1⟩ | ⟨hf, _, h1⟩ | ⟨hf, _, _, h1⟩ | ⟨hf, _, p', hn, h1⟩ |
    ⟨c', q, hf, _, _, h1⟩ | ⟨c', q, p2, hf, h2, h1⟩
  · rw [h1]; exact hc
  · rw [h1]; exact hc
  · rw [h1]; exact hc
  · rw [h1]; exact hnew _ _ _ hn hc
  · rw [h1]; exact hc
  · have h2' : c ∈ p2.closed := by
      rcases h2 with ⟨_, p1, h3, rfl⟩ | ⟨_, rfl⟩
      · exact hput _ _ (hnew _ _ _ h3 hc)
      · exact hc
    rw [h1]; split
    · exact List.mem_cons_of_mem _ h2'
    · exact h2'

theorem closed_mono_step (cfg : PoolCfg) (s : PoolSys) (op : PoolOp) :
    ∀ c ∈ s.pool.closed, c ∈ (poolStep cfg s op).pool.closed := by
  intro c hc
  cases op with
  | get t r =>
    have := closed_mono_get cfg s.pool t r c hc
    simp only [poolStep]; split <;> simp_all
  | put d =>
    simp only [poolStep]; split
    · unfold putConn
      split
      · exact List.mem_cons_of_mem _ hc
      · split
        · exact List.mem_cons_of_mem _ hc
        · exact hc
    · exact hc
  | closeConn d =>
    simp only [poolStep]; split
    · exact List.mem_cons_of_mem _ hc
    · exact hc
  | closePool =>
    simp only [poolStep, CPool.close]; split
    · exact hc
    · exact List.mem_append_right _ hc

theorem stays_closed_step (cfg : PoolCfg) (s : PoolSys) (op : PoolOp) (h : s.pool.free = none) :
    (poolStep cfg s op).pool.free = none := by
  cases op with
  | get t r => simp [poolStep, getConn_free_none h, h]
  | put d => simp only [poolStep]; split <;> simp [putConn, h, CPool.closeConn]
  | closeConn d => simp only [poolStep]; split <;> simp [h, CPool.closeConn]
  | closePool => simp [poolStep, CPool.close, h]

theorem stays_closed (cfg : PoolCfg) (s : PoolSys) (ops : List PoolOp) (h : s.pool.free = none) :
    (ops.foldl (poolStep cfg) s).pool.free = none := by
  induction ops generalizing s with
  | nil => exact h
  | cons op ops ih => exact ih _ (stays_closed_step cfg s op h)

theorem closed_mono (cfg : PoolCfg) (s : PoolSys) (ops : List PoolOp) :
    ∀ c ∈ s.pool.closed, c ∈ (ops.foldl (poolStep cfg) s).pool.closed := by
  induction ops generalizing s with
  | nil => exact fun _ h => h
  | cons op ops ih => exact fun c h => ih _ c (closed_mono_step cfg s op c h)

/-- C40: for every history before (`ops`) and after (`ops2`) a `close()`: the connections that were free are
closed; afterwards the pool is empty, every `get_conn` raises `ClosedPoolError` without changing anything,
and every `put_conn` closes the connection given and keeps nothing. -/
theorem C40_closed_pool (cfg : PoolCfg) (p : CPool) (ops ops2 : List PoolOp) :
    let before := (poolRun cfg p ops).pool
    let after := (poolRun cfg p (ops ++ .closePool :: ops2)).pool
    (∀ c ∈ before.freeL, c ∈ after.closed) ∧
    after.freeL = [] ∧
    (∀ t r, getConn cfg after t r = (after, .raise .closedPool)) ∧
    (∀ c, (putConn cfg after c).freeL = [] ∧ c ∈ (putConn cfg after c).closed) := by
  intro before after
  have hrun : after = (ops2.foldl (poolStep cfg) (poolStep cfg (poolRun cfg p ops) .closePool)).pool := by
    simp [after, poolRun]
  have hnone : (poolStep cfg (poolRun cfg p ops) .closePool).pool.free = none := by
    simp only [poolStep, CPool.close]; split
    · assumption
    · rfl
  have hfree : after.free = none := by rw [hrun]; exact stays_closed cfg _ ops2 hnone
  refine ⟨?_, by simp [freeL, hfree], fun t r => getConn_free_none hfree t r, ?_⟩
  · intro c hc
    rw [hrun]
    apply closed_mono
    simp only [poolStep, CPool.close]
    split
    · next hf => simp only [before, freeL, hf] at hc; cases hc
    · next q hf =>
      simp only [before, freeL, hf, Option.getD_some] at hc
      exact List.mem_append_left _ hc
  · intro c
    simp [putConn, hfree, CPool.closeConn, freeL]

example : (poolRun {} { free := some [0], num := 1, made := 1 } [.get false false, .closePool, .put 0]).pool
    = { free := none, num := 2, made := 2, closed := [0, 1] } := by decide

/-! ### C41 -/

/-- C41: for every manager state, every outcome of the acquisition and every body.
1. If the connection was acquired, the world at the end is the world left by the body with exactly one
   `put_conn` of that connection on that pool applied, and the body's value or exception is the result.
2. If the acquisition failed, nothing is put back, the body does not run and the exception propagates. -/
theorem C41_scope {K α : Type} [DecidableEq K] (cfg : PoolCfg) (w : MgrWorld K) (k : K) (t r : Bool)
    (body : MgrWorld K → PoolRef → ConnRef → MgrWorld K × Except PyExc α) :
    (∀ w1 p pool pool' c, w.poolFor cfg k = (w1, .ok p) → w1.pools[p]? = some pool →
      pool.getConn cfg t r = (pool', .ok c) →
      let (w2, res) := body (w1.upd p fun _ => pool') p c
      w.connectionScope cfg k t r body
        = (w2.upd p (fun q => q.putConn cfg c),
            (match res with | .ok a => .ok a | .error e => .raise e), [(p, c)])) ∧
    (∀ w1 e, w.poolFor cfg k = (w1, .raise e) → w.connectionScope cfg k t r body = (w1, .raise e, [])) ∧
    (∀ w1 p pool pool' e, w.poolFor cfg k = (w1, .ok p) → w1.pools[p]? = some pool →
      pool.getConn cfg t r = (pool', .raise e) →
      w.connectionScope cfg k t r body = (w1.upd p (fun _ => pool'), .raise e, [])) := by
  refine ⟨?_, ?_, ?_⟩
  · intro w1 p pool pool' c h1 h2 h3
    simp only [MgrWorld.connectionScope, h1, h2, h3]
    split <;> rename_i heq <;> simp [heq]
  · intro w1 e h1
    simp only [MgrWorld.connectionScope, h1]
  · intro w1 p pool pool' e h1 h2 h3
    simp only [MgrWorld.connectionScope, h1, h2, h3]

example : (MgrWorld.connectionScope {} ({ mgr := PoolMgr.init 10 } : MgrWorld Nat) 7 false false
    (fun w _ _ => (w, (.error .timeoutError : Except PyExc Unit)))).2 = (.raise .timeoutError, [(0, 0)]) := rfl

example : (MgrWorld.connectionScope {} ({ mgr := PoolMgr.init 0 } : MgrWorld Nat) 7 false false
    (fun w _ _ => (w, (.ok () : Except PyExc Unit)))).2 = (.raise .closedPool, []) := rfl

end Bolt
