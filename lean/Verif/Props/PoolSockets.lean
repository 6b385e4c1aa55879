import Verif.Model.PoolSockets
import Verif.Props.Pool
/-!
# C187: a pool refuses a connection only after it has made as many as it may
-/
namespace Bolt
open CPool Spec

/-- C187 as listed: `get_conn` of a pool that does not block raises `EmptyPoolError` only if the pool has made
`max_connections` connections. -/
def C187_full : Prop :=
  ∀ (cfg : PoolCfg) (p : CPool) (ops : List PoolOpS) (t r k : Bool), CPool.init cfg = .ok p → cfg.block = false →
    (getConnS cfg (poolRunS cfg p ops).pool t r k).2 = .raise .emptyPool → cfg.maxConns ≤ (poolRunS cfg p ops).pool.made

/-- the default pool: nineteen calls of `get_conn` while no socket can be created -/
theorem C187_violated : ¬ C187_full := by
  intro h
  have := h {} { free := some [0], num := 1, made := 1 } (List.replicate 19 (.get false false false)) false false true rfl rfl
    (by decide +kernel)
  exact absurd this (by decide +kernel)

/-! ## with sockets that can be created it is the pool of `Model/Pool.lean` -/

theorem newConnS_true (cfg : PoolCfg) (p : CPool) : newConnS cfg p true = newConn cfg p := rfl

theorem getConnS_true (cfg : PoolCfg) (p : CPool) (t r : Bool) : getConnS cfg p t r true = getConn cfg p t r := rfl

namespace Spec

/-- the same history without failing creations -/
def usualOp : PoolOpS → PoolOp
  | .get t r _ => .get t r
  | .put c => .put c
  | .closeConn c => .closeConn c
  | .closePool => .closePool

/-- every socket of the history can be created -/
def SocketsMade (ops : List PoolOpS) : Prop := ∀ t r k, PoolOpS.get t r k ∈ ops → k = true

end Spec

/-- As long as sockets can be created, the pool is the one C35-C41 are about. -/
theorem C187_same (cfg : PoolCfg) (p : CPool) (ops : List PoolOpS) (h : SocketsMade ops) :
    poolRunS cfg p ops = poolRun cfg p (ops.map usualOp) := by
  unfold poolRunS poolRun
  generalize poolStart p = s
  induction ops generalizing s with
  | nil => rfl
  | cons op ops ih =>
    have hs : poolStepS cfg s op = poolStep cfg s (usualOp op) := by
      cases op with
      | get t r k =>
        cases h t r k (by simp)
        rfl
      | _ => rfl
    rw [List.foldl_cons, List.map_cons, List.foldl_cons, hs]
    exact ih (fun t r k hm => h t r k (List.mem_cons_of_mem _ hm)) _

/-! ## what a failed creation leaves behind -/

/-- one, if this is a call of `get_conn` that fails to create a connection -/
def failedOp (cfg : PoolCfg) (s : PoolSys) : PoolOpS → Nat
  | .get t r k => if (getConnS cfg s.pool t r k).2 = .raise .other then 1 else 0
  | _ => 0

/-- the number of calls of `get_conn` in a history that fail to create a connection -/
def failures (cfg : PoolCfg) : PoolSys → List PoolOpS → Nat
  | _, [] => 0
  | s, op :: ops => failedOp cfg s op + failures cfg (poolStepS cfg s op) ops

theorem newConnS_cases (cfg : PoolCfg) (p : CPool) (k : Bool) :
    ((cfg.maxConns : Int) ≤ p.num ∧ newConnS cfg p k = (p, .error .emptyPool)) ∨
    (p.num < cfg.maxConns ∧ k = true ∧ newConnS cfg p k = ({ p with num := p.num + 1, made := p.made + 1 }, .ok p.made)) ∨
    (p.num < cfg.maxConns ∧ k = false ∧ newConnS cfg p k = ({ p with num := p.num + 1 }, .error .other)) := by
  unfold newConnS
  split
  · exact .inl ⟨by omega, rfl⟩
  · cases k
    · exact .inr (.inr ⟨by omega, rfl, rfl⟩)
    · exact .inr (.inl ⟨by omega, rfl, rfl⟩)

theorem putConn_num (cfg : PoolCfg) (p : CPool) (c : ConnRef) :
    (putConn cfg p c).num ≤ p.num ∧ (putConn cfg p c).made = p.made := by
  unfold putConn
  split
  · exact ⟨Int.le_refl _, rfl⟩
  · split
    · exact ⟨by simp [closeConn]; omega, rfl⟩
    · exact ⟨Int.le_refl _, rfl⟩

/-- one call, and the numbers -/
theorem getConnS_num (cfg : PoolCfg) (p : CPool) (t r k : Bool) :
    (getConnS cfg p t r k).1.num - (getConnS cfg p t r k).1.made ≤
      p.num - p.made + (if (getConnS cfg p t r k).2 = .raise .other then 1 else 0) ∧
    p.made ≤ (getConnS cfg p t r k).1.made := by
  unfold getConnS
  split
  · simp
  · split
    · split <;> simp
    · rcases newConnS_cases cfg p k with ⟨_, h⟩ | ⟨_, _, h⟩ | ⟨_, _, h⟩ <;> rw [h] <;> simp <;> omega
  · next c q hf =>
    dsimp only
    split
    · rcases newConnS_cases cfg { p with free := some q } k with ⟨_, h⟩ | ⟨_, _, h⟩ | ⟨_, _, h⟩
      · rw [h]; simp
      · rw [h]
        dsimp only
        have hp := putConn_num cfg { p with free := some q, num := p.num + 1, made := p.made + 1 } p.made
        split
        · simp only [closeConn]
          dsimp only at hp
          refine ⟨?_, by rw [hp.2]; omega⟩
          rw [hp.2]
          simp
          omega
        · dsimp only at hp ⊢
          refine ⟨?_, by rw [hp.2]; omega⟩
          rw [hp.2]
          simp
          omega
      · rw [h]; simp; omega
    · dsimp only
      split
      · simp [closeConn]; omega
      · simp

theorem poolStepS_num (cfg : PoolCfg) (s : PoolSys) (op : PoolOpS) :
    (poolStepS cfg s op).pool.num - (poolStepS cfg s op).pool.made ≤
      s.pool.num - s.pool.made + failedOp cfg s op := by
  cases op with
  | get t r k =>
    have h := (getConnS_num cfg s.pool t r k).1
    simp only [poolStepS, failedOp]
    rcases hg : getConnS cfg s.pool t r k with ⟨p', x⟩
    rw [hg] at h
    dsimp only at h
    cases x with
    | ok c => simpa using h
    | hang => simpa using h
    | raise e =>
      dsimp only
      refine Int.le_trans h ?_
      split <;> simp
  | put c =>
    simp only [poolStepS, poolStep]
    split
    · have := putConn_num cfg s.pool c
      dsimp only [failedOp]
      rw [this.2]
      omega
    · simp [failedOp]
  | closeConn c =>
    simp only [poolStepS, poolStep]
    split <;> simp [closeConn, failedOp]
  | closePool =>
    simp only [poolStepS, poolStep, CPool.close]
    split <;> simp [failedOp]

theorem run_num (cfg : PoolCfg) : ∀ (ops : List PoolOpS) (s : PoolSys),
    (ops.foldl (poolStepS cfg) s).pool.num - (ops.foldl (poolStepS cfg) s).pool.made ≤ s.pool.num - s.pool.made + failures cfg s ops := by
  intro ops
  induction ops with
  | nil => intro s; simp [failures]
  | cons op ops ih =>
    intro s
    have h1 := ih (poolStepS cfg s op)
    have h2 := poolStepS_num cfg s op
    rw [List.foldl_cons, failures]
    omega

theorem fill_num {cfg : PoolCfg} : ∀ (i : Nat) {q p : CPool}, fill cfg i q = .ok p → p.num - p.made = q.num - q.made ∧
    p.num = q.num + i ∧ ((cfg.maxConns : Int) < q.num + i → i = 0) ∧
    (∀ l, q.free = some l → ∃ l', p.free = some l' ∧ l'.length = l.length + i) := by
  intro i
  induction i with
  | zero =>
    intro q p h
    cases h
    exact ⟨rfl, by simp, fun _ => rfl, fun l hl => ⟨l, hl, rfl⟩⟩
  | succ i ih =>
    intro q p h
    unfold fill newConn at h
    split at h
    · next h1 => split at h1 <;> cases h1; cases h
    · next q' c h1 =>
      split at h1
      · cases h1
      · next hn =>
        cases h1
        split at h
        · cases h
        · next q0 hq0 =>
          split at h
          · cases h
          · obtain ⟨h1, h2, h3, h4⟩ := ih h
            dsimp only at h1 h2 h3 h4 hq0
            refine ⟨by omega, by omega, ?_, ?_⟩
            · intro hlt
              have := h3 (by omega)
              subst this
              omega
            · intro l hl
              obtain ⟨l', h5, h6⟩ := h4 _ rfl
              rw [hl] at hq0
              cases hq0
              exact ⟨l', h5, by rw [h6, List.length_cons]; omega⟩

theorem get_empty_num {cfg : PoolCfg} (hb : cfg.block = false) {p : CPool} {t r k : Bool}
    (h : (getConnS cfg p t r k).2 = .raise .emptyPool) : (cfg.maxConns : Int) ≤ p.num := by
  revert h
  unfold getConnS
  split
  · intro h; cases h
  · rw [if_neg (by simp [hb])]
    rcases newConnS_cases cfg p k with ⟨h1, h⟩ | ⟨_, _, h⟩ | ⟨_, _, h⟩ <;> rw [h] <;> intro h
    · exact h1
    · cases h
    · cases h
  · next c q hf =>
    dsimp only
    by_cases hq : q.length < cfg.minFree
    · rw [if_pos hq]
      rcases newConnS_cases cfg { p with free := some q } k with ⟨h1, h⟩ | ⟨_, _, h⟩ | ⟨_, _, h⟩ <;> rw [h] <;> dsimp only
      · intro; exact h1
      · split <;> (intro h; cases h)
      · intro h; cases h
    · rw [if_neg hq]
      dsimp only
      split <;> (intro h; cases h)

/-- C187, what holds: the pool refuses a connection only if the connections it has made and the calls that failed to make
one are together as many as it may make. Missing: the failed calls should not count (`C187_always`). -/
theorem C187_count_partial (cfg : PoolCfg) (p : CPool) (ops : List PoolOpS) (t r k : Bool) (hp : CPool.init cfg = .ok p)
    (hb : cfg.block = false) (h : (getConnS cfg (poolRunS cfg p ops).pool t r k).2 = .raise .emptyPool) :
    cfg.maxConns ≤ (poolRunS cfg p ops).pool.made + failures cfg (poolStart p) ops := by
  have h1 := get_empty_num hb h
  have h2 := run_num cfg ops (poolStart p)
  have h3 := (fill_num _ hp).1
  have e : (poolStart p).pool = p := rfl
  rw [e] at h2
  simp only [poolRunS] at h1 ⊢
  have e0 : ({} : CPool).num = 0 ∧ ({} : CPool).made = 0 := ⟨rfl, rfl⟩
  rw [e0.1, e0.2] at h3
  omega

/-- So in histories without failures C187 holds. -/
theorem C187_calm (cfg : PoolCfg) (p : CPool) (ops : List PoolOpS) (t r k : Bool) (hp : CPool.init cfg = .ok p)
    (hb : cfg.block = false) (hs : failures cfg (poolStart p) ops = 0)
    (h : (getConnS cfg (poolRunS cfg p ops).pool t r k).2 = .raise .emptyPool) : cfg.maxConns ≤ (poolRunS cfg p ops).pool.made := by
  have := C187_count_partial cfg p ops t r k hp hb h
  omega

/-! ## the pool does not recover -/

/-- nothing is left and nothing can be made -/
structure Dead (cfg : PoolCfg) (s : PoolSys) : Prop where
  num : (cfg.maxConns : Int) ≤ s.pool.num
  free : s.pool.free = some [] ∨ s.pool.free = none
  held : s.held = []

theorem dead_get {cfg : PoolCfg} (hb : cfg.block = false) {s : PoolSys} (h : Dead cfg s) (t r k : Bool) :
    getConnS cfg s.pool t r k = (s.pool, .raise .emptyPool) ∨ getConnS cfg s.pool t r k = (s.pool, .raise .closedPool) := by
  unfold getConnS
  rcases h.free with hf | hf <;> rw [hf]
  · left
    dsimp only
    rw [if_neg (by simp [hb])]
    unfold newConnS
    rw [if_pos h.num]
  · right; rfl

theorem dead_step {cfg : PoolCfg} (hb : cfg.block = false) {s : PoolSys} (h : Dead cfg s) (op : PoolOpS) : Dead cfg (poolStepS cfg s op) := by
  cases op with
  | get t r k =>
    simp only [poolStepS]
    rcases dead_get hb h t r k with e | e <;> rw [e] <;> exact ⟨h.num, h.free, h.held⟩
  | put c =>
    simp only [poolStepS, poolStep, h.held, List.not_mem_nil, if_false]
    exact ⟨h.num, h.free, h.held⟩
  | closeConn c =>
    simp only [poolStepS, poolStep, h.held, List.not_mem_nil, if_false]
    exact ⟨h.num, h.free, h.held⟩
  | closePool =>
    simp only [poolStepS, poolStep, CPool.close]
    rcases h.free with hf | hf <;> rw [hf]
    · exact ⟨h.num, .inr rfl, h.held⟩
    · exact ⟨h.num, .inr hf, h.held⟩

theorem dead_run {cfg : PoolCfg} (hb : cfg.block = false) : ∀ (ops : List PoolOpS) {s : PoolSys}, Dead cfg s →
    Dead cfg (ops.foldl (poolStepS cfg) s)
  | [], _, h => h
  | op :: ops, _, h => dead_run hb ops (dead_step hb h op)

/-- calls of `get_conn` while no socket can be created, on a pool that keeps no more than `min_free_connections` -/
theorem starve {cfg : PoolCfg} (hb : cfg.block = false) (t r : Bool) : ∀ (n : Nat) (s : PoolSys) (q : List ConnRef),
    s.pool.free = some q → q.length ≤ cfg.minFree → s.held = [] → s.pool.num ≤ cfg.maxConns →
    ∃ q', ((List.replicate n (PoolOpS.get t r false)).foldl (poolStepS cfg) s).pool.free = some q' ∧
      q'.length = q.length - n ∧
      ((List.replicate n (PoolOpS.get t r false)).foldl (poolStepS cfg) s).held = [] ∧
      ((List.replicate n (PoolOpS.get t r false)).foldl (poolStepS cfg) s).pool.num = min (s.pool.num + n) cfg.maxConns := by
  intro n
  induction n with
  | zero => intro s q hq hl hh hn; exact ⟨q, hq, rfl, hh, by simp; omega⟩
  | succ n ih =>
    intro s q hq hl hh hn
    rw [List.replicate_succ, List.foldl_cons]
    have step : ∃ e, getConnS cfg s.pool t r false =
        ({ s.pool with free := some q.tail, num := min (s.pool.num + 1) cfg.maxConns }, .raise e) := by
      unfold getConnS
      rw [hq]
      cases q with
      | nil =>
        dsimp only
        rw [if_neg (by simp [hb])]
        rcases newConnS_cases cfg s.pool false with ⟨h1, h⟩ | ⟨_, h, _⟩ | ⟨h1, _, h⟩
        · rw [h]
          have : min (s.pool.num + 1) (cfg.maxConns : Int) = s.pool.num := by omega
          refine ⟨.emptyPool, ?_⟩
          rw [this]
          cases hp : s.pool
          rw [hp] at hq
          cases hq
          rfl
        · cases h
        · rw [h]
          have : min (s.pool.num + 1) (cfg.maxConns : Int) = s.pool.num + 1 := by omega
          refine ⟨.other, ?_⟩
          rw [this]
          cases hp : s.pool
          rw [hp] at hq
          cases hq
          rfl
      | cons c q =>
        dsimp only
        rw [List.length_cons] at hl
        rw [if_pos (by omega)]
        rcases newConnS_cases cfg { s.pool with free := some q } false with ⟨h1, h⟩ | ⟨_, h, _⟩ | ⟨h1, _, h⟩
        · rw [h]
          dsimp only at h1
          have : min (s.pool.num + 1) (cfg.maxConns : Int) = s.pool.num := by omega
          exact ⟨_, by rw [this]; rfl⟩
        · cases h
        · rw [h]
          dsimp only at h1
          have : min (s.pool.num + 1) (cfg.maxConns : Int) = s.pool.num + 1 := by omega
          exact ⟨_, by rw [this]; rfl⟩
    obtain ⟨e, he⟩ := step
    have hstep : (poolStepS cfg s (.get t r false)).pool = { s.pool with free := some q.tail, num := min (s.pool.num + 1) cfg.maxConns } ∧
        (poolStepS cfg s (.get t r false)).held = [] := by
      simp only [poolStepS]
      rw [he]
      exact ⟨rfl, hh⟩
    obtain ⟨q', h1, h2, h3, h4⟩ := ih (poolStepS cfg s (.get t r false)) q.tail (by rw [hstep.1])
      (by rw [List.length_tail]; omega) hstep.2 (by rw [hstep.1]; dsimp only; omega)
    refine ⟨q', h1, by rw [h2, List.length_tail]; omega, h3, ?_⟩
    rw [h4, hstep.1]
    dsimp only
    omega

/-- What happens, always: a pool that keeps no more connections than `min_free_connections` (as by default), of which
connections are wanted `max_connections` times while no socket can be created, never hands out a connection again, whatever
sockets are available later and whatever its users do. -/
theorem C187_always (cfg : PoolCfg) (p : CPool) (hp : CPool.init cfg = .ok p) (hb : cfg.block = false) (hi : cfg.initial ≤ cfg.minFree)
    (n : Nat) (hn : cfg.maxConns ≤ n) (t r : Bool) (ops : List PoolOpS) :
    (poolRunS cfg p (List.replicate n (.get t r false) ++ ops)).held = [] ∧
    ∀ t' r' k, (getConnS cfg (poolRunS cfg p (List.replicate n (.get t r false) ++ ops)).pool t' r' k).2 = .raise .emptyPool ∨
      (getConnS cfg (poolRunS cfg p (List.replicate n (.get t r false) ++ ops)).pool t' r' k).2 = .raise .closedPool := by
  obtain ⟨-, h2, h3, h4⟩ := fill_num _ hp
  obtain ⟨q, hq, hql⟩ := h4 [] rfl
  have e0 : ({} : CPool).num = 0 := rfl
  rw [e0, Int.zero_add] at h2 h3
  simp only [List.length_nil, Nat.zero_add] at hql
  have hcap : cfg.initial ≤ cfg.maxConns := by
    rcases Nat.lt_or_ge cfg.maxConns cfg.initial with h | h
    · have := h3 (by omega); omega
    · exact h
  obtain ⟨q', h5, h6, h7, h8⟩ := starve hb t r n (poolStart p) q hq (by omega) rfl (by show p.num ≤ _; omega)
  have hd : Dead cfg ((List.replicate n (PoolOpS.get t r false)).foldl (poolStepS cfg) (poolStart p)) := by
    refine ⟨?_, .inl ?_, h7⟩
    · rw [h8]
      have : (poolStart p).pool.num = p.num := rfl
      omega
    · rw [h5, List.length_eq_zero_iff.1 (by omega : q'.length = 0)]
  have hrun := dead_run hb ops hd
  rw [← List.foldl_append] at hrun
  refine ⟨hrun.held, fun t' r' k => ?_⟩
  rcases dead_get hb hrun t' r' k with e | e
  · exact .inl (by rw [poolRunS, e])
  · exact .inr (by rw [poolRunS, e])

/-! ### examples -/

/-- two failures and three connections exhaust a pool of five -/
def exSockets : List PoolOpS := [.get false false false, .get false false true, .get false false false, .get false false true,
  .put 1, .get false true false]

example : CPool.init { maxConns := 5 } = .ok { free := some [0], num := 1, made := 1 } := rfl
example : (poolRunS { maxConns := 5 } { free := some [0], num := 1, made := 1 } exSockets).pool.num = 5 := by decide
example : failures { maxConns := 5 } (poolStart { free := some [0], num := 1, made := 1 }) exSockets = 2 ∧
    (getConnS { maxConns := 5 } (poolRunS { maxConns := 5 } { free := some [0], num := 1, made := 1 } exSockets).pool false false true).2 =
      .raise .emptyPool := by decide
example : SocketsMade [.get false true true, .put 0, .closePool] := by
  intro t r k h
  simp at h
  exact h.2.2
/-- the default pool after a shortage of sockets -/
example : let s := poolRunS {} { free := some [0], num := 1, made := 1 } (List.replicate 20 (.get false false false) ++
    [.get false false true, .put 3, .get true true true])
    s.held = [] ∧ s.pool.made = 1 ∧ s.pool.num = 20 := by decide +kernel

end Bolt
