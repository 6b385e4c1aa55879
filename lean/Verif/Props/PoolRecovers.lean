import Verif.Props.PoolLedger
/-!
# C195: pools after they have refused
-/
namespace Bolt
open Spec CPool

namespace Spec

/-- arguments of a pool that make sense: it does not block, and may have more connections than it must keep free -/
def Sensible (cfg : PoolCfg) : Prop := cfg.block = false ∧ cfg.minFree < cfg.maxConns

end Spec

/-- C195 as listed: a pool, to which every connection it has handed out was given back, hands out a connection. -/
def C195_full : Prop :=
  ∀ (cfg : PoolCfg) (p : CPool) (ops : List PoolOp), Sensible cfg → CPool.init cfg = .ok p → .closePool ∉ ops →
    (poolRun cfg p ops).held = [] → ∀ t r, ∃ c, ((poolRun cfg p ops).pool.getConn cfg t r).2 = .ok c

/-- when a pool that does not block refuses -/
theorem getConn_refuses (cfg : PoolCfg) (hb : cfg.block = false) (p : CPool) (q : List ConnRef) (hf : p.free = some q) (t r : Bool) :
    ((p.getConn cfg t r).2 = .raise .emptyPool ↔ (q = [] ∨ q.length ≤ cfg.minFree) ∧ (cfg.maxConns : Int) ≤ p.num) ∧
    ((p.getConn cfg t r).2 = .raise .emptyPool ∨ ∃ c, (p.getConn cfg t r).2 = .ok c) ∧
    ((p.getConn cfg t r).2 = .raise .emptyPool → (p.getConn cfg t r).1 = { p with free := some q.tail }) := by
  unfold CPool.getConn
  rw [hf]
  cases q with
  | nil =>
    simp only [hb]
    unfold newConn
    by_cases hn : p.num ≥ cfg.maxConns
    · rw [if_pos hn]
      refine ⟨⟨fun _ => ⟨.inl trivial, hn⟩, fun _ => rfl⟩, .inl rfl, fun _ => ?_⟩
      simp [← hf]
    · rw [if_neg hn]
      refine ⟨⟨fun h => (by cases h), fun h => absurd h.2 hn⟩, .inr ⟨_, rfl⟩, fun h => (by cases h)⟩
  | cons c q =>
    dsimp only
    by_cases hm : q.length < cfg.minFree
    · rw [if_pos hm]
      unfold newConn
      dsimp only
      by_cases hn : p.num ≥ cfg.maxConns
      · rw [if_pos hn]
        exact ⟨⟨fun _ => ⟨.inr hm, hn⟩, fun _ => rfl⟩, .inl rfl, fun _ => rfl⟩
      · rw [if_neg hn]
        dsimp only
        split
        · exact ⟨⟨fun h => (by cases h), fun h => absurd h.2 hn⟩, .inr ⟨_, rfl⟩, fun h => (by cases h)⟩
        · exact ⟨⟨fun h => (by cases h), fun h => absurd h.2 hn⟩, .inr ⟨_, rfl⟩, fun h => (by cases h)⟩
    · rw [if_neg hm]
      dsimp only
      have hno : ¬ ((c :: q = [] ∨ (c :: q).length ≤ cfg.minFree) ∧ (cfg.maxConns : Int) ≤ p.num) := by
        rintro ⟨h | h, -⟩
        · cases h
        · rw [List.length_cons] at h
          omega
      split
      · exact ⟨⟨fun h => (by cases h), fun h => absurd h hno⟩, .inr ⟨_, rfl⟩, fun h => (by cases h)⟩
      · exact ⟨⟨fun h => (by cases h), fun h => absurd h hno⟩, .inr ⟨_, rfl⟩, fun h => (by cases h)⟩

theorem freeL_some {p : CPool} {q : List ConnRef} (h : p.free = some q) : p.freeL = q := by
  unfold CPool.freeL
  rw [h]
  rfl

/-- C195, exactly, in every history: an open pool refuses if and only if no more connections than `min_free_connections` are
free, and those that are free, held, or were lost by calls that were refused, are `max_connections` or more (not counting one
for every dropped connection that was handed out); otherwise it hands one out. -/
theorem C195_exact_partial (cfg : PoolCfg) (p : CPool) (hp : CPool.init cfg = .ok p) (hb : cfg.block = false)
    (ops : List PoolOp) (ho : (poolRun cfg p ops).pool.free.isSome = true) (t r : Bool) :
    let s := poolRun cfg p ops
    ((s.pool.getConn cfg t r).2 = .raise .emptyPool ↔
      (s.pool.freeL = [] ∨ s.pool.freeL.length ≤ cfg.minFree) ∧
      cfg.maxConns + dropCount cfg p ops ≤ s.pool.freeL.length + s.held.length + s.lost.length) ∧
    ((s.pool.getConn cfg t r).2 = .raise .emptyPool ∨ ∃ c, (s.pool.getConn cfg t r).2 = .ok c) := by
  dsimp only
  obtain ⟨q, hq⟩ := Option.isSome_iff_exists.1 ho
  obtain ⟨h1, h2, -⟩ := getConn_refuses cfg hb _ q hq t r
  have hl := (C38_ledger_partial cfg p hp ops).1 ho
  refine ⟨?_, h2⟩
  rw [h1, hl, freeL_some hq]
  constructor
  · rintro ⟨a, b⟩
    exact ⟨a, by omega⟩
  · rintro ⟨a, b⟩
    exact ⟨a, by omega⟩

/-- A call that is refused although a connection is free takes that connection away for good: nobody holds it, it is not free
any more, and it goes on being counted. -/
theorem C195_lost (cfg : PoolCfg) (hb : cfg.block = false) (s : PoolSys) (c : ConnRef) (q : List ConnRef)
    (hf : s.pool.free = some (c :: q)) (t r : Bool) (h : (s.pool.getConn cfg t r).2 = .raise .emptyPool) :
    (poolStep cfg s (.get t r)).pool = { s.pool with free := some q } ∧ (poolStep cfg s (.get t r)).held = s.held ∧
    (poolStep cfg s (.get t r)).lost = c :: s.lost := by
  have h3 := (getConn_refuses cfg hb s.pool (c :: q) hf t r).2.2 h
  simp only [poolStep]
  generalize s.pool.getConn cfg t r = x at h h3
  obtain ⟨p', x⟩ := x
  dsimp only at h h3
  subst h h3
  refine ⟨rfl, rfl, ?_⟩
  show s.popped ++ s.lost = _
  unfold PoolSys.popped
  rw [hf]
  rfl

/-- the pool hands out nothing any more, though nobody has anything of it -/
structure Barren (cfg : PoolCfg) (s : PoolSys) : Prop where
  held : s.held = []
  dry : s.pool.free = none ∨ (∃ q, s.pool.free = some q ∧ (q = [] ∨ q.length ≤ cfg.minFree)) ∧ (cfg.maxConns : Int) ≤ s.pool.num

theorem Barren.raises {cfg : PoolCfg} (hb : cfg.block = false) {s : PoolSys} (h : Barren cfg s) (t r : Bool) :
    ∃ e, (s.pool.getConn cfg t r).2 = .raise e := by
  rcases h.dry with h | ⟨⟨q, hq, hl⟩, hn⟩
  · refine ⟨.closedPool, ?_⟩
    unfold CPool.getConn
    rw [h]
  · exact ⟨_, (getConn_refuses cfg hb s.pool q hq t r).1.2 ⟨hl, hn⟩⟩

theorem Barren.step {cfg : PoolCfg} (hb : cfg.block = false) {s : PoolSys} (h : Barren cfg s) (op : PoolOp) :
    Barren cfg (poolStep cfg s op) := by
  cases op with
  | get t r =>
    have key : ∀ x : CPool × Res ConnRef, s.pool.getConn cfg t r = x → (∃ e, x.2 = .raise e) →
        (poolStep cfg s (.get t r)).held = s.held ∧ (poolStep cfg s (.get t r)).pool = x.1 := by
      rintro ⟨p', x⟩ hx ⟨e, rfl⟩
      simp only [poolStep, hx]
      exact ⟨trivial, trivial⟩
    obtain ⟨k1, k2⟩ := key _ rfl (h.raises hb t r)
    refine ⟨k1.trans h.held, ?_⟩
    rw [k2]
    rcases h.dry with hd | ⟨⟨q, hq, hl⟩, hn⟩
    · left
      have : s.pool.getConn cfg t r = (s.pool, .raise .closedPool) := by
        unfold CPool.getConn
        rw [hd]
      rw [this]
      exact hd
    · right
      rw [(getConn_refuses cfg hb s.pool q hq t r).2.2 ((getConn_refuses cfg hb s.pool q hq t r).1.2 ⟨hl, hn⟩)]
      refine ⟨⟨q.tail, rfl, ?_⟩, hn⟩
      rcases hl with rfl | hl
      · exact .inl rfl
      · right
        rw [List.length_tail]
        omega
  | put c =>
    simp only [poolStep]
    rw [if_neg (by rw [h.held]; simp)]
    exact h
  | closeConn c =>
    simp only [poolStep]
    rw [if_neg (by rw [h.held]; simp)]
    exact h
  | closePool =>
    refine ⟨h.held, .inl ?_⟩
    simp only [poolStep, CPool.close]
    cases hf : s.pool.free with
    | none => exact hf
    | some q => rfl

/-- What happens, always: a pool that refuses while nobody holds a connection refuses for ever, whatever is done. -/
theorem C195_always (cfg : PoolCfg) (p : CPool) (hb : cfg.block = false) (ops later : List PoolOp)
    (hh : (poolRun cfg p ops).held = []) (t r : Bool) (h : ((poolRun cfg p ops).pool.getConn cfg t r).2 = .raise .emptyPool)
    (t' r' : Bool) : (poolRun cfg p (ops ++ later)).held = [] ∧
      ∃ e, ((poolRun cfg p (ops ++ later)).pool.getConn cfg t' r').2 = .raise e := by
  have h0 : Barren cfg (poolRun cfg p ops) := by
    refine ⟨hh, ?_⟩
    cases hf : (poolRun cfg p ops).pool.free with
    | none => exact .inl rfl
    | some q =>
      obtain ⟨a, b⟩ := (getConn_refuses cfg hb _ q hf t r).1.1 h
      exact .inr ⟨⟨q, rfl, a⟩, b⟩
  have : Barren cfg (poolRun cfg p (ops ++ later)) := by
    unfold poolRun at h0 ⊢
    rw [List.foldl_append]
    generalize ops.foldl (poolStep cfg) (poolStart p) = s at h0
    induction later generalizing s with
    | nil => exact h0
    | cons op later ih => exact ih _ (h0.step hb op)
  exact ⟨this.held, this.raises hb t' r'⟩

/-- users take connections until they are refused, and then give all of them back; `n` times over -/
def Spec.greedy (cfg : PoolCfg) : Nat → PoolSys → List PoolOp
  | 0, _ => []
  | n + 1, s =>
    let gets := List.replicate cfg.maxConns (PoolOp.get false false)
    let s1 := gets.foldl (poolStep cfg) s
    let puts := s1.held.map PoolOp.put
    gets ++ puts ++ greedy cfg n (puts.foldl (poolStep cfg) s1)

set_option maxRecDepth 40000 in
/-- C195 fails, for a pool with the default arguments: each time that the users come to the limit and are refused, a
connection is lost; after twenty times the pool is dead. -/
theorem C195_violated : ¬ C195_full := by
  intro h
  obtain ⟨c, hc⟩ := h {} { free := some [0], num := 1, made := 1 }
    (greedy {} 20 (poolStart { free := some [0], num := 1, made := 1 })) (by unfold Sensible; decide) rfl
    (by decide +kernel) (by decide +kernel) false false
  have : ((poolRun {} { free := some [0], num := 1, made := 1 }
    (greedy {} 20 (poolStart { free := some [0], num := 1, made := 1 }))).pool.getConn {} false false).2 = .raise .emptyPool := by
    decide +kernel
  rw [this] at hc
  cases hc

/-! ## concrete cases -/

/-- a pool of two: taken, refused, given back, and dead -/
example :
    let cfg : PoolCfg := { maxConns := 2 }
    let p : CPool := { free := some [0], num := 1, made := 1 }
    let s := poolRun cfg p [.get false false, .get false false, .put 0, .get false false]
    CPool.init cfg = .ok p ∧ s.held = [] ∧ s.lost = [0, 1] ∧ (s.pool.getConn cfg false false).2 = .raise .emptyPool := by
  decide +kernel

/-- the default pool after one such time: it goes on, with one connection less -/
example :
    let p : CPool := { free := some [0], num := 1, made := 1 }
    let s := poolRun {} p (greedy {} 1 (poolStart p))
    s.held = [] ∧ s.lost.length = 1 ∧ s.pool.num = 6 ∧ s.pool.freeL.length = 5 ∧ s.pool.free.isSome = true ∧
    (s.pool.getConn {} false false).2 ≠ .raise .emptyPool := by decide +kernel

end Bolt
