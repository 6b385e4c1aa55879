import Verif.Props.Pool
import Verif.Lemmas.AioClient
/-!
# C38 and C39 for every history of a pool: the exact ledger
-/
namespace Bolt
open CPool

/-- Did this operation take a connection from the queue that was closed or looked readable? -/
def Spec.drops (s : PoolSys) (cfg : PoolCfg) : PoolOp → Nat
  | .get t r =>
    match (getConn cfg s.pool t r).2 with
    | .ok c => if c ∈ s.pool.freeL ∧ (c ∈ s.pool.closed ∨ r = true) then 1 else 0
    | _ => 0
  | _ => 0

/-- The number of `get_conn` calls of a history that took a dropped connection from the queue. -/
def Spec.dropCount (cfg : PoolCfg) (p : CPool) (ops : List PoolOp) : Nat :=
  (ops.foldl (fun (acc : PoolSys × Nat) op => (poolStep cfg acc.1 op, acc.2 + Spec.drops acc.1 cfg op)) (poolStart p, 0)).2

theorem dropCount_fst (cfg : PoolCfg) (p : CPool) (ops : List PoolOp) :
    (ops.foldl (fun (acc : PoolSys × Nat) op => (poolStep cfg acc.1 op, acc.2 + Spec.drops acc.1 cfg op))
      (poolStart p, 0)).1 = poolRun cfg p ops := by
  induction ops using snoc_induct with
  | nil => rfl
  | snoc ops op ih => rw [List.foldl_append, List.foldl_cons, List.foldl_nil, ih, poolRun_snoc]

theorem dropCount_snoc (cfg : PoolCfg) (p : CPool) (ops : List PoolOp) (op : PoolOp) :
    Spec.dropCount cfg p (ops ++ [op]) = Spec.dropCount cfg p ops + Spec.drops (poolRun cfg p ops) cfg op := by
  unfold Spec.dropCount
  rw [List.foldl_append, List.foldl_cons, List.foldl_nil]
  simp only [dropCount_fst]

/-- what the refilled pool looks like -/
theorem mid_facts {cfg : PoolCfg} {p p2 : CPool} {c : ConnRef} {q : List ConnRef} (_hf : p.free = some (c :: q))
    (h2 : (q.length < cfg.minFree ∧ ∃ p1, newConn cfg { p with free := some q } = (p1, .ok p.made) ∧
          p2 = putConn cfg p1 p.made) ∨ (cfg.minFree ≤ q.length ∧ p2 = { p with free := some q })) :
    p2.free.isSome ∧ (p2.closed = p.closed ∨ p2.closed = p.made :: p.closed) ∧
    p2.num - p2.freeL.length = p.num - q.length ∧ (p2.made = p.made ∨ p2.made = p.made + 1) ∧
    (∀ x, x ∈ p2.freeL → x ∈ q ∨ x = p.made) ∧ (p2.made = p.made → p2.closed = p.closed) := by
  rcases h2 with ⟨-, p1, h3, rfl⟩ | ⟨-, rfl⟩
  · unfold newConn at h3
    split at h3
    · cases h3
    · injection h3 with h3 h4
      subst h3
      unfold putConn
      dsimp only
      split
      · refine ⟨rfl, .inr rfl, ?_, .inr rfl, ?_, ?_⟩
        · simp [freeL, CPool.closeConn]
        · intro x hx
          exact .inl (by simpa [freeL, CPool.closeConn] using hx)
        · intro h
          exfalso
          have : p.made + 1 = p.made := h
          omega
      · refine ⟨rfl, .inl rfl, ?_, .inr rfl, ?_, ?_⟩
        · simp [freeL]; omega
        · intro x hx
          have : x = p.made ∨ x ∈ q := by simpa [freeL] using hx
          exact this.symm
        · intro _; rfl
  · exact ⟨rfl, .inl rfl, by simp [freeL], .inl rfl, fun x hx => .inl (by simpa [freeL] using hx), fun _ => rfl⟩

/-- closed connections have been made -/
theorem closedOld_get {cfg : PoolCfg} {p : CPool} {H : List ConnRef} (hl : Loc cfg p H) (h : ∀ x ∈ p.closed, x < p.made)
    (t r : Bool) : ∀ x ∈ (getConn cfg p t r).1.closed, x < (getConn cfg p t r).1.made := by
  rcases getConn_cases cfg p t r with ⟨hf, h1⟩ | ⟨hf, _, h1⟩ | ⟨hf, _, _, h1⟩ | ⟨hf, _, p', hn, h1⟩ |
    ⟨c, q, hf, _, _, h1⟩ | ⟨c, q, p2, hf, h2, h1⟩
  · rw [h1]; exact h
  · rw [h1]; exact h
  · rw [h1]; exact h
  · rw [h1]
    obtain ⟨-, -, -, h4, -, h6⟩ := loc_newConn hl hn
    intro x hx
    dsimp only at hx ⊢
    rw [h4] at hx
    rw [h6]
    exact Nat.lt_succ_of_lt (h x hx)
  · rw [h1]; exact h
  · obtain ⟨-, hc, -, hm, -, hmc⟩ := mid_facts hf h2
    have hcm : c < p.made := hl.bound c (by simp [freeL, hf])
    have hp2 : ∀ x ∈ p2.closed, x < p2.made := by
      intro x hx
      rcases hm with hm | hm
      · rw [hmc hm] at hx
        rw [hm]
        exact h x hx
      · rw [hm]
        rcases hc with hc | hc
        · rw [hc] at hx
          exact Nat.lt_succ_of_lt (h x hx)
        · rw [hc, List.mem_cons] at hx
          rcases hx with rfl | hx
          · exact Nat.lt_succ_self _
          · exact Nat.lt_succ_of_lt (h x hx)
    rw [h1]
    split
    · intro x hx
      have hx' : x ∈ c :: p2.closed := hx
      show x < p2.made
      rcases List.mem_cons.1 hx' with rfl | hx'
      · rcases hm with hm | hm <;> rw [hm]
        · exact hcm
        · exact Nat.lt_succ_of_lt hcm
      · exact hp2 x hx'
    · exact hp2

theorem closedOld_run {cfg : PoolCfg} {p : CPool} (hp : CPool.init cfg = .ok p) (ops : List PoolOp) :
    ∀ x ∈ (poolRun cfg p ops).pool.closed, x < (poolRun cfg p ops).pool.made := by
  induction ops using snoc_induct with
  | nil =>
    intro x hx
    have : x ∈ p.closed := hx
    rw [(loc_init hp).2.2.1] at this
    cases this
  | snoc ops op ih =>
    have hl := loc_run hp ops
    rw [poolRun_snoc]
    generalize poolRun cfg p ops = s at *
    cases op with
    | get t r =>
      have := closedOld_get hl ih t r
      simp only [poolStep]
      split
      · next p' c he => rw [he] at this; exact this
      · next p' res _ he => rw [he] at this; exact this
    | put c =>
      simp only [poolStep]
      split
      · next hc =>
        have hcm : c < s.pool.made := hl.bound c (by simp [hc])
        show ∀ x ∈ (putConn cfg s.pool c).closed, x < (putConn cfg s.pool c).made
        unfold putConn
        split
        · intro x hx
          rcases List.mem_cons.1 (show x ∈ c :: s.pool.closed from hx) with rfl | hx
          · exact hcm
          · exact ih x hx
        · split
          · intro x hx
            rcases List.mem_cons.1 (show x ∈ c :: s.pool.closed from hx) with rfl | hx
            · exact hcm
            · exact ih x hx
          · exact ih
      · exact ih
    | closeConn c =>
      simp only [poolStep]
      split
      · next hc =>
        have hcm : c < s.pool.made := hl.bound c (by simp [hc])
        intro x hx
        rcases List.mem_cons.1 (show x ∈ c :: s.pool.closed from hx) with rfl | hx
        · exact hcm
        · exact ih x hx
      · exact ih
    | closePool =>
      show ∀ x ∈ s.pool.close.1.closed, x < s.pool.close.1.made
      unfold CPool.close
      split
      · exact ih
      · next q hq =>
        intro x hx
        rcases List.mem_append.1 (show x ∈ q ++ s.pool.closed from hx) with hx | hx
        · exact hl.bound x (by simp [freeL, hq, hx])
        · exact ih x hx

/-- C39, exactly: in every history, what `get_conn` returns is either a new open connection, or the one most recently put
on the queue; and it is closed exactly if it was closed or looked readable when it was taken from the queue. Missing for
C39: that case does occur (`C39_violated`). -/
theorem C39_exact_partial (cfg : PoolCfg) (p : CPool) (hp : CPool.init cfg = .ok p) (ops : List PoolOp) (t r : Bool)
    (c : ConnRef) (hc : (getConn cfg (poolRun cfg p ops).pool t r).2 = .ok c) :
    let s := (poolRun cfg p ops).pool
    let s' := (getConn cfg s t r).1
    (c ∈ s'.closed ↔ c ∈ s.freeL ∧ (c ∈ s.closed ∨ r = true)) ∧
    (s.freeL = [] ∧ c = s.made ∨ s.freeL.head? = some c) := by
  have hl := loc_run hp ops
  have hold := closedOld_run hp ops
  intro s s'
  change (getConn cfg s t r).2 = .ok c at hc
  rcases getConn_cases cfg s t r with ⟨hf, h1⟩ | ⟨hf, _, h1⟩ | ⟨hf, _, _, h1⟩ | ⟨hf, _, p', hn, h1⟩ |
    ⟨c', q, hf, _, _, h1⟩ | ⟨c', q, p2, hf, h2, h1⟩
  · rw [h1] at hc; cases hc
  · rw [h1] at hc; dsimp only at hc; split at hc <;> cases hc
  · rw [h1] at hc; cases hc
  · have hs' : s' = p' := by simp only [s', h1]
    rw [h1] at hc
    cases hc
    obtain ⟨-, -, -, h4, -, -⟩ := loc_newConn hl hn
    have hL : s.freeL = [] := by simp [freeL, hf]
    refine ⟨?_, .inl ⟨hL, rfl⟩⟩
    rw [hs', h4, hL]
    constructor
    · intro hm
      exact absurd (hold _ hm) (Nat.lt_irrefl _)
    · rintro ⟨h, -⟩
      cases h
  · rw [h1] at hc; cases hc
  · obtain ⟨-, hcl, -, -, -, -⟩ := mid_facts hf h2
    have hcm : c' < s.made := hl.bound c' (by show c' ∈ s.freeL ++ _; simp [freeL, hf])
    have hcc : c = c' := by
      rw [h1] at hc
      split at hc <;> (cases hc; rfl)
    subst hcc
    have hm2 : c ∈ p2.closed ↔ c ∈ s.closed := by
      rcases hcl with h | h
      · rw [h]
      · rw [h, List.mem_cons]
        exact ⟨fun h => h.elim (fun e => absurd e (Nat.ne_of_lt hcm)) id, .inr⟩
    have hmem : c ∈ s.freeL := by simp [freeL, hf]
    refine ⟨?_, .inr (by simp [freeL, hf])⟩
    have hd : isDropped p2 c r = true ↔ (c ∈ s.closed ∨ r = true) := by
      unfold isDropped
      rw [Bool.or_eq_true, List.contains_iff_mem, hm2]
    by_cases hdr : isDropped p2 c r = true
    · have hs' : s' = { p2.closeConn c with num := p2.num - 1 } := by simp only [s', h1, hdr, if_true]
      rw [hs']
      exact ⟨fun _ => ⟨hmem, hd.1 hdr⟩, fun _ => List.mem_cons_self ..⟩
    · have hs' : s' = p2 := by simp only [s', h1, if_neg hdr]
      rw [hs', hm2]
      exact ⟨fun h => ⟨hmem, .inl h⟩, fun h => absurd (hd.2 h.2) hdr⟩

/-- C38, exactly: in every history, while the pool is open, `num_connections` is the number of connections that are free,
held by a user, or were taken from the queue by a `get_conn` that then raised, less one for every `get_conn` that took a
dropped connection; and it does not change any more once the pool is closed. Missing for C38: the last two terms
(`C38_violated`, `C38_violated_by_exhaustion`), and connections closed by their users, which stay counted. -/
theorem C38_ledger_partial (cfg : PoolCfg) (p : CPool) (hp : CPool.init cfg = .ok p) (ops : List PoolOp) :
    let s := poolRun cfg p ops
    (s.pool.free.isSome = true →
      s.pool.num = (s.pool.freeL.length + s.held.length + s.lost.length : Nat) - (Spec.dropCount cfg p ops : Int)) ∧
    (s.pool.free = none → ∀ op, (poolStep cfg s op).pool.num = s.pool.num) := by
  have main : (poolRun cfg p ops).pool.free.isSome = true →
      (poolRun cfg p ops).pool.num = ((poolRun cfg p ops).pool.freeL.length + (poolRun cfg p ops).held.length +
        (poolRun cfg p ops).lost.length : Nat) - (Spec.dropCount cfg p ops : Int) := by
    induction ops using snoc_induct with
    | nil =>
      intro _
      have := (loc_init hp).2.2.2
      show p.num = ((p.freeL.length + 0 + 0 : Nat) : Int) - (0 : Nat)
      rw [this]
      omega
    | snoc ops op ih =>
      rw [dropCount_snoc, poolRun_snoc]
      have hex := fun t r c => C39_exact_partial cfg p hp ops t r c
      dsimp only at hex
      generalize hD : Spec.dropCount cfg p ops = D at *
      generalize poolRun cfg p ops = s at *
      intro ho
      cases op with
      | get t r =>
        have hex := hex t r
        rcases getConn_cases cfg s.pool t r with ⟨hf, h1⟩ | ⟨hf, _, h1⟩ | ⟨hf, _, _, h1⟩ | ⟨hf, _, p', hn, h1⟩ |
          ⟨c', q, hf, _, _, h1⟩ | ⟨c', q, p2, hf, h2, h1⟩
        · exfalso
          simp [poolStep, h1, hf] at ho
        · have hp0 : s.popped = [] := by simp [PoolSys.popped, hf]
          have e : poolStep cfg s (.get t r) = s := by cases t <;> simp [poolStep, h1, hp0]
          have d : Spec.drops s cfg (.get t r) = 0 := by cases t <;> simp [Spec.drops, h1]
          rw [e] at ho ⊢
          rw [d]
          exact ih ho
        · have hp0 : s.popped = [] := by simp [PoolSys.popped, hf]
          have e : poolStep cfg s (.get t r) = s := by simp [poolStep, h1, hp0]
          have d : Spec.drops s cfg (.get t r) = 0 := by simp [Spec.drops, h1]
          rw [e] at ho ⊢
          rw [d]
          exact ih ho
        · have hp0 : s.popped = [] := by simp [PoolSys.popped, hf]
          have e : poolStep cfg s (.get t r) = { s with pool := p', held := s.pool.made :: s.held } := by
            simp [poolStep, h1, hp0]
          have d : Spec.drops s cfg (.get t r) = 0 := by simp [Spec.drops, h1, freeL, hf]
          have hn' := hn
          unfold newConn at hn'
          split at hn'
          · cases hn'
          · injection hn' with hn' _
            have ih := ih (by rw [hf]; rfl)
            have hL : s.pool.freeL = [] := by simp [freeL, hf]
            rw [e, d, ← hn']
            show s.pool.num + 1 = ((s.pool.freeL.length + (s.held.length + 1) + s.lost.length : Nat) : Int) - ((D + 0 : Nat) : Int)
            rw [ih, hL]
            omega
        · have hp0 : s.popped = [c'] := by simp [PoolSys.popped, hf]
          have e : poolStep cfg s (.get t r) = { s with pool := { s.pool with free := some q }, lost := c' :: s.lost, log := s.log ++ [.out c'] } := by
            simp [poolStep, h1, hp0]
          have d : Spec.drops s cfg (.get t r) = 0 := by simp [Spec.drops, h1]
          have ih := ih (by rw [hf]; rfl)
          have hL : s.pool.freeL.length = q.length + 1 := by simp [freeL, hf]
          rw [e, d]
          show s.pool.num = ((q.length + s.held.length + (s.lost.length + 1) : Nat) : Int) - ((D + 0 : Nat) : Int)
          rw [ih, hL]
          omega
        · obtain ⟨hso, hcl, hnum, -, -, -⟩ := mid_facts hf h2
          have hL : s.pool.freeL.length = q.length + 1 := by simp [freeL, hf]
          have ih := ih (by rw [hf]; rfl)
          have hres : (getConn cfg s.pool t r).2 = .ok c' := by rw [h1]; split <;> rfl
          obtain ⟨hiff, -⟩ := hex c' hres
          by_cases hdr : isDropped p2 c' r = true
          · have h1' : getConn cfg s.pool t r = ({ p2.closeConn c' with num := p2.num - 1 }, .ok c') := by rw [h1, if_pos hdr]
            have hin : c' ∈ (getConn cfg s.pool t r).1.closed := by rw [h1']; exact List.mem_cons_self ..
            have d : Spec.drops s cfg (.get t r) = 1 := by
              simp only [Spec.drops, hres]
              rw [if_pos (hiff.1 hin)]
            rw [d]
            simp only [poolStep, h1']
            show p2.num - 1 = ((p2.freeL.length + (s.held.length + 1) + s.lost.length : Nat) : Int) - ((D + 1 : Nat) : Int)
            omega
          · have h1' : getConn cfg s.pool t r = (p2, .ok c') := by rw [h1, if_neg hdr]
            have d : Spec.drops s cfg (.get t r) = 0 := by
              simp only [Spec.drops, hres]
              rw [if_neg]
              intro hcon
              have := hiff.2 hcon
              rw [h1'] at this
              apply hdr
              unfold isDropped
              rw [Bool.or_eq_true, List.contains_iff_mem]
              exact .inl this
            rw [d]
            simp only [poolStep, h1']
            show p2.num = ((p2.freeL.length + (s.held.length + 1) + s.lost.length : Nat) : Int) - ((D + 0 : Nat) : Int)
            omega
      | put c =>
        simp only [poolStep] at ho ⊢
        have d : Spec.drops s cfg (.put c) = 0 := rfl
        rw [d]
        by_cases hc : c ∈ s.held
        · rw [if_pos hc] at ho ⊢
          have hlen : (s.held.erase c).length + 1 = s.held.length := by
            have := List.length_erase_of_mem hc
            have := List.length_pos_of_mem hc
            omega
          dsimp only at ho ⊢
          unfold putConn at ho ⊢
          split at ho
          · next hf => simp [CPool.closeConn, hf] at ho
          · next q hf =>
            have ih := ih (by rw [hf]; rfl)
            have hL : s.pool.freeL.length = q.length := by simp [freeL, hf]
            split at ho
            · next hfull =>
              rw [if_pos hfull]
              show s.pool.num - 1 = ((s.pool.freeL.length + (s.held.erase c).length + s.lost.length : Nat) : Int) - ((D + 0 : Nat) : Int)
              omega
            · next hfull =>
              rw [if_neg hfull]
              show s.pool.num = (((c :: q).length + (s.held.erase c).length + s.lost.length : Nat) : Int) - ((D + 0 : Nat) : Int)
              rw [List.length_cons]
              omega
        · rw [if_neg hc] at ho ⊢
          exact ih ho
      | closeConn c =>
        simp only [poolStep] at ho ⊢
        have d : Spec.drops s cfg (.closeConn c) = 0 := rfl
        rw [d]
        split at ho
        · next hc =>
          rw [if_pos hc]
          exact ih ho
        · next hc =>
          rw [if_neg hc]
          exact ih ho
      | closePool =>
        exfalso
        revert ho
        show s.pool.close.1.free.isSome = true → False
        unfold CPool.close
        split
        · next hf => rw [hf]; simp
        · simp
  refine ⟨main, ?_⟩
  intro hnone op
  generalize poolRun cfg p ops = s at hnone ⊢
  cases op with
  | get t r => simp [poolStep, getConn, hnone]
  | put c =>
    simp only [poolStep]
    split
    · simp [putConn, hnone, CPool.closeConn]
    · rfl
  | closeConn c => simp only [poolStep]; split <;> rfl
  | closePool => simp [poolStep, CPool.close, hnone]

/-- Two gets that take dropped connections, one that fails after taking a connection. -/
example :
    let cfg : PoolCfg := { maxConns := 3 }
    let p : CPool := { free := some [0], num := 1, made := 1 }
    let ops : List PoolOp := [.get false true, .put 0, .get false false, .get false false, .get false false]
    CPool.init cfg = .ok p ∧ Spec.dropCount cfg p ops = 2 ∧ (poolRun cfg p ops).pool.free.isSome = true ∧
    ((poolRun cfg p ops).pool.num, (poolRun cfg p ops).pool.freeL.length, (poolRun cfg p ops).held.length, (poolRun cfg p ops).lost.length)
      = (2, 1, 3, 0) := by decide

end Bolt
