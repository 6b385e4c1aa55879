import Verif.Props.PoolProgress
import Verif.Lemmas.Rest
/-!
# C203: threads share a pool; when it refuses
-/
namespace Bolt
open Spec

namespace Spec

/-- the connections that are free or held, and the calls of the pool going on, each of which may have one in its hands -/
def inUse (s : TPool) : Nat := s.queue.length + sumBy (fun t => t.held.length + (if t.pc = .idle then 0 else 1)) s.thr

/-- thread `i` is about to be refused (the check at the beginning of `_new_conn`) -/
def Refuses (cfg : PoolCfg) (s : TPool) (i : Nat) : Prop :=
  ∃ t, s.thr[i]? = some t ∧ t.pc = .newChk .fresh ∧ s.lock = none ∧ (cfg.maxConns : Int) ≤ s.num

/-- no thread counts a surplus connection out while another one is between reading and writing the count of `_new_conn` -/
def Undisturbed (cfg : PoolCfg) (p : CPool) (n : Nat) (evs : List PoolTEv) : Prop :=
  ∀ pre i b post, evs = pre ++ .step i b :: post →
    ∀ t k c r, (tpRun cfg p n pre).thr[i]? = some t → t.pc = .putDecW k c r →
      ∀ (j : Nat) (u : PoolThr) k' r', (tpRun cfg p n pre).thr[j]? = some u → u.pc ≠ .newWrite k' r'

end Spec

/-- C203 as listed: threads share a pool that is not closed, does not block, and need keep nothing free; it refuses only when
the connections that are free, held, or being dealt with by other calls are `max_connections` at least. -/
def C203_full : Prop :=
  ∀ (cfg : PoolCfg) (p : CPool) (n : Nat) (evs : List PoolTEv) (i : Nat), CPool.init cfg = .ok p → cfg.block = false →
    cfg.minFree = 0 → (∀ j, .callClose j ∉ evs) → Refuses cfg (tpRun cfg p n evs) i → cfg.maxConns < inUse (tpRun cfg p n evs)

/-! ## the count without disturbance -/

/-- the counted connections in the hands of pool code at this point -/
def PoolPC.carried : PoolPC → Nat
  | .idle | .getLoad | .getPop | .newChk _ | .newRead _ | .newWrite _ _ | .putClose _ _ | .closeLoad | .closeStore _
  | .closeDrain | .closeOne _ => 0
  | _ => 1

/-- points that are not within a refill or `close` -/
def PoolPC.noRefill : PoolPC → Bool
  | .newChk (.refill _) | .newRead (.refill _) | .newWrite (.refill _) _ | .newMake (.refill _) | .putLoad (.refill _) _
  | .putPut (.refill _) _ | .putDecR (.refill _) _ | .putDecW (.refill _) _ _ | .putClose (.refill _) _ | .closeLoad
  | .closeStore _ | .closeDrain | .closeOne _ => false
  | _ => true

/-- what a thread has read of the count -/
def PoolPC.seen : PoolPC → Option Int
  | .newWrite _ r | .putDecW _ _ r | .dropDecW _ r => some r
  | _ => none

def PoolThr.own (t : PoolThr) : Nat := t.held.length + t.pc.carried

/-- all the counted connections -/
def TPool.alive (s : TPool) : Nat := s.queue.length + sumBy PoolThr.own s.thr

structure DriftInv (s : TPool) : Prop where
  opened : s.isOpen = true
  num : s.num ≤ s.alive
  thr : ∀ (i : Nat) (t : PoolThr), s.thr[i]? = some t → t.pc.noRefill = true ∧ ∀ r, t.pc.seen = some r → r ≤ s.alive

theorem drift_goto {s s1 : TPool} {i : Nat} {t t' : PoolThr} (d : Nat) (h : DriftInv s) (ht : s.thr[i]? = some t)
    (e1 : s1.thr = s.thr) (e2 : s1.isOpen = true) (hq : s.queue.length + t.own + d = s1.queue.length + t'.own)
    (hn : s1.num ≤ s.alive + d) (hp : t'.pc.noRefill = true) (hr : ∀ r, t'.pc.seen = some r → r ≤ (s.alive : Int) + d) :
    DriftInv (s1.goto i t') := by
  have hs := sumBy_set PoolThr.own t' ht
  have ha : (s1.goto i t').alive = s.alive + d := by
    unfold TPool.alive TPool.goto
    dsimp only
    rw [e1]
    omega
  refine ⟨e2, ?_, fun j u hu => ?_⟩
  · rw [ha]
    exact hn
  · rw [ha]
    rcases getElem?_goto hu with ⟨_, rfl⟩ | ⟨_, h2⟩
    · exact ⟨hp, fun r hr' => by have := hr r hr'; omega⟩
    · rw [e1] at h2
      obtain ⟨g1, g2⟩ := h.thr j u h2
      exact ⟨g1, fun r hr' => by have := g2 r hr'; omega⟩

theorem drift_act {cfg : PoolCfg} (hm : cfg.minFree = 0) {s : TPool} (h : DriftInv s) (hl : LockInv s)
    {i : Nat} {t : PoolThr} (ht : s.thr[i]? = some t) (b : Bool)
    (hu : ∀ k c r, t.pc = .putDecW k c r → ∀ (j : Nat) (u : PoolThr) k' r', s.thr[j]? = some u → u.pc ≠ .newWrite k' r') :
    DriftInv (s.act cfg i t b) := by
  obtain ⟨h1, h2⟩ := h.thr i t ht
  have ho := h.opened
  have hn := h.num
  obtain ⟨pc, held⟩ := t
  have keep : ∀ (pc' : PoolPC), pc'.carried = pc.carried → pc'.noRefill = true → (∀ r, pc'.seen = some r → r ≤ (s.alive : Int)) →
      DriftInv (s.goto i ⟨pc', held⟩) := fun pc' a1 a2 a3 =>
    drift_goto 0 h ht rfl ho (by simp only [PoolThr.own, a1]; omega) (by omega) a2 (fun r hr => by have := a3 r hr; omega)
  unfold TPool.act
  cases pc with
  | idle => exact h
  | getLoad =>
    dsimp only
    rw [if_pos ho]
    exact keep _ rfl rfl (fun r hr => by cases hr)
  | getPop =>
    dsimp only
    split
    · next c q hq =>
      exact drift_goto 0 h ht rfl ho (by simp [PoolThr.own, PoolPC.carried, hq]; omega) (by exact hn) rfl (fun r hr => by cases hr)
    · split
      · split
        · exact keep _ rfl rfl (fun r hr => by cases hr)
        · exact h
      · exact keep _ rfl rfl (fun r hr => by cases hr)
  | getSize c =>
    dsimp only
    rw [if_pos ho]
    exact keep _ rfl rfl (fun r hr => by cases hr)
  | getQsize c =>
    dsimp only
    rw [if_neg (by omega)]
    exact keep _ rfl rfl (fun r hr => by cases hr)
  | newChk k =>
    dsimp only
    split
    · exact h
    · split
      · exact keep _ rfl rfl (fun r hr => by cases hr)
      · cases k with
        | refill c => cases h1
        | fresh => exact keep _ rfl rfl (fun r hr => by cases hr)
  | newRead k =>
    cases k with
    | refill c => cases h1
    | fresh => exact keep _ rfl rfl (fun r hr => by cases hr; exact hn)
  | newWrite k r =>
    cases k with
    | refill c => cases h1
    | fresh =>
      have := h2 r rfl
      exact drift_goto 1 h ht rfl ho (by simp only [PoolThr.own, PoolPC.carried]; omega) (by dsimp only; omega) rfl (fun r hr => by cases hr)
  | newMake k =>
    cases k with
    | refill c => cases h1
    | fresh =>
      exact drift_goto 0 h ht rfl ho (by simp [PoolThr.own, PoolPC.carried]) (by exact hn) rfl (fun r hr => by cases hr)
  | putLoad k c =>
    cases k with
    | refill c => cases h1
    | user =>
      dsimp only
      rw [if_pos ho]
      exact keep _ rfl rfl (fun r hr => by cases hr)
  | putPut k c =>
    cases k with
    | refill c => cases h1
    | user =>
      dsimp only
      split
      · exact keep _ rfl rfl (fun r hr => by cases hr)
      · exact drift_goto 0 h ht rfl ho (by simp [PoolThr.own, PoolPC.carried]; omega) (by exact hn) rfl (fun r hr => by cases hr)
  | putDecR k c =>
    cases k with
    | refill c => cases h1
    | user =>
      dsimp only
      split
      · exact h
      · exact drift_goto 0 h ht rfl ho (by simp [PoolThr.own, PoolPC.carried]) (by exact hn) rfl
          (fun r hr => by cases hr; omega)
  | putDecW k c r =>
    cases k with
    | refill c => cases h1
    | user =>
      dsimp only
      have hr := h2 r rfl
      have hs := sumBy_set PoolThr.own ⟨.putClose .user c, held⟩ ht
      have ha : ({ s with num := r - 1, lock := none }.goto i ⟨.putClose .user c, held⟩ : TPool).alive + 1 = s.alive := by
        unfold TPool.alive TPool.goto
        simp only [PoolThr.own, PoolPC.carried] at hs ⊢
        omega
      refine ⟨ho, ?_, fun j u hu' => ?_⟩
      · change r - 1 ≤ _
        omega
      · rcases getElem?_goto hu' with ⟨_, rfl⟩ | ⟨hne, g⟩
        · exact ⟨rfl, fun r hr => by cases hr⟩
        · have g : s.thr[j]? = some u := g
          refine ⟨(h.thr j u g).1, fun r' hr' => ?_⟩
          exfalso
          have hli := hl.held i _ ht rfl
          have hlj : u.pc.locked = true → False := fun hlk => by
            have := hl.held j u g hlk
            rw [hli] at this
            exact hne (Option.some.inj this)
          have hnw := hu .user c r rfl j u
          cases hpc : u.pc with
          | newWrite k' r'' => exact hnw k' r'' g hpc
          | putDecW k' n' r'' => rw [hpc] at hlj; exact hlj rfl
          | dropDecW c' r'' => rw [hpc] at hlj; exact hlj rfl
          | _ => rw [hpc] at hr'; cases hr'
  | putClose k c =>
    cases k with
    | refill c => cases h1
    | user => exact drift_goto 0 h ht rfl ho (by simp [PoolThr.own, PoolPC.carried]) (by exact hn) rfl (fun r hr => by cases hr)
  | dropChk c =>
    dsimp only
    split
    · exact keep _ rfl rfl (fun r hr => by cases hr)
    · exact drift_goto 0 h ht rfl ho (by simp [PoolThr.own, PoolPC.carried]) (by exact hn) rfl (fun r hr => by cases hr)
  | dropClose c =>
    exact drift_goto 0 h ht rfl ho (by simp [PoolThr.own, PoolPC.carried]) (by exact hn) rfl (fun r hr => by cases hr)
  | dropDecR c =>
    dsimp only
    split
    · exact h
    · exact drift_goto 0 h ht rfl ho (by simp [PoolThr.own, PoolPC.carried]) (by exact hn) rfl (fun r hr => by cases hr; omega)
  | dropDecW c r =>
    have := h2 r rfl
    exact drift_goto 0 h ht rfl ho (by simp [PoolThr.own, PoolPC.carried]) (by dsimp only; omega) rfl (fun r hr => by cases hr)
  | closeLoad => cases h1
  | closeStore o => cases h1
  | closeDrain => cases h1
  | closeOne c => cases h1

theorem drift_tev {cfg : PoolCfg} (hm : cfg.minFree = 0) {s : TPool} (h : DriftInv s) (hl : LockInv s) (e : PoolTEv)
    (hc : ∀ j, e ≠ .callClose j)
    (hu : ∀ i b t k c r, e = .step i b → s.thr[i]? = some t → t.pc = .putDecW k c r →
      ∀ (j : Nat) (u : PoolThr) k' r', s.thr[j]? = some u → u.pc ≠ .newWrite k' r') : DriftInv (s.tev cfg e) := by
  have ho := h.opened
  have hn := h.num
  cases e with
  | callGet i =>
    unfold TPool.tev
    dsimp only
    split
    · next t ht =>
      split
      · next hi =>
        exact drift_goto 0 h ht rfl ho (by simp [PoolThr.own, PoolPC.carried, hi]) (by omega) rfl (fun r hr => by cases hr)
      · exact h
    · exact h
  | callPut i c =>
    unfold TPool.tev
    dsimp only
    split
    · next t ht =>
      split
      · next hi =>
        have hlen : (t.held.erase c).length = t.held.length - 1 := List.length_erase_of_mem hi.2
        have hpos : 0 < t.held.length := List.length_pos_of_mem hi.2
        exact drift_goto 0 h ht rfl ho (by simp only [PoolThr.own, PoolPC.carried, hi.1, hlen]; omega) (by omega) rfl (fun r hr => by cases hr)
      · exact h
    · exact h
  | callClose i => exact absurd rfl (hc i)
  | userClose i c =>
    unfold TPool.tev
    dsimp only
    split
    · split
      · exact ⟨ho, hn, h.thr⟩
      · exact h
    · exact h
  | step i b =>
    unfold TPool.tev
    dsimp only
    split
    · next t ht => exact drift_act hm h hl ht b fun k c r hpc => hu i b t k c r rfl ht hpc
    · exact h

theorem own_le (t : PoolThr) (h : t.pc.carried ≤ (if t.pc = .idle then 0 else 1)) :
    t.own ≤ t.held.length + (if t.pc = .idle then 0 else 1) := by
  unfold PoolThr.own
  omega

theorem carried_le (pc : PoolPC) : pc.carried ≤ (if pc = .idle then 0 else 1) := by
  cases pc <;> simp [PoolPC.carried]

theorem sumBy_le_at {α : Type} (f g : α → Nat) (hle : ∀ x, f x ≤ g x) {l : List α} {i : Nat} {x : α} (hx : l[i]? = some x)
    (hlt : f x < g x) : sumBy f l < sumBy g l := by
  have hle' : ∀ l : List α, sumBy f l ≤ sumBy g l := by
    intro l
    induction l with
    | nil => exact Nat.le_refl _
    | cons y l ih =>
      have := hle y
      simp only [sumBy, List.map_cons, List.sum_cons] at ih ⊢
      omega
  induction l generalizing i with
  | nil => cases hx
  | cons y l ih =>
    cases i with
    | zero =>
      cases hx
      have := hle' l
      simp only [sumBy, List.map_cons, List.sum_cons] at this ⊢
      omega
    | succ i =>
      have := ih hx
      have := hle y
      simp only [sumBy, List.map_cons, List.sum_cons] at *
      omega

theorem tpRun_snoc (cfg : PoolCfg) (p : CPool) (n : Nat) (evs : List PoolTEv) (e : PoolTEv) :
    tpRun cfg p n (evs ++ [e]) = (tpRun cfg p n evs).tev cfg e := by simp [tpRun, List.foldl_append]

theorem drift_run {cfg : PoolCfg} (hm : cfg.minFree = 0) {p : CPool} (hp : CPool.init cfg = .ok p) (n : Nat) (evs : List PoolTEv)
    (hc : ∀ j, .callClose j ∉ evs) (hu : Undisturbed cfg p n evs) : DriftInv (tpRun cfg p n evs) := by
  induction evs using snoc_induct with
  | nil =>
    have hz : ∀ n, sumBy PoolThr.own (List.replicate n {}) = 0 := by
      intro n
      induction n with
      | zero => rfl
      | succ n ih => simp only [sumBy, List.replicate_succ, List.map_cons, List.sum_cons] at ih ⊢; rw [ih]; rfl
    refine ⟨rfl, ?_, fun i t ht => ?_⟩
    · have := (loc_init hp).2.2.2
      change p.num ≤ (((p.free.getD []).length + sumBy PoolThr.own (List.replicate n {}) : Nat) : Int)
      rw [this, hz]
      exact Int.le_refl _
    · have : t = {} := by
        have := List.mem_of_getElem? ht
        exact (List.mem_replicate.1 this).2
      subst this
      exact ⟨rfl, fun r hr => by cases hr⟩
  | snoc evs e ih =>
    rw [tpRun_snoc]
    have ih := ih (fun j hj => hc j (List.mem_append_left _ hj)) (fun pre i b post he => hu pre i b (post ++ [e]) (by rw [he]; simp))
    refine drift_tev hm ih (lock_run (lock_start p n) evs) e (fun j hj => hc j (by rw [hj]; simp)) ?_
    intro i b t k c r he ht hpc
    exact hu evs i b [] (by rw [he]) t k c r ht hpc

/-- C203, what holds: if no thread counts a surplus connection out while another one is between reading and writing the count
in `_new_conn`, then the pool refuses only when `max_connections` are free, held or in the hands of other calls. Missing:
schedules in which that happens (`C203_violated`, `C203_worst`). -/
theorem C203_counts_partial (cfg : PoolCfg) (p : CPool) (n : Nat) (evs : List PoolTEv) (i : Nat) (hp : CPool.init cfg = .ok p)
    (hm : cfg.minFree = 0) (hc : ∀ j, .callClose j ∉ evs) (hu : Undisturbed cfg p n evs)
    (hr : Refuses cfg (tpRun cfg p n evs) i) : cfg.maxConns < inUse (tpRun cfg p n evs) := by
  have h := drift_run hm hp n evs hc hu
  obtain ⟨t, ht, hpc, -, hmax⟩ := hr
  have hn := h.num
  have : (tpRun cfg p n evs).alive < inUse (tpRun cfg p n evs) := by
    unfold TPool.alive inUse
    have := sumBy_le_at PoolThr.own (fun t => t.held.length + (if t.pc = .idle then 0 else 1)) (fun t => own_le t (carried_le t.pc))
      ht (by simp [PoolThr.own, PoolPC.carried, hpc])
    omega
  omega

/-! ## how far the count drifts -/

/-- `k` steps of thread `i` -/
def steps (i k : Nat) : List PoolTEv := List.replicate k (.step i false)

/-- Thread 1 takes the free connection 0; thread 0 finds none and passes the check; thread 1 makes another one, puts the
first back; thread 0 reads the count; thread 1 puts the second back, which is counted out and closed; thread 0 writes the count,
gets a connection and puts it back, which is counted out and closed. -/
def driftRound (n : Nat) : List PoolTEv :=
  .callGet 1 :: steps 1 5 ++ .callGet 0 :: steps 0 3 ++ .callGet 1 :: steps 1 6 ++ .callPut 1 0 :: steps 1 2 ++ steps 0 1 ++
    .callPut 1 n :: steps 1 5 ++ steps 0 2 ++ .callPut 0 (n + 1) :: steps 0 5

/-- a pool that may have `m` connections of which one may be free, and has one at the start -/
def driftCfg (m : Nat) : PoolCfg := { initial := 1, maxConns := m, maxFree := 1, minFree := 0, block := false }

/-- two threads; the lock is free -/
def driftAt (q : List Nat) (k : Int) (n : Nat) (closed : List Nat) (a b : PoolThr) : TPool :=
  { queue := q, num := k, made := n, closed := closed, thr := [a, b] }

theorem drift_one {m n : Nat} {k : Int} {closed : List Nat} (h0 : closed.contains 0 = false) :
    (.callGet 1 :: steps 1 5).foldl (TPool.tev (driftCfg m)) (driftAt [0] k n closed {} {}) =
      driftAt [] k n closed {} { held := [0] } := by
  simp [steps, List.replicate, driftAt, TPool.tev, TPool.goto, TPool.act, driftCfg] at h0 ⊢
  simp [h0]

theorem drift_two {m n : Nat} {k : Int} {closed : List Nat} {b : PoolThr} (hk : ¬ (m : Int) ≤ k) :
    (.callGet 0 :: steps 0 3).foldl (TPool.tev (driftCfg m)) (driftAt [] k n closed {} b) =
      driftAt [] k n closed { pc := .newRead .fresh } b := by
  simp [steps, List.replicate, driftAt, TPool.tev, TPool.goto, TPool.act, driftCfg, hk]

theorem drift_three {m n : Nat} {k : Int} {closed : List Nat} {a : PoolThr} {l : List Nat} (hk : ¬ (m : Int) ≤ k) :
    (.callGet 1 :: steps 1 6).foldl (TPool.tev (driftCfg m)) (driftAt [] k n closed a { held := l }) =
      driftAt [] (k + 1) (n + 1) closed a { held := n :: l } := by
  simp [steps, List.replicate, driftAt, TPool.tev, TPool.goto, TPool.act, driftCfg, hk]

theorem drift_four {m n n' : Nat} {k : Int} {closed : List Nat} (hn : 0 < n) :
    (.callPut 1 0 :: steps 1 2 ++ steps 0 1).foldl (TPool.tev (driftCfg m))
      (driftAt [] k n' closed { pc := .newRead .fresh } { held := [n, 0] }) =
      driftAt [0] k n' closed { pc := .newWrite .fresh k } { held := [n] } := by
  have h : ([n, 0] : List Nat).erase 0 = [n] := by
    have : (n == 0) = false := by simp; omega
    simp [List.erase, this]
  simp [steps, List.replicate, driftAt, TPool.tev, TPool.goto, TPool.act, TPool.afterPut, driftCfg, CPool.full, h]

theorem drift_five {m n n' : Nat} {k : Int} {closed : List Nat} {a : PoolThr} :
    (.callPut 1 n :: steps 1 5).foldl (TPool.tev (driftCfg m)) (driftAt [0] k n' closed a { held := [n] }) =
      driftAt [0] (k - 1) n' (n :: closed) a {} := by
  simp [steps, List.replicate, driftAt, TPool.tev, TPool.goto, TPool.act, TPool.afterPut, driftCfg, CPool.full]

theorem drift_six {m n : Nat} {k r : Int} {closed : List Nat} {b : PoolThr} :
    (steps 0 2).foldl (TPool.tev (driftCfg m)) (driftAt [0] k n closed { pc := .newWrite .fresh r } b) =
      driftAt [0] (r + 1) (n + 1) closed { held := [n] } b := by
  simp [steps, List.replicate, driftAt, TPool.tev, TPool.goto, TPool.act]

theorem drift_seven {m n n' : Nat} {k : Int} {closed : List Nat} {b : PoolThr} :
    (.callPut 0 n :: steps 0 5).foldl (TPool.tev (driftCfg m)) (driftAt [0] k n' closed { held := [n] } b) =
      driftAt [0] (k - 1) n' (n :: closed) {} b := by
  simp [steps, List.replicate, driftAt, TPool.tev, TPool.goto, TPool.act, TPool.afterPut, driftCfg, CPool.full]

theorem drift_round {m n : Nat} {k : Int} {closed : List Nat} (hk : ¬ (m : Int) ≤ k) (hn : 0 < n)
    (h0 : closed.contains 0 = false) :
    (driftRound n).foldl (TPool.tev (driftCfg m)) (driftAt [0] k n closed {} {}) =
      driftAt [0] (k + 1) (n + 2) ((n + 1) :: n :: closed) {} {} := by
  have e : driftRound n = (.callGet 1 :: steps 1 5) ++ ((.callGet 0 :: steps 0 3) ++ ((.callGet 1 :: steps 1 6) ++
      ((.callPut 1 0 :: steps 1 2 ++ steps 0 1) ++ ((.callPut 1 n :: steps 1 5) ++ (steps 0 2 ++ (.callPut 0 (n + 1) :: steps 0 5)))))) := by
    simp [driftRound]
  rw [e]
  simp only [List.foldl_append (l := .callGet 1 :: steps 1 5), List.foldl_append (l := .callGet 0 :: steps 0 3),
    List.foldl_append (l := .callGet 1 :: steps 1 6), List.foldl_append (l := .callPut 1 0 :: steps 1 2 ++ steps 0 1),
    List.foldl_append (l := .callPut 1 n :: steps 1 5), List.foldl_append (l := steps 0 2)]
  rw [drift_one h0, drift_two hk, drift_three hk, drift_four hn, drift_five, drift_six, drift_seven]
  congr 1
  omega

/-- `j` rounds, the first connection made in them being `n` -/
def driftRounds : Nat → Nat → List PoolTEv
  | 0, _ => []
  | j + 1, n => driftRound n ++ driftRounds j (n + 2)

theorem drift_rounds {m : Nat} (j n : Nat) (k : Int) (closed : List Nat) (hk : k + j ≤ m) (hn : 0 < n)
    (h0 : closed.contains 0 = false) : ∃ n' closed', closed'.contains 0 = false ∧
      (driftRounds j n).foldl (TPool.tev (driftCfg m)) (driftAt [0] k n closed {} {}) = driftAt [0] (k + j) n' closed' {} {} := by
  induction j generalizing n k closed with
  | zero => exact ⟨n, closed, h0, by simp [driftRounds]⟩
  | succ j ih =>
    have h1 : ((n + 1) :: n :: closed).contains 0 = false := by
      have h2 : ¬ 0 = n := by omega
      simp at h0 ⊢
      exact ⟨h2, h0⟩
    obtain ⟨n', c', g0, g⟩ := ih (n + 2) (k + 1) ((n + 1) :: n :: closed) (by omega) (by omega) h1
    refine ⟨n', c', g0, ?_⟩
    rw [driftRounds, List.foldl_append, drift_round (by omega) hn h0, g]
    congr 1
    omega

theorem driftRounds_calls (j n i : Nat) : .callClose i ∉ driftRounds j n := by
  induction j generalizing n with
  | zero => simp [driftRounds]
  | succ j ih =>
    rw [driftRounds, List.mem_append, not_or]
    exact ⟨by simp [driftRound, steps], ih _⟩

/-- The start of a pool of `driftCfg` (connection 0 is free). -/
theorem drift_start {m : Nat} (hm : 0 < m) : ∃ p, CPool.init (driftCfg m) = .ok p ∧ tpStart p 2 = driftAt [0] 1 1 [] {} {} := by
  refine ⟨{ free := some [0], num := 1, made := 1 }, ?_, rfl⟩
  have : ¬ m = 0 := by omega
  simp [CPool.init, driftCfg, CPool.fill, CPool.newConn, CPool.full, this]

/-- C203, the worst: whatever `max_connections` is, two threads that get and put back may be left with one single open
connection and a pool that counts `max_connections` of them: one thread has it and the other one is refused. -/
theorem C203_worst (m : Nat) (hm : 0 < m) : ∃ p evs, CPool.init (driftCfg m) = .ok p ∧ (∀ j, .callClose j ∉ evs) ∧
    Refuses (driftCfg m) (tpRun (driftCfg m) p 2 evs) 0 ∧ inUse (tpRun (driftCfg m) p 2 evs) = 2 ∧
    (tpRun (driftCfg m) p 2 evs).queue = [] ∧ (tpRun (driftCfg m) p 2 evs).thr[1]? = some { held := [0] } := by
  obtain ⟨p, hp, hs⟩ := drift_start hm
  obtain ⟨n', c', g0, g⟩ := drift_rounds (m := m) (m - 1) 1 1 [] (by omega) (by omega) rfl
  refine ⟨p, driftRounds (m - 1) 1 ++ ((.callGet 1 :: steps 1 5) ++ (.callGet 0 :: steps 0 2)), hp, fun j => ?_, ?_⟩
  · rw [List.mem_append, not_or]
    exact ⟨driftRounds_calls _ _ _, by simp [steps]⟩
  · have e : tpRun (driftCfg m) p 2 (driftRounds (m - 1) 1 ++ ((.callGet 1 :: steps 1 5) ++ (.callGet 0 :: steps 0 2))) =
        driftAt [] m n' c' { pc := .newChk .fresh } { held := [0] } := by
      have em : (1 : Int) + ((m - 1 : Nat) : Int) = m := by omega
      unfold tpRun
      rw [hs, List.foldl_append, List.foldl_append, g, drift_one g0, em]
      simp [steps, List.replicate, driftAt, TPool.tev, TPool.goto, TPool.act, driftCfg]
    rw [e]
    exact ⟨⟨{ pc := .newChk .fresh }, rfl, rfl, rfl, Int.le_refl _⟩, rfl, rfl, rfl⟩

/-- C203 as listed is violated. -/
theorem C203_violated : ¬ C203_full := by
  intro h
  obtain ⟨p, evs, hp, hc, hr, hu, -⟩ := C203_worst 2 (by decide)
  have := h (driftCfg 2) p 2 evs 0 hp rfl rfl hc hr
  rw [hu] at this
  exact absurd this (by decide)

/-- `C203_counts_partial` has content: both threads take a connection of a pool that may have two, a third call is refused. -/
example : ∃ p evs, CPool.init (driftCfg 2) = .ok p ∧ (∀ j, .callClose j ∉ evs) ∧ Undisturbed (driftCfg 2) p 2 evs ∧
    Refuses (driftCfg 2) (tpRun (driftCfg 2) p 2 evs) 0 ∧ inUse (tpRun (driftCfg 2) p 2 evs) = 3 := by
  refine ⟨{ free := some [0], num := 1, made := 1 }, (.callGet 1 :: steps 1 5) ++ (.callGet 0 :: steps 0 6) ++ (.callGet 0 :: steps 0 2),
    rfl, ?_, ?_, ⟨{ pc := .newChk .fresh, held := [1] }, by decide +kernel, rfl, by decide +kernel, by decide +kernel⟩, by decide +kernel⟩
  · simp [steps]
  · have key : ∀ k, k ≤ 16 → ∀ t ∈ (tpRun (driftCfg 2) { free := some [0], num := 1, made := 1 } 2
        (((.callGet 1 :: steps 1 5) ++ (.callGet 0 :: steps 0 6) ++ (.callGet 0 :: steps 0 2)).take k)).thr,
        (match t.pc with | .putDecW _ _ _ => false | _ => true) = true := by decide +kernel
    intro pre i b post he t k c r ht hpc
    have hl : pre.length ≤ 16 := by
      have := congrArg List.length he
      simp [steps] at this
      omega
    have hpre : pre = ((.callGet 1 :: steps 1 5) ++ (.callGet 0 :: steps 0 6) ++ (.callGet 0 :: steps 0 2)).take pre.length := by
      rw [he, List.take_left]
    have := key pre.length hl t (by rw [← hpre]; exact List.mem_of_getElem? ht)
    rw [hpc] at this
    cases this

end Bolt
