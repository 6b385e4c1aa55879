import Verif.Props.PoolDrift
/-!
# C204: how many connections a shared pool has
-/
namespace Bolt
open Spec

namespace Spec

/-- the connections that are free or held -/
def heldOrFree (s : TPool) : Nat := s.queue.length + sumBy (fun t => t.held.length) s.thr

/-- the thread is about to write the count -/
def AboutToWrite (pc : PoolPC) : Prop := (∃ k r, pc = .newWrite k r) ∨ (∃ k c r, pc = .putDecW k c r) ∨ ∃ c r, pc = .dropDecW c r

/-- No thread writes the count while another one is between reading and writing it, and no connection the pool takes out of the
queue turns out to be dropped. -/
def Tidy (cfg : PoolCfg) (p : CPool) (n : Nat) (evs : List PoolTEv) : Prop :=
  ∀ pre i b post, evs = pre ++ .step i b :: post → ∀ t, (tpRun cfg p n pre).thr[i]? = some t →
    (AboutToWrite t.pc → ∀ (j : Nat) (u : PoolThr), (tpRun cfg p n pre).thr[j]? = some u → j ≠ i → ¬ AboutToWrite u.pc) ∧
      ∀ c, t.pc ≠ .dropClose c

end Spec

/-- C204 as listed: a pool shared by `n` threads never has more connections free or held than `max_connections`, and one for
each thread but one (the check and the count are apart). -/
def C204_full : Prop :=
  ∀ (cfg : PoolCfg) (p : CPool) (n : Nat) (evs : List PoolTEv), CPool.init cfg = .ok p →
    heldOrFree (tpRun cfg p n evs) ≤ cfg.maxConns + (n - 1)

/-! ## tidy runs -/

/-- the counted connections in the hands of pool code at this point, refills and `close` included -/
def PoolPC.load : PoolPC → Nat
  | .idle | .getLoad | .getPop | .newChk .fresh | .newRead .fresh | .newWrite .fresh _ | .putClose .user _ | .closeLoad
  | .closeStore _ | .closeDrain | .closeOne _ | .dropDecR _ | .dropDecW _ _ => 0
  | .newMake (.refill _) | .putLoad (.refill _) _ | .putPut (.refill _) _ | .putDecR (.refill _) _ | .putDecW (.refill _) _ _ => 2
  | _ => 1

/-- past the check, not counted yet -/
def PoolPC.passed : PoolPC → Nat
  | .newRead _ | .newWrite _ _ => 1
  | _ => 0

def PoolThr.full (t : PoolThr) : Nat := t.held.length + t.pc.load

structure TidyInv (cfg : PoolCfg) (n : Nat) (s : TPool) : Prop where
  threads : s.thr.length = n
  count : ((s.queue.length + sumBy PoolThr.full s.thr : Nat) : Int) ≤ s.num
  cap : s.num + (sumBy (fun t => t.pc.passed) s.thr : Nat) ≤ (cfg.maxConns + (n - 1) : Nat)
  seen : ∀ (i : Nat) (t : PoolThr) (r : Int), s.thr[i]? = some t → t.pc.seen = some r → r = s.num
  drop : ∀ (i : Nat) (t : PoolThr), s.thr[i]? = some t → (∀ c, t.pc ≠ .dropDecR c) ∧ ∀ c r, t.pc ≠ .dropDecW c r

theorem passed_le (l : List PoolThr) : sumBy (fun t => t.pc.passed) l ≤ l.length := by
  induction l with
  | nil => exact Nat.le_refl _
  | cons t l ih =>
    have : t.pc.passed ≤ 1 := by cases t.pc <;> simp [PoolPC.passed]
    simp only [sumBy, List.map_cons, List.sum_cons, List.length_cons] at ih ⊢
    omega

theorem tidy_goto {cfg : PoolCfg} {n : Nat} {s s1 : TPool} {i : Nat} {t t' : PoolThr} (d : Int) (h : TidyInv cfg n s)
    (ht : s.thr[i]? = some t) (e1 : s1.thr = s.thr) (en : s1.num = s.num + d)
    (hq : (s1.queue.length : Int) + t'.full ≤ s.queue.length + t.full + d)
    (hc : t'.pc.passed + d ≤ t.pc.passed ∨ (d = 0 ∧ s.num < cfg.maxConns))
    (hs : ∀ r, t'.pc.seen = some r → r = s.num + d)
    (ho : d = 0 ∨ ∀ (j : Nat) (u : PoolThr), s.thr[j]? = some u → j ≠ i → u.pc.seen = none)
    (hd : (∀ c, t'.pc ≠ .dropDecR c) ∧ ∀ c r, t'.pc ≠ .dropDecW c r) : TidyInv cfg n (s1.goto i t') := by
  have hlt : i < s.thr.length := (List.getElem?_eq_some_iff.1 ht).1
  have h1 := sumBy_set PoolThr.full t' ht
  have h2 := sumBy_set (fun t : PoolThr => t.pc.passed) t' ht
  have h3 := h.count
  have h4 := h.cap
  have h5 := h.threads
  refine ⟨?_, ?_, ?_, fun j u r hu hr => ?_, fun j u hu => ?_⟩
  · simp [TPool.goto, e1, h5]
  · simp only [TPool.goto, e1, en]
    omega
  · simp only [TPool.goto, e1, en]
    rcases hc with hc | ⟨rfl, hc⟩
    · omega
    · have := passed_le (s.thr.set i t')
      rw [List.length_set] at this
      omega
  · change r = s1.num
    rw [en]
    rcases getElem?_goto hu with ⟨_, rfl⟩ | ⟨hne, g⟩
    · exact hs r hr
    · rw [e1] at g
      rcases ho with ho | ho
      · have := h.seen j u r g hr
        omega
      · rw [ho j u g (by omega)] at hr
        cases hr
  · rcases getElem?_goto hu with ⟨_, rfl⟩ | ⟨hne, g⟩
    · exact hd
    · rw [e1] at g
      exact h.drop j u g

theorem seen_iff (pc : PoolPC) : AboutToWrite pc ↔ pc.seen ≠ none := by
  unfold AboutToWrite
  cases pc <;> simp [PoolPC.seen]

theorem tidy_act {cfg : PoolCfg} {n : Nat} {s : TPool} (h : TidyInv cfg n s) {i : Nat} {t : PoolThr} (ht : s.thr[i]? = some t) (b : Bool)
    (hu : AboutToWrite t.pc → ∀ (j : Nat) (u : PoolThr), s.thr[j]? = some u → j ≠ i → ¬ AboutToWrite u.pc)
    (hx : ∀ c, t.pc ≠ .dropClose c) : TidyInv cfg n (s.act cfg i t b) := by
  have hseen := h.seen i t
  have hdrop := h.drop i t ht
  have ho : AboutToWrite t.pc → ∀ (j : Nat) (u : PoolThr), s.thr[j]? = some u → j ≠ i → u.pc.seen = none := by
    intro ha j u g hne
    have := hu ha j u g hne
    rw [seen_iff] at this
    exact Classical.byContradiction this
  obtain ⟨pc, held⟩ := t
  dsimp only at hx hdrop ho
  have keep : ∀ {s1 : TPool} (t' : PoolThr), s1.thr = s.thr → s1.num = s.num →
      s1.queue.length + t'.full ≤ s.queue.length + (PoolThr.full ⟨pc, held⟩) → t'.pc.passed ≤ pc.passed →
      (∀ r, t'.pc.seen = some r → r = s.num) → ((∀ c, t'.pc ≠ .dropDecR c) ∧ ∀ c r, t'.pc ≠ .dropDecW c r) →
      TidyInv cfg n (s1.goto i t') := fun t' a0 a1 a2 a3 a4 a5 =>
    tidy_goto 0 h ht a0 (by omega) (by omega) (.inl (by dsimp only; omega)) (fun r hr => by rw [a4 r hr]; omega) (.inl rfl) a5
  have no : ∀ {P : PoolPC}, P.seen = none → ∀ r, P.seen = some r → r = s.num := fun e r hr => by rw [e] at hr; cases hr
  unfold TPool.act
  cases pc with
  | idle => exact h
  | getLoad =>
    dsimp only
    split <;> exact keep _ rfl rfl (Nat.le_refl _) (Nat.le_refl _) (no rfl) (by simp)
  | getPop =>
    dsimp only
    split
    · next c q hq => exact keep _ rfl rfl (by simp [PoolThr.full, PoolPC.load, hq]; omega) (Nat.le_refl _) (no rfl) (by simp)
    · split
      · split
        · exact keep _ rfl rfl (Nat.le_refl _) (Nat.le_refl _) (no rfl) (by simp)
        · exact h
      · exact keep _ rfl rfl (Nat.le_refl _) (Nat.le_refl _) (no rfl) (by simp)
  | getSize c =>
    dsimp only
    split <;> exact keep _ rfl rfl (by simp [PoolThr.full, PoolPC.load]) (Nat.le_refl _) (no rfl) (by simp)
  | getQsize c =>
    dsimp only
    split <;> exact keep _ rfl rfl (by simp [PoolThr.full, PoolPC.load]) (Nat.le_refl _) (no rfl) (by simp)
  | newChk k =>
    dsimp only
    split
    · exact h
    · split
      · exact keep _ rfl rfl (by simp [PoolThr.full, PoolPC.load]) (Nat.le_refl _) (no rfl) (by simp)
      · exact tidy_goto 0 h ht rfl (by omega) (by cases k <;> simp [PoolThr.full, PoolPC.load]) (.inr ⟨rfl, by omega⟩)
          (fun r hr => by cases hr) (.inl rfl) (by simp)
  | newRead k => exact keep _ rfl rfl (by cases k <;> simp [PoolThr.full, PoolPC.load]) (Nat.le_refl _) (fun r hr => by cases hr; rfl) (by simp)
  | newWrite k r =>
    have := hseen r ht rfl
    subst this
    exact tidy_goto 1 h ht rfl rfl (by cases k <;> simp [PoolThr.full, PoolPC.load] <;> omega) (.inl (by simp [PoolPC.passed]))
      (fun r hr => by cases hr) (.inr (ho (.inl ⟨k, _, rfl⟩))) (by simp)
  | newMake k =>
    cases k <;> exact keep _ rfl rfl (by simp [PoolThr.full, PoolPC.load]) (Nat.le_refl _) (no rfl) (by simp)
  | putLoad k c =>
    dsimp only
    split <;> exact keep _ rfl rfl (by cases k <;> simp [PoolThr.full, PoolPC.load]) (Nat.le_refl _) (no rfl) (by simp)
  | putPut k c =>
    dsimp only
    split
    · exact keep _ rfl rfl (by cases k <;> simp [PoolThr.full, PoolPC.load]) (Nat.le_refl _) (no rfl) (by simp)
    · cases k <;> exact keep _ rfl rfl (by simp [PoolThr.full, PoolPC.load]; omega) (Nat.le_refl _) (no rfl) (by simp)
  | putDecR k c =>
    dsimp only
    split
    · exact h
    · exact keep _ rfl rfl (by cases k <;> simp [PoolThr.full, PoolPC.load]) (Nat.le_refl _) (fun r hr => by cases hr; rfl) (by simp)
  | putDecW k c r =>
    have := hseen r ht rfl
    subst this
    exact tidy_goto (-1) h ht rfl rfl (by cases k <;> simp [PoolThr.full, PoolPC.load] <;> omega) (.inl (by simp [PoolPC.passed]))
      (fun r hr => by cases hr) (.inr (ho (.inr (.inl ⟨k, c, _, rfl⟩)))) (by simp)
  | putClose k c =>
    cases k <;> exact keep _ rfl rfl (by simp [PoolThr.full, PoolPC.load]) (Nat.le_refl _) (no rfl) (by simp)
  | dropChk c =>
    dsimp only
    split <;> exact keep _ rfl rfl (by simp [PoolThr.full, PoolPC.load]) (Nat.le_refl _) (no rfl) (by simp)
  | dropClose c => exact absurd rfl (hx c)
  | dropDecR c => exact absurd rfl (hdrop.1 c)
  | dropDecW c r => exact absurd rfl (hdrop.2 c r)
  | closeLoad => exact keep _ rfl rfl (Nat.le_refl _) (Nat.le_refl _) (no rfl) (by simp)
  | closeStore o =>
    cases o <;> exact keep _ rfl rfl (Nat.le_refl _) (Nat.le_refl _) (no rfl) (by simp)
  | closeDrain =>
    dsimp only
    split
    · next c q hq => exact keep _ rfl rfl (by simp [PoolThr.full, PoolPC.load, hq]) (Nat.le_refl _) (no rfl) (by simp)
    · exact keep _ rfl rfl (Nat.le_refl _) (Nat.le_refl _) (no rfl) (by simp)
  | closeOne c => exact keep _ rfl rfl (Nat.le_refl _) (Nat.le_refl _) (no rfl) (by simp)

theorem tidy_tev {cfg : PoolCfg} {n : Nat} {s : TPool} (h : TidyInv cfg n s) (e : PoolTEv)
    (hu : ∀ i b t, e = .step i b → s.thr[i]? = some t →
      (AboutToWrite t.pc → ∀ (j : Nat) (u : PoolThr), s.thr[j]? = some u → j ≠ i → ¬ AboutToWrite u.pc) ∧
      ∀ c, t.pc ≠ .dropClose c) : TidyInv cfg n (s.tev cfg e) := by
  have enter : ∀ {i : Nat} {t : PoolThr} (t' : PoolThr), s.thr[i]? = some t → t.pc = .idle → t'.full ≤ t.full →
      t'.pc.passed = 0 → t'.pc.seen = none → ((∀ c, t'.pc ≠ .dropDecR c) ∧ ∀ c r, t'.pc ≠ .dropDecW c r) → TidyInv cfg n (s.goto i t') :=
    fun t' ht hi a1 a2 a3 a4 => tidy_goto 0 h ht rfl (by omega) (by omega) (.inl (by rw [a2]; omega))
      (fun r hr => by rw [a3] at hr; cases hr) (.inl rfl) a4
  cases e with
  | callGet i =>
    unfold TPool.tev
    dsimp only
    split
    · next t ht =>
      split
      · next hi => exact enter _ ht hi (by simp [PoolThr.full, PoolPC.load]) rfl rfl (by simp)
      · exact h
    · exact h
  | callPut i c =>
    unfold TPool.tev
    dsimp only
    split
    · next t ht =>
      split
      · next hi =>
        have hlen : (t.held.erase c).length = t.held.length - 1 := List.length_erase_of_mem hi.2
        have hpos : 0 < t.held.length := List.length_pos_of_mem hi.2
        exact enter _ ht hi.1 (by simp only [PoolThr.full, PoolPC.load, hi.1, hlen]; omega) rfl rfl (by simp)
      · exact h
    · exact h
  | callClose i =>
    unfold TPool.tev
    dsimp only
    split
    · next t ht =>
      split
      · next hi => exact enter _ ht hi (by simp [PoolThr.full, PoolPC.load]) rfl rfl (by simp)
      · exact h
    · exact h
  | userClose i c =>
    unfold TPool.tev
    dsimp only
    split
    · split
      · exact ⟨h.threads, h.count, h.cap, h.seen, h.drop⟩
      · exact h
    · exact h
  | step i b =>
    unfold TPool.tev
    dsimp only
    split
    · next t ht =>
      obtain ⟨g1, g2⟩ := hu i b t rfl ht
      exact tidy_act h ht b g1 g2
    · exact h

theorem tidy_run {cfg : PoolCfg} {p : CPool} (hp : CPool.init cfg = .ok p) (n : Nat) (evs : List PoolTEv)
    (hu : Tidy cfg p n evs) : TidyInv cfg n (tpRun cfg p n evs) := by
  induction evs using snoc_induct with
  | nil =>
    have hz : ∀ (f : PoolThr → Nat) n, f {} = 0 → sumBy f (List.replicate n {}) = 0 := by
      intro f n hf
      induction n with
      | zero => rfl
      | succ n ih => simp only [sumBy, List.replicate_succ, List.map_cons, List.sum_cons] at ih ⊢; rw [ih, hf]
    have hrep : ∀ (i : Nat) (t : PoolThr), (tpStart p n).thr[i]? = some t → t = {} := by
      intro i t h
      have : t ∈ List.replicate n ({} : PoolThr) := List.mem_of_getElem? h
      exact (List.mem_replicate.1 this).2
    refine ⟨by simp [tpRun, tpStart], ?_, ?_, fun i t r ht hr => ?_, fun i t ht => ?_⟩
    · have := (loc_init hp).2.2.2
      change (((p.free.getD []).length + sumBy PoolThr.full (List.replicate n {}) : Nat) : Int) ≤ p.num
      rw [this, hz _ _ rfl]
      exact Int.le_refl _
    · have := (loc_init hp).1.cap
      change p.num + (sumBy (fun t : PoolThr => t.pc.passed) (List.replicate n {}) : Nat) ≤ _
      rw [hz _ _ rfl]
      omega
    · rw [hrep i t ht] at hr
      cases hr
    · rw [hrep i t ht]
      simp
  | snoc evs e ih =>
    rw [tpRun_snoc]
    have ih := ih (fun pre i b post he => hu pre i b (post ++ [e]) (by rw [he]; simp))
    exact tidy_tev ih e fun i b t he ht => hu evs i b [] (by rw [he]) t ht

/-- C204, what holds: in runs in which no thread writes the count while another one is between reading and writing it, and no
connection is dropped, the connections free or held are `max_connections` and one for each thread but one at most. Missing: the
other runs (`C204_violated`, `C204_worst`). -/
theorem C204_bound_partial (cfg : PoolCfg) (p : CPool) (n : Nat) (evs : List PoolTEv) (hp : CPool.init cfg = .ok p)
    (hu : Tidy cfg p n evs) : heldOrFree (tpRun cfg p n evs) ≤ cfg.maxConns + (n - 1) := by
  have h := tidy_run hp n evs hu
  have h1 := h.count
  have h2 := h.cap
  have h3 : ∀ l : List PoolThr, sumBy (fun t => t.held.length) l ≤ sumBy PoolThr.full l := by
    intro l
    induction l with
    | nil => exact Nat.le_refl _
    | cons t l ih => simp only [sumBy, List.map_cons, List.sum_cons, PoolThr.full] at ih ⊢; omega
  have := h3 (tpRun cfg p n evs).thr
  unfold heldOrFree
  omega

/-! ## lost increments -/

theorem countP_two {α : Type} (f : α → Bool) {l : List α} {i j : Nat} {x y : α} (hx : l[i]? = some x) (hy : l[j]? = some y)
    (hne : i ≠ j) (fx : f x = true) (fy : f y = true) : 2 ≤ l.countP f := by
  induction l generalizing i j with
  | nil => cases hx
  | cons z l ih =>
    have one : ∀ {k : Nat} {w : α}, l[k]? = some w → f w = true → 0 < l.countP f := fun hk hw =>
      List.countP_pos_iff.2 ⟨_, List.mem_of_getElem? hk, hw⟩
    rw [List.countP_cons]
    cases i with
    | zero =>
      cases j with
      | zero => exact absurd rfl hne
      | succ j =>
        cases hx
        have := one hy fy
        rw [if_pos fx]
        omega
    | succ i =>
      cases j with
      | zero =>
        cases hy
        have := one hx fx
        rw [if_pos fy]
        omega
      | succ j =>
        have := ih hx hy (by omega)
        omega

/-- Thread 0 takes the free connection 0; both threads make a connection and one count is lost; connection 0 is put back, the other
two are counted out and closed. -/
def lossRound (n : Nat) : List PoolTEv :=
  (.callGet 0 :: steps 0 5) ++ ((.callGet 0 :: steps 0 4) ++ ((.callGet 1 :: steps 1 4) ++ ((steps 0 2 ++ steps 1 2) ++
    ((.callPut 0 0 :: steps 0 2) ++ ((.callPut 0 n :: steps 0 5) ++ (.callPut 1 (n + 1) :: steps 1 5))))))

theorem loss_one {m n : Nat} {k : Int} {closed : List Nat} (h0 : closed.contains 0 = false) :
    (.callGet 0 :: steps 0 5).foldl (TPool.tev (driftCfg m)) (driftAt [0] k n closed {} {}) =
      driftAt [] k n closed { held := [0] } {} := by
  simp [steps, List.replicate, driftAt, TPool.tev, TPool.goto, TPool.act, driftCfg] at h0 ⊢
  simp [h0]

theorem loss_two {m n : Nat} {k : Int} {closed : List Nat} {b : PoolThr} {l : List Nat} (hk : ¬ (m : Int) ≤ k) :
    (.callGet 0 :: steps 0 4).foldl (TPool.tev (driftCfg m)) (driftAt [] k n closed { held := l } b) =
      driftAt [] k n closed { pc := .newWrite .fresh k, held := l } b := by
  simp [steps, List.replicate, driftAt, TPool.tev, TPool.goto, TPool.act, driftCfg, hk]

theorem loss_three {m n : Nat} {k : Int} {closed : List Nat} {a : PoolThr} (hk : ¬ (m : Int) ≤ k) :
    (.callGet 1 :: steps 1 4).foldl (TPool.tev (driftCfg m)) (driftAt [] k n closed a {}) =
      driftAt [] k n closed a { pc := .newWrite .fresh k } := by
  simp [steps, List.replicate, driftAt, TPool.tev, TPool.goto, TPool.act, driftCfg, hk]

theorem loss_four {m n : Nat} {k k0 : Int} {closed : List Nat} {l : List Nat} :
    (steps 0 2 ++ steps 1 2).foldl (TPool.tev (driftCfg m))
      (driftAt [] k0 n closed { pc := .newWrite .fresh k, held := l } { pc := .newWrite .fresh k }) =
      driftAt [] (k + 1) (n + 2) closed { held := n :: l } { held := [n + 1] } := by
  simp [steps, List.replicate, driftAt, TPool.tev, TPool.goto, TPool.act]

theorem loss_five {m n n' : Nat} {k : Int} {closed : List Nat} {b : PoolThr} (hn : 0 < n) :
    (.callPut 0 0 :: steps 0 2).foldl (TPool.tev (driftCfg m)) (driftAt [] k n' closed { held := [n, 0] } b) =
      driftAt [0] k n' closed { held := [n] } b := by
  have h : ([n, 0] : List Nat).erase 0 = [n] := by
    have : (n == 0) = false := by simp; omega
    simp [List.erase, this]
  simp [steps, List.replicate, driftAt, TPool.tev, TPool.goto, TPool.act, TPool.afterPut, driftCfg, CPool.full, h]

theorem loss_round {m n : Nat} {k : Int} {closed : List Nat} (hk : ¬ (m : Int) ≤ k) (hn : 0 < n)
    (h0 : closed.contains 0 = false) :
    (lossRound n).foldl (TPool.tev (driftCfg m)) (driftAt [0] k n closed {} {}) =
      driftAt [0] (k - 1) (n + 2) ((n + 1) :: n :: closed) {} {} := by
  unfold lossRound
  simp only [List.foldl_append (l := .callGet 0 :: steps 0 5), List.foldl_append (l := .callGet 0 :: steps 0 4),
    List.foldl_append (l := .callGet 1 :: steps 1 4), List.foldl_append (l := steps 0 2 ++ steps 1 2),
    List.foldl_append (l := .callPut 0 0 :: steps 0 2), List.foldl_append (l := .callPut 0 n :: steps 0 5)]
  rw [loss_one h0, loss_two hk, loss_three hk, loss_four, loss_five hn, drift_seven, drift_five]
  congr 1
  omega

/-- `j` rounds, the first connection made in them being `n` -/
def lossRounds : Nat → Nat → List PoolTEv
  | 0, _ => []
  | j + 1, n => lossRound n ++ lossRounds j (n + 2)

theorem loss_rounds {m : Nat} (j n : Nat) (k : Int) (closed : List Nat) (hk : k < m) (hn : 0 < n)
    (h0 : closed.contains 0 = false) : ∃ n' closed', closed'.contains 0 = false ∧
      (lossRounds j n).foldl (TPool.tev (driftCfg m)) (driftAt [0] k n closed {} {}) = driftAt [0] (k - j) n' closed' {} {} := by
  induction j generalizing n k closed with
  | zero => exact ⟨n, closed, h0, by simp [lossRounds]⟩
  | succ j ih =>
    have h1 : ((n + 1) :: n :: closed).contains 0 = false := by
      have h2 : ¬ 0 = n := by omega
      simp at h0 ⊢
      exact ⟨h2, h0⟩
    obtain ⟨n', c', g0, g⟩ := ih (n + 2) (k - 1) ((n + 1) :: n :: closed) (by omega) (by omega) h1
    refine ⟨n', c', g0, ?_⟩
    rw [lossRounds, List.foldl_append, loss_round (by omega) hn h0, g]
    congr 1
    omega

/-- thread 1 gets `j` connections one after the other -/
def getMany : Nat → List PoolTEv
  | 0 => []
  | j + 1 => (.callGet 1 :: steps 1 6) ++ getMany j

theorem get_many {m : Nat} (j n : Nat) (k : Int) (closed l : List Nat) (hk : k + j ≤ m) : ∃ n' l', l'.length = l.length + j ∧
    (getMany j).foldl (TPool.tev (driftCfg m)) (driftAt [] k n closed {} { held := l }) =
      driftAt [] (k + j) n' closed {} { held := l' } := by
  induction j generalizing n k l with
  | zero => exact ⟨n, l, rfl, by simp [getMany]⟩
  | succ j ih =>
    obtain ⟨n', l', g0, g⟩ := ih (n + 1) (k + 1) (n :: l) (by omega)
    refine ⟨n', l', by rw [g0, List.length_cons]; omega, ?_⟩
    rw [getMany, List.foldl_append, drift_three (by omega), g]
    congr 1
    omega

/-- C204, the worst: whatever `max_connections` is (2 at least), two threads can come to have any number of connections at once:
one of them holds `N`, none of which was dropped or closed by anybody. -/
theorem C204_worst (m : Nat) (hm : 2 ≤ m) (N : Nat) : ∃ p evs, CPool.init (driftCfg m) = .ok p ∧
    ∃ l, (tpRun (driftCfg m) p 2 evs).thr[1]? = some { held := l } ∧ N ≤ l.length := by
  obtain ⟨p, hp, hs⟩ := drift_start (m := m) (by omega)
  obtain ⟨n', c', g0, g⟩ := loss_rounds (m := m) N 1 1 [] (by omega) (by omega) rfl
  obtain ⟨n2, l, gl, g2⟩ := get_many (m := m) N n' (1 - N) c' [0] (by omega)
  refine ⟨p, lossRounds N 1 ++ ((.callGet 1 :: steps 1 5) ++ getMany N), hp, l, ?_, by rw [gl]; omega⟩
  unfold tpRun
  rw [hs, List.foldl_append, List.foldl_append, g, drift_one g0, g2]
  rfl

/-- C204 as listed is violated. -/
theorem C204_violated : ¬ C204_full := by
  intro h
  obtain ⟨p, evs, hp, l, ht, hl⟩ := C204_worst 2 (by decide) 4
  have h1 := h (driftCfg 2) p 2 evs hp
  have h2 := sumBy_set (fun t : PoolThr => t.held.length) ({} : PoolThr) ht
  unfold heldOrFree at h1
  change _ ≤ 2 + (2 - 1) at h1
  simp only [List.length_nil] at h2
  omega

/-- `C204_bound_partial` has content, and its bound is reached: two threads pass the check before either counts, and have three
connections of a pool that may have two. -/
example : ∃ p evs, CPool.init (driftCfg 2) = .ok p ∧ Tidy (driftCfg 2) p 2 evs ∧ heldOrFree (tpRun (driftCfg 2) p 2 evs) = 3 := by
  refine ⟨{ free := some [0], num := 1, made := 1 }, (.callGet 1 :: steps 1 5) ++ (.callGet 0 :: steps 0 3) ++ (.callGet 1 :: steps 1 6) ++ steps 0 3,
    rfl, ?_, by decide +kernel⟩
  have key : ∀ k, k ≤ 20 → (tpRun (driftCfg 2) { free := some [0], num := 1, made := 1 } 2
      (((.callGet 1 :: steps 1 5) ++ (.callGet 0 :: steps 0 3) ++ (.callGet 1 :: steps 1 6) ++ steps 0 3).take k)).thr.countP
        (fun t => t.pc.seen.isSome) ≤ 1 ∧ ∀ t ∈ (tpRun (driftCfg 2) { free := some [0], num := 1, made := 1 } 2
      (((.callGet 1 :: steps 1 5) ++ (.callGet 0 :: steps 0 3) ++ (.callGet 1 :: steps 1 6) ++ steps 0 3).take k)).thr,
        (match t.pc with | .dropClose _ => false | _ => true) = true := by decide +kernel
  intro pre i b post he t ht
  have hl : pre.length ≤ 20 := by
    have := congrArg List.length he
    simp [steps] at this
    omega
  have hpre : pre = ((.callGet 1 :: steps 1 5) ++ (.callGet 0 :: steps 0 3) ++ (.callGet 1 :: steps 1 6) ++ steps 0 3).take pre.length := by
    rw [he, List.take_left]
  obtain ⟨k1, k2⟩ := key pre.length hl
  rw [← hpre] at k1 k2
  refine ⟨fun ha j u hu hne hb => ?_, fun c hc => ?_⟩
  · rw [seen_iff] at ha hb
    have h1 := countP_two (fun t : PoolThr => t.pc.seen.isSome) ht hu (Ne.symm hne) (Option.isSome_iff_ne_none.2 ha) (Option.isSome_iff_ne_none.2 hb)
    omega
  · have := k2 t (List.mem_of_getElem? ht)
    rw [hc] at this
    cases this

end Bolt
