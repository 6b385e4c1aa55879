import Verif.Model.PoolThreads
import Verif.Lemmas.Pool
/-! C35 and C37 over every interleaving of threads. -/
namespace Bolt

/-- connections in the hands of pool code running in a thread -/
def PoolPC.hand : PoolPC → List Nat
  | .getSize c | .getQsize c | .dropChk c | .dropClose c | .dropDecR c | .dropDecW c _ | .closeOne c => [c]
  | .newChk (.refill c) | .newRead (.refill c) | .newWrite (.refill c) _ | .newMake (.refill c) => [c]
  | .putLoad (.refill c) n | .putPut (.refill c) n | .putDecR (.refill c) n | .putDecW (.refill c) n _
  | .putClose (.refill c) n => [c, n]
  | .putLoad .user n | .putPut .user n | .putDecR .user n | .putDecW .user n _ | .putClose .user n => [n]
  | _ => []

/-- occurrences of `c` at a thread -/
def PoolThr.cnt (t : PoolThr) (c : Nat) : Nat := t.pc.hand.count c + t.held.count c

/-- occurrences of `c` anywhere -/
def TPool.cnt (s : TPool) (c : Nat) : Nat := s.queue.count c + (s.thr.map (·.cnt c)).sum

structure TInvP (s : TPool) : Prop where
  once : ∀ c, s.cnt c ≤ 1
  old : ∀ c, s.made ≤ c → s.cnt c = 0

theorem sum_set (l : List PoolThr) (f : PoolThr → Nat) (i : Nat) (t t' : PoolThr) (h : l[i]? = some t) :
    ((l.set i t').map f).sum + f t = (l.map f).sum + f t' := by
  induction l generalizing i with
  | nil => simp at h
  | cons a l ih =>
    cases i with
    | zero => simp at h; subst h; simp; omega
    | succ i =>
      simp at h
      have := ih i h
      simp only [List.set_cons_succ, List.map_cons, List.sum_cons]; omega

theorem inv_le {s s' : TPool} (h : TInvP s) (hm : s'.made = s.made) (hc : ∀ c, s'.cnt c ≤ s.cnt c) : TInvP s' :=
  ⟨fun c => Nat.le_trans (hc c) (h.once c), fun c hge => by
    have := h.old c (by rw [← hm]; exact hge); have := hc c; omega⟩

theorem inv_new {s s' : TPool} (h : TInvP s) (hm : s'.made = s.made + 1)
    (hc : ∀ c, s'.cnt c ≤ s.cnt c + if c = s.made then 1 else 0) : TInvP s' := by
  refine ⟨fun c => ?_, fun c hge => ?_⟩
  · have h1 := hc c
    split at h1
    · next e => have := h.old c (by omega); omega
    · have := h.once c; omega
  · have h1 := hc c
    have := h.old c (by omega)
    rw [if_neg (by omega)] at h1; omega

/-- moving between a thread and the queue -/
theorem cnt_goto (s : TPool) (i : Nat) (t t' : PoolThr) (h : s.thr[i]? = some t) (c : Nat) :
    (s.goto i t').cnt c + t.cnt c = s.cnt c + t'.cnt c := by
  have := sum_set s.thr (·.cnt c) i t t' h
  simp only [TPool.cnt, TPool.goto]
  omega

theorem inv_goto {s : TPool} (h : TInvP s) {i : Nat} {t t' : PoolThr} (ht : s.thr[i]? = some t)
    (hc : ∀ c, t'.cnt c ≤ t.cnt c) : TInvP (s.goto i t') :=
  inv_le h rfl fun c => by have := cnt_goto s i t t' ht c; have := hc c; omega

theorem inv_goto' {s s1 : TPool} (h : TInvP s) {i : Nat} {t t' : PoolThr} (ht : s.thr[i]? = some t)
    (e1 : s1.thr = s.thr) (e2 : s1.made = s.made)
    (hc : ∀ c, s1.queue.count c + t'.cnt c ≤ s.queue.count c + t.cnt c) : TInvP (s1.goto i t') := by
  refine inv_le h e2 fun c => ?_
  have h1 := sum_set s1.thr (·.cnt c) i t t' (by rw [e1]; exact ht)
  have h2 := hc c
  simp only [TPool.cnt, TPool.goto] at *
  rw [e1] at h1 ⊢
  omega

theorem inv_act {cfg : PoolCfg} {s : TPool} (h : TInvP s) {i : Nat} {t : PoolThr} (ht : s.thr[i]? = some t)
    (b : Bool) : TInvP (s.act cfg i t b) := by
  obtain ⟨pc, held⟩ := t
  unfold TPool.act
  cases pc with
  | idle => exact h
  | getLoad => dsimp only; split <;> exact inv_goto h ht fun c => by simp [PoolThr.cnt, PoolPC.hand]
  | getPop =>
    dsimp only
    split
    · next c q hq =>
      refine inv_goto' h ht rfl rfl fun x => ?_
      simp [PoolThr.cnt, PoolPC.hand, hq, List.count_cons]; omega
    · split
      · split
        · exact inv_goto h ht fun c => by simp [PoolThr.cnt, PoolPC.hand]
        · exact h
      · exact inv_goto h ht fun c => by simp [PoolThr.cnt, PoolPC.hand]
  | getSize c =>
    dsimp only
    split <;> exact inv_goto h ht fun c => by simp [PoolThr.cnt, PoolPC.hand]
  | getQsize c =>
    dsimp only
    split <;> exact inv_goto h ht fun c => by simp [PoolThr.cnt, PoolPC.hand]
  | newChk k =>
    dsimp only
    split
    · exact h
    · split <;> cases k <;> exact inv_goto h ht fun c => by simp [PoolThr.cnt, PoolPC.hand]
  | newRead k => cases k <;> exact inv_goto h ht fun c => by simp [PoolThr.cnt, PoolPC.hand]
  | newWrite k r =>
    cases k <;> exact inv_goto' h ht rfl rfl fun c => by simp [PoolThr.cnt, PoolPC.hand]
  | newMake k =>
    cases k with
    | refill c =>
      refine inv_new h rfl fun x => ?_
      have := sum_set s.thr (·.cnt x) i _ { pc := PoolPC.putLoad (.refill c) s.made, held := held } ht
      simp only [TPool.cnt, TPool.goto]
      simp only [PoolThr.cnt, PoolPC.hand, List.count_cons, List.count_nil, beq_iff_eq] at this ⊢
      by_cases e : s.made = x
      · subst e; simp at this ⊢; omega
      · have : ¬ x = s.made := fun e' => e e'.symm
        simp [e, this] at *; omega
    | fresh =>
      refine inv_new h rfl fun x => ?_
      have := sum_set s.thr (·.cnt x) i _ { pc := PoolPC.idle, held := s.made :: held } ht
      simp only [TPool.cnt, TPool.goto]
      simp only [PoolThr.cnt, PoolPC.hand, List.count_cons, List.count_nil, beq_iff_eq] at this ⊢
      by_cases e : s.made = x
      · subst e; simp at this ⊢; omega
      · have : ¬ x = s.made := fun e' => e e'.symm
        simp [e, this] at *; omega
  | putLoad k n =>
    dsimp only
    split <;> cases k <;> exact inv_goto h ht fun c => by simp [PoolThr.cnt, PoolPC.hand]
  | putPut k n =>
    dsimp only
    split
    · cases k <;> exact inv_goto h ht fun c => by simp [PoolThr.cnt, PoolPC.hand]
    · cases k with
      | refill c =>
        refine inv_goto' h ht rfl rfl fun x => ?_
        simp [PoolThr.cnt, PoolPC.hand, List.count_cons]; omega
      | user =>
        refine inv_goto' h ht rfl rfl fun x => ?_
        simp [PoolThr.cnt, PoolPC.hand, List.count_cons] <;> omega
  | putDecR k n =>
    dsimp only
    split
    · exact h
    · cases k <;> exact inv_goto' h ht rfl rfl fun c => by simp [PoolThr.cnt, PoolPC.hand]
  | putDecW k n r => cases k <;> exact inv_goto' h ht rfl rfl fun c => by simp [PoolThr.cnt, PoolPC.hand]
  | putClose k n =>
    cases k with
    | refill c =>
      refine inv_goto' h ht rfl rfl fun x => ?_
      simp [PoolThr.cnt, PoolPC.hand, List.count_cons]
    | user =>
      refine inv_goto' h ht rfl rfl fun x => ?_
      simp [PoolThr.cnt, PoolPC.hand, List.count_cons]
  | dropChk c =>
    dsimp only
    split
    · exact inv_goto h ht fun c => by simp [PoolThr.cnt, PoolPC.hand]
    · exact inv_goto h ht fun x => by simp [PoolThr.cnt, PoolPC.hand, List.count_cons]; omega
  | dropClose c => exact inv_goto' h ht rfl rfl fun c => by simp [PoolThr.cnt, PoolPC.hand]
  | dropDecR c =>
    dsimp only
    split
    · exact h
    · exact inv_goto' h ht rfl rfl fun c => by simp [PoolThr.cnt, PoolPC.hand]
  | dropDecW c r =>
    refine inv_goto' h ht rfl rfl fun x => ?_
    simp [PoolThr.cnt, PoolPC.hand, List.count_cons]; omega
  | closeLoad => exact inv_goto h ht fun c => by simp [PoolThr.cnt, PoolPC.hand]
  | closeStore o =>
    cases o <;> exact inv_goto' h ht rfl rfl fun c => by simp [PoolThr.cnt, PoolPC.hand]
  | closeDrain =>
    dsimp only
    split
    · next c q hq =>
      refine inv_goto' h ht rfl rfl fun x => ?_
      simp [PoolThr.cnt, PoolPC.hand, hq, List.count_cons]; omega
    · exact inv_goto h ht fun c => by simp [PoolThr.cnt, PoolPC.hand]
  | closeOne c =>
    refine inv_goto' h ht rfl rfl fun x => ?_
    simp [PoolThr.cnt, PoolPC.hand, List.count_cons]

theorem inv_tev {cfg : PoolCfg} {s : TPool} (h : TInvP s) (ev : PoolTEv) : TInvP (s.tev cfg ev) := by
  cases ev with
  | callGet i =>
    simp only [TPool.tev]
    split
    · next t ht =>
      split
      · next e => exact inv_goto h ht fun c => by simp [PoolThr.cnt, PoolPC.hand, e]
      · exact h
    · exact h
  | callPut i c =>
    simp only [TPool.tev]
    split
    · next t ht =>
      split
      · next e =>
        refine inv_goto h ht fun x => ?_
        have hp := (List.perm_cons_erase e.2).count_eq x
        simp only [PoolThr.cnt, PoolPC.hand, e.1, hp]
        simp [List.count_cons]; omega
      · exact h
    · exact h
  | callClose i =>
    simp only [TPool.tev]
    split
    · next t ht =>
      split
      · next e => exact inv_goto h ht fun c => by simp [PoolThr.cnt, PoolPC.hand, e]
      · exact h
    · exact h
  | userClose i c =>
    simp only [TPool.tev]
    split
    · split
      · exact inv_le h rfl fun _ => Nat.le_refl _
      · exact h
    · exact h
  | step i b =>
    simp only [TPool.tev]
    split
    · next t ht => exact inv_act h ht b
    · exact h

theorem inv_tpStart {cfg : PoolCfg} {p : CPool} (hp : CPool.init cfg = .ok p) (n : Nat) : TInvP (tpStart p n) := by
  have hl := (loc_init hp).1
  have hz : ∀ c, (((List.replicate n ({} : PoolThr)).map (·.cnt c)).sum) = 0 := by
    intro c
    induction n with
    | zero => rfl
    | succ n ih => rw [List.replicate_succ, List.map_cons, List.sum_cons, ih]; rfl
  have hn : p.freeL.Nodup := by simpa using hl.nodup
  refine ⟨fun c => ?_, fun c hc => ?_⟩
  · show p.freeL.count c + _ ≤ 1
    have h1 : p.freeL.count c ≤ 1 := List.nodup_iff_count.1 hn c
    have h2 : (((tpStart p n).thr).map (·.cnt c)).sum = 0 := hz c
    omega
  · show p.freeL.count c + _ = 0
    have h1 : p.freeL.count c = 0 := List.count_eq_zero.2 fun hm =>
      absurd (hl.bound c (by simpa using hm)) (by have : p.made ≤ c := hc; exact Nat.not_lt.2 this)
    have h2 : (((tpStart p n).thr).map (·.cnt c)).sum = 0 := hz c
    omega

theorem inv_tpRun {cfg : PoolCfg} {p : CPool} (hp : CPool.init cfg = .ok p) (n : Nat) (evs : List PoolTEv) :
    TInvP (tpRun cfg p n evs) := by
  have h0 := inv_tpStart hp n
  unfold tpRun
  generalize tpStart p n = s at h0
  induction evs generalizing s with
  | nil => exact h0
  | cons e evs ih => exact ih _ (inv_tev h0 e)

/-! ### C35 -/

theorem mem_sum_le {l : List PoolThr} {f : PoolThr → Nat} {i j : Nat} {a b : PoolThr} (hi : l[i]? = some a)
    (hj : l[j]? = some b) (hne : i ≠ j) : f a + f b ≤ (l.map f).sum := by
  induction l generalizing i j with
  | nil => simp at hi
  | cons x l ih =>
    have single : ∀ {i : Nat} {a : PoolThr}, l[i]? = some a → f a ≤ (l.map f).sum := by
      intro i a h
      clear ih hi hj
      induction l generalizing i with
      | nil => simp at h
      | cons y l ih2 =>
        cases i with
        | zero => simp at h; subst h; simp
        | succ i => simp at h; have := ih2 h; simp; omega
    cases i with
    | zero =>
      cases j with
      | zero => exact absurd rfl hne
      | succ j => simp at hi hj; subst hi; have := single hj; simp; omega
    | succ i =>
      cases j with
      | zero => simp at hi hj; subst hj; have := single hi; simp; omega
      | succ j => simp at hi hj; have := ih hi hj (by omega); simp; omega

theorem mem_sum_le1 {l : List PoolThr} {f : PoolThr → Nat} {i : Nat} {a : PoolThr} (hi : l[i]? = some a) :
    f a ≤ (l.map f).sum := by
  induction l generalizing i with
  | nil => simp at hi
  | cons x l ih =>
    cases i with
    | zero => simp at hi; subst hi; simp
    | succ i => simp at hi; have := ih hi; simp; omega

/-- C35: in every state reached by any interleaving of any number of threads, a connection that a thread holds
(it was returned by `get_conn` and not put back) is not in the pool's queue, is held by no other thread and only
once by this one, and is not in the hands of pool code running in any thread (so nobody else can receive it). -/
theorem C35_exclusive (cfg : PoolCfg) (p : CPool) (hp : CPool.init cfg = .ok p) (n : Nat) (evs : List PoolTEv)
    (i : Nat) (t : PoolThr) (c : Nat) (ht : (tpRun cfg p n evs).thr[i]? = some t) (hc : c ∈ t.held) :
    c ∉ (tpRun cfg p n evs).queue ∧ t.held.Nodup ∧ c < (tpRun cfg p n evs).made ∧
    ∀ (j : Nat) (t' : PoolThr), (tpRun cfg p n evs).thr[j]? = some t' → c ∉ t'.pc.hand ∧ (c ∈ t'.held → j = i) := by
  have h := inv_tpRun hp n evs
  generalize tpRun cfg p n evs = s at *
  have h1 := h.once c
  have hcnt : 0 < t.held.count c := List.count_pos_iff.2 hc
  have hti := mem_sum_le1 (f := fun t => t.cnt c) ht
  have htc : t.cnt c = t.pc.hand.count c + t.held.count c := rfl
  have hs : s.cnt c = s.queue.count c + (s.thr.map (fun t => t.cnt c)).sum := rfl
  refine ⟨?_, ?_, ?_, ?_⟩
  · intro hq
    have : 0 < s.queue.count c := List.count_pos_iff.2 hq
    omega
  · rw [List.nodup_iff_count]
    intro x
    have h2 := h.once x
    have h3 := mem_sum_le1 (f := fun t => t.cnt x) ht
    have h4 : t.cnt x = t.pc.hand.count x + t.held.count x := rfl
    have h5 : s.cnt x = s.queue.count x + (s.thr.map (fun t => t.cnt x)).sum := rfl
    omega
  · apply Nat.lt_of_not_le
    intro hge
    have := h.old c hge
    omega
  · intro j t' hj
    by_cases hji : j = i
    · subst hji
      rw [ht] at hj; cases hj
      refine ⟨fun hm => ?_, fun _ => rfl⟩
      have : 0 < t.pc.hand.count c := List.count_pos_iff.2 hm
      omega
    · have h3 := mem_sum_le (f := fun t => t.cnt c) ht hj (fun e => hji e.symm)
      have h4 : t'.cnt c = t'.pc.hand.count c + t'.held.count c := rfl
      refine ⟨fun hm => ?_, fun hm => ?_⟩
      · have : 0 < t'.pc.hand.count c := List.count_pos_iff.2 hm
        omega
      · have : 0 < t'.held.count c := List.count_pos_iff.2 hm
        omega

/-- two threads racing for the only free connection get different ones -/
example : (tpRun { minFree := 0 } { free := some [0], num := 1, made := 1 } 2
    [.callGet 0, .callGet 1, .step 0 false, .step 1 false, .step 1 false, .step 0 false, .step 0 false, .step 0 false,
     .step 0 false, .step 0 false, .step 1 false, .step 1 false, .step 1 false]).thr = [{ held := [1] }, { held := [0] }] := by
  decide

/-! ### C36 under interleavings -/

theorem free_bound_act {cfg : PoolCfg} {s : TPool} (h : s.queue.length ≤ cfg.maxFree) {i : Nat} {t : PoolThr} (b : Bool)
    (hpos : 0 < cfg.maxFree) : (s.act cfg i t b).queue.length ≤ cfg.maxFree := by
  obtain ⟨pc, held⟩ := t
  unfold TPool.act
  cases pc with
  | getPop =>
    dsimp only; split
    · next hq => rw [hq] at h; simp [TPool.goto] at h ⊢; omega
    · split <;> (try split) <;> exact h
  | closeDrain =>
    dsimp only; split
    · next hq => rw [hq] at h; simp [TPool.goto] at h ⊢; omega
    · exact h
  | newMake k => cases k <;> exact h
  | newChk k => dsimp only; split <;> (try split) <;> exact h
  | getSize k => dsimp only; split <;> exact h
  | getQsize k => dsimp only; split <;> exact h
  | putPut k n =>
    dsimp only; split
    · exact h
    · next hf =>
      simp only [CPool.full, Bool.and_eq_true, decide_eq_true_eq, not_and] at hf
      have := hf hpos
      cases k <;> simp [TPool.afterPut, TPool.goto] <;> omega
  | putClose k n => cases k <;> exact h
  | getLoad => dsimp only; split <;> exact h
  | putLoad k n => dsimp only; split <;> exact h
  | putDecR k n => dsimp only; split <;> exact h
  | dropDecR c => dsimp only; split <;> exact h
  | dropChk c => dsimp only; split <;> exact h
  | _ => exact h

theorem free_bound_tev {cfg : PoolCfg} {s : TPool} (h : s.queue.length ≤ cfg.maxFree) (hpos : 0 < cfg.maxFree)
    (ev : PoolTEv) : (s.tev cfg ev).queue.length ≤ cfg.maxFree := by
  cases ev <;> simp only [TPool.tev] <;> split <;> (try split) <;>
    first
    | exact h
    | exact free_bound_act h _ hpos

/-- C36's bound for every interleaving: never more than `max_free_connections` (≥ 1) in the queue. -/
theorem C36_free_bound_threads_partial (cfg : PoolCfg) (hpos : 0 < cfg.maxFree) (p : CPool)
    (hp : CPool.init cfg = .ok p) (n : Nat) (evs : List PoolTEv) :
    (tpRun cfg p n evs).queue.length ≤ cfg.maxFree := by
  have h0 : (tpStart p n).queue.length ≤ cfg.maxFree := (loc_init hp).1.freeCap hpos
  unfold tpRun
  generalize tpStart p n = s at h0
  induction evs generalizing s with
  | nil => exact h0
  | cons e evs ih => exact ih _ (free_bound_tev h0 hpos e)

/-! ### C37 -/

/-- C37 at full strength: any history, any interleaving. -/
def C37_full : Prop :=
  ∀ (cfg : PoolCfg) (p : CPool) (n : Nat) (evs : List PoolTEv), CPool.init cfg = .ok p →
    (tpRun cfg p n evs).num ≤ cfg.maxConns

/-- The code violates C37: both threads pass the check before either increments. -/
theorem C37_violated : ¬ C37_full := by
  intro h
  have := h { initial := 0, maxConns := 1 } _ 2
    [.callGet 0, .callGet 1, .step 0 false, .step 1 false, .step 0 false, .step 1 false, .step 0 false,
     .step 1 false, .step 0 false, .step 0 false, .step 1 false, .step 1 false] rfl
  exact absurd this (by decide)

/-- between the check and the write of the increment -/
def PoolPC.inNew : PoolPC → Bool
  | .newRead _ | .newWrite _ _ => true
  | _ => false

/-- how many threads are there -/
def TPool.inNewCount (s : TPool) : Nat := (s.thr.map fun t => if t.pc.inNew then 1 else 0).sum

/-- No thread passes the check of `_new_conn` while another one is between its check and its increment (what
holding the lock over the increment would guarantee). -/
def NoRace (cfg : PoolCfg) (s : TPool) : List PoolTEv → Prop
  | [] => True
  | e :: evs =>
    (s.tev cfg e).inNewCount ≤ 1 ∧ NoRace cfg (s.tev cfg e) evs

instance decNoRace (cfg : PoolCfg) : (s : TPool) → (evs : List PoolTEv) → Decidable (NoRace cfg s evs)
  | _, [] => .isTrue trivial
  | s, e :: evs =>
    have := decNoRace cfg (s.tev cfg e) evs
    by unfold NoRace; infer_instance

theorem inNew_unique {s : TPool} (h : s.inNewCount ≤ 1) (i j : Nat) (t t' : PoolThr) (hi : s.thr[i]? = some t)
    (hj : s.thr[j]? = some t') (h1 : t.pc.inNew) (h2 : t'.pc.inNew) : i = j := by
  apply Classical.byContradiction
  intro hne
  have := mem_sum_le (f := fun t => if t.pc.inNew then 1 else 0) hi hj hne
  simp only [h1, h2, if_true] at this
  unfold TPool.inNewCount at h
  omega

structure CapInv (cfg : PoolCfg) (s : TPool) : Prop where
  cap : s.num ≤ cfg.maxConns
  rd : ∀ (i : Nat) (t : PoolThr) (k : NewFor), s.thr[i]? = some t → t.pc = .newRead k → s.num < cfg.maxConns
  wr : ∀ (i : Nat) (t : PoolThr) (k : NewFor) (r : Int), s.thr[i]? = some t → t.pc = .newWrite k r → r < cfg.maxConns
  dp : ∀ (i : Nat) (t : PoolThr) (k : PutFor) (n : Nat) (r : Int), s.thr[i]? = some t → t.pc = .putDecW k n r → r ≤ cfg.maxConns
  dd : ∀ (i : Nat) (t : PoolThr) (c : Nat) (r : Int), s.thr[i]? = some t → t.pc = .dropDecW c r → r ≤ cfg.maxConns

theorem getElem?_goto {s : TPool} {i j : Nat} {t' u : PoolThr} (h : (s.goto i t').thr[j]? = some u) :
    (i = j ∧ u = t') ∨ (i ≠ j ∧ s.thr[j]? = some u) := by
  simp only [TPool.goto] at h
  by_cases e : i = j
  · subst e
    left
    rw [List.getElem?_set_self'] at h
    cases hx : s.thr[i]? with
    | none => rw [hx] at h; simp at h
    | some x => rw [hx] at h; simp at h; exact ⟨rfl, h.symm⟩
  · right; rw [List.getElem?_set_ne e] at h; exact ⟨e, h⟩

/-- the thread's new program counter carries no obligations and `num` is unchanged -/
def PoolPC.plain : PoolPC → Prop
  | .newRead _ | .newWrite _ _ | .putDecW _ _ _ | .dropDecW _ _ => False
  | _ => True

theorem cap_plain {cfg : PoolCfg} {s s1 : TPool} (h : CapInv cfg s) {i : Nat} {t' : PoolThr} (hp : t'.pc.plain)
    (e1 : s1.thr = s.thr) (e2 : s1.num = s.num) : CapInv cfg (s1.goto i t') := by
  have key : ∀ (j : Nat) (u : PoolThr), (s1.goto i t').thr[j]? = some u → (u = t') ∨ s.thr[j]? = some u := by
    intro j u hu
    rcases getElem?_goto hu with ⟨_, h2⟩ | ⟨_, h2⟩
    · exact .inl h2
    · exact .inr (by rw [← e1]; exact h2)
  refine ⟨by show s1.num ≤ _; rw [e2]; exact h.cap, ?_, ?_, ?_, ?_⟩
  · intro j u k hu hk
    show s1.num < _
    rw [e2]
    rcases key j u hu with rfl | h2
    · rw [hk] at hp; exact hp.elim
    · exact h.rd j u k h2 hk
  · intro j u k r hu hk
    rcases key j u hu with rfl | h2
    · rw [hk] at hp; exact hp.elim
    · exact h.wr j u k r h2 hk
  · intro j u k m r hu hk
    rcases key j u hu with rfl | h2
    · rw [hk] at hp; exact hp.elim
    · exact h.dp j u k m r h2 hk
  · intro j u c r hu hk
    rcases key j u hu with rfl | h2
    · rw [hk] at hp; exact hp.elim
    · exact h.dd j u c r h2 hk

theorem cap_dec {cfg : PoolCfg} {s s1 : TPool} (h : CapInv cfg s) {i : Nat} {t' : PoolThr} {r : Int} (hp : t'.pc.plain)
    (hr : r ≤ cfg.maxConns) (e1 : s1.thr = s.thr) (e2 : s1.num = r - 1) : CapInv cfg (s1.goto i t') := by
  have key : ∀ (j : Nat) (u : PoolThr), (s1.goto i t').thr[j]? = some u → (u = t') ∨ s.thr[j]? = some u := by
    intro j u hu
    rcases getElem?_goto hu with ⟨_, h2⟩ | ⟨_, h2⟩
    · exact .inl h2
    · exact .inr (by rw [← e1]; exact h2)
  refine ⟨by show s1.num ≤ _; rw [e2]; omega, ?_, ?_, ?_, ?_⟩
  · intro j u k hu hk
    show s1.num < _
    rw [e2]; omega
  · intro j u k r hu hk
    rcases key j u hu with rfl | h2
    · rw [hk] at hp; exact hp.elim
    · exact h.wr j u k r h2 hk
  · intro j u k m r hu hk
    rcases key j u hu with rfl | h2
    · rw [hk] at hp; exact hp.elim
    · exact h.dp j u k m r h2 hk
  · intro j u c r hu hk
    rcases key j u hu with rfl | h2
    · rw [hk] at hp; exact hp.elim
    · exact h.dd j u c r h2 hk

theorem cap_act {cfg : PoolCfg} {s : TPool} (h : CapInv cfg s) {i : Nat} {t : PoolThr} (ht : s.thr[i]? = some t)
    (b : Bool)
    (hr : ∀ (j : Nat) (u : PoolThr), s.thr[j]? = some u → t.pc.inNew → u.pc.inNew → i = j) :
    CapInv cfg (s.act cfg i t b) := by
  obtain ⟨pc, held⟩ := t
  unfold TPool.act
  cases pc with
  | idle => exact h
  | getLoad => dsimp only; split <;> exact cap_plain h (by trivial) rfl rfl
  | getPop =>
    dsimp only; split
    · exact cap_plain h (by trivial) rfl rfl
    · split
      · split
        · exact cap_plain h (by trivial) rfl rfl
        · exact h
      · exact cap_plain h (by trivial) rfl rfl
  | getSize c =>
    dsimp only; split <;> exact cap_plain h (by trivial) rfl rfl
  | getQsize c => dsimp only; split <;> exact cap_plain h (by trivial) rfl rfl
  | newChk k =>
    dsimp only; split
    · exact h
    · split
      · exact cap_plain h (by trivial) rfl rfl
      · next hlt =>
        refine ⟨h.cap, fun _ _ _ _ _ => by show s.num < _; omega, ?_, ?_, ?_⟩
        · intro j u k r hu hk
          rcases getElem?_goto hu with ⟨_, h2⟩ | ⟨_, h2⟩
          · subst h2; cases hk
          · exact h.wr j u k r h2 hk
        · intro j u k m r hu hk
          rcases getElem?_goto hu with ⟨_, h2⟩ | ⟨_, h2⟩
          · subst h2; cases hk
          · exact h.dp j u k m r h2 hk
        · intro j u c r hu hk
          rcases getElem?_goto hu with ⟨_, h2⟩ | ⟨_, h2⟩
          · subst h2; cases hk
          · exact h.dd j u c r h2 hk
  | newRead k =>
    have hlt := h.rd i _ k ht rfl
    refine ⟨h.cap, ?_, ?_, ?_, ?_⟩
    · intro j u k hu hk
      exact hlt
    · intro j u k r hu hk
      rcases getElem?_goto hu with ⟨_, h2⟩ | ⟨_, h2⟩
      · subst h2; cases hk; exact hlt
      · exact h.wr j u k r h2 hk
    · intro j u k m r hu hk
      rcases getElem?_goto hu with ⟨_, h2⟩ | ⟨_, h2⟩
      · subst h2; cases hk
      · exact h.dp j u k m r h2 hk
    · intro j u c r hu hk
      rcases getElem?_goto hu with ⟨_, h2⟩ | ⟨_, h2⟩
      · subst h2; cases hk
      · exact h.dd j u c r h2 hk
  | newWrite k r =>
    have hlt := h.wr i _ k r ht rfl
    refine ⟨by show r + 1 ≤ _; omega, ?_, ?_, ?_, ?_⟩
    · intro j u k hu hk
      rcases getElem?_goto hu with ⟨_, h2⟩ | ⟨hne, h2⟩
      · subst h2; cases hk
      · exact absurd (hr j u h2 rfl (by rw [hk]; rfl)) hne
    · intro j u k r hu hk
      rcases getElem?_goto hu with ⟨_, h2⟩ | ⟨_, h2⟩
      · subst h2; cases hk
      · exact h.wr j u k r h2 hk
    · intro j u k m r hu hk
      rcases getElem?_goto hu with ⟨_, h2⟩ | ⟨_, h2⟩
      · subst h2; cases hk
      · exact h.dp j u k m r h2 hk
    · intro j u c r hu hk
      rcases getElem?_goto hu with ⟨_, h2⟩ | ⟨_, h2⟩
      · subst h2; cases hk
      · exact h.dd j u c r h2 hk
  | newMake k => cases k <;> exact cap_plain h (by trivial) rfl rfl
  | putLoad k n => dsimp only; split <;> exact cap_plain h (by trivial) rfl rfl
  | putPut k n =>
    dsimp only; split
    · exact cap_plain h (by trivial) rfl rfl
    · cases k <;> exact cap_plain h (by trivial) rfl rfl
  | putDecR k n =>
    dsimp only; split
    · exact h
    · refine ⟨h.cap, ?_, ?_, ?_, ?_⟩
      · intro j u k hu hk
        rcases getElem?_goto hu with ⟨_, h2⟩ | ⟨_, h2⟩
        · subst h2; cases hk
        · exact h.rd j u k h2 hk
      · intro j u k r hu hk
        rcases getElem?_goto hu with ⟨_, h2⟩ | ⟨_, h2⟩
        · subst h2; cases hk
        · exact h.wr j u k r h2 hk
      · intro j u k m r hu hk
        rcases getElem?_goto hu with ⟨_, h2⟩ | ⟨_, h2⟩
        · subst h2; cases hk; exact h.cap
        · exact h.dp j u k m r h2 hk
      · intro j u c r hu hk
        rcases getElem?_goto hu with ⟨_, h2⟩ | ⟨_, h2⟩
        · subst h2; cases hk
        · exact h.dd j u c r h2 hk
  | putDecW k n r => exact cap_dec h (by trivial) (h.dp i _ k n r ht rfl) rfl rfl
  | putClose k n => cases k <;> exact cap_plain h (by trivial) rfl rfl
  | dropChk c => dsimp only; split <;> exact cap_plain h (by trivial) rfl rfl
  | dropClose c => exact cap_plain h (by trivial) rfl rfl
  | dropDecR c =>
    dsimp only; split
    · exact h
    · refine ⟨h.cap, ?_, ?_, ?_, ?_⟩
      · intro j u k hu hk
        rcases getElem?_goto hu with ⟨_, h2⟩ | ⟨_, h2⟩
        · subst h2; cases hk
        · exact h.rd j u k h2 hk
      · intro j u k r hu hk
        rcases getElem?_goto hu with ⟨_, h2⟩ | ⟨_, h2⟩
        · subst h2; cases hk
        · exact h.wr j u k r h2 hk
      · intro j u k m r hu hk
        rcases getElem?_goto hu with ⟨_, h2⟩ | ⟨_, h2⟩
        · subst h2; cases hk
        · exact h.dp j u k m r h2 hk
      · intro j u c r hu hk
        rcases getElem?_goto hu with ⟨_, h2⟩ | ⟨_, h2⟩
        · subst h2; cases hk; exact h.cap
        · exact h.dd j u c r h2 hk
  | dropDecW c r => exact cap_dec h (by trivial) (h.dd i _ c r ht rfl) rfl rfl
  | closeLoad => exact cap_plain h (by trivial) rfl rfl
  | closeStore o => cases o <;> exact cap_plain h (by trivial) rfl rfl
  | closeDrain => dsimp only; split <;> exact cap_plain h (by trivial) rfl rfl
  | closeOne c => exact cap_plain h (by trivial) rfl rfl

theorem cap_tev {cfg : PoolCfg} {s : TPool} (h : CapInv cfg s)
    (hr : ∀ (i j : Nat) (t t' : PoolThr), s.thr[i]? = some t → s.thr[j]? = some t' → t.pc.inNew → t'.pc.inNew → i = j)
    (ev : PoolTEv) : CapInv cfg (s.tev cfg ev) := by
  cases ev with
  | callGet i =>
    simp only [TPool.tev]; split
    · split
      · exact cap_plain h (by trivial) rfl rfl
      · exact h
    · exact h
  | callPut i c =>
    simp only [TPool.tev]; split
    · split
      · exact cap_plain h (by trivial) rfl rfl
      · exact h
    · exact h
  | callClose i =>
    simp only [TPool.tev]; split
    · split
      · exact cap_plain h (by trivial) rfl rfl
      · exact h
    · exact h
  | userClose i c =>
    simp only [TPool.tev]; split
    · split
      · exact ⟨h.cap, h.rd, h.wr, h.dp, h.dd⟩
      · exact h
    · exact h
  | step i b =>
    simp only [TPool.tev]; split
    · next t ht => exact cap_act h ht b fun j u hu h1 h2 => hr i j t u ht hu h1 h2
    · exact h

/-- C37, proved part: for any number of threads and any interleaving in which the check-and-increment sections of
`_new_conn` do not overlap, the count never exceeds `max_connections`. Missing: overlapping sections, where the
code indeed exceeds it (`C37_violated`). -/
theorem C37_cap_threads_partial (cfg : PoolCfg) (p : CPool) (hp : CPool.init cfg = .ok p) (n : Nat)
    (evs : List PoolTEv) (hr : NoRace cfg (tpStart p n) evs) : (tpRun cfg p n evs).num ≤ cfg.maxConns := by
  have hrep : ∀ (i : Nat) (t : PoolThr), (tpStart p n).thr[i]? = some t → t = {} := by
    intro i t h
    have : t ∈ List.replicate n ({} : PoolThr) := List.mem_of_getElem? h
    exact (List.mem_replicate.1 this).2
  have h0 : CapInv cfg (tpStart p n) := by
    refine ⟨(loc_init hp).1.cap, ?_, ?_, ?_, ?_⟩
    · intro i t k h hk; rw [hrep i t h] at hk; cases hk
    · intro i t k r h hk; rw [hrep i t h] at hk; cases hk
    · intro i t k m r h hk; rw [hrep i t h] at hk; cases hk
    · intro i t c r h hk; rw [hrep i t h] at hk; cases hk
  have h1 : ∀ (i j : Nat) (t t' : PoolThr), (tpStart p n).thr[i]? = some t → (tpStart p n).thr[j]? = some t' →
      t.pc.inNew → t'.pc.inNew → i = j := by
    intro i j t t' h _ h2 _; rw [hrep i t h] at h2; cases h2
  suffices CapInv cfg (tpRun cfg p n evs) from this.cap
  unfold tpRun
  generalize tpStart p n = s at *
  clear hrep
  induction evs generalizing s with
  | nil => exact h0
  | cons e evs ih => exact ih _ hr.2 (cap_tev h0 h1 e) (inNew_unique hr.1)

/-- a schedule with two threads that satisfies the hypothesis and creates two connections -/
example : NoRace { initial := 0, maxConns := 2 } (tpStart {} 2)
    [.callGet 0, .callGet 1, .step 0 false, .step 1 false, .step 0 false, .step 1 false, .step 0 false, .step 0 false,
     .step 0 false, .step 1 false, .step 1 false, .step 1 false] := by
  decide

end Bolt
