import Verif.Props.PoolThreads
/-!
# C93, C94, and how far C37 fails

C93: threads using a pool never deadlock and every call ends. C94: the sequential pool model is the thread model with
one thread.
-/
namespace Bolt

/-! ## C93 -/

/-- the pool code running at this point holds `self._lock` -/
def PoolPC.locked : PoolPC → Bool
  | .putDecW _ _ _ | .dropDecW _ _ => true
  | _ => false

/-- the pool code needs `self._lock` for its next action -/
def PoolPC.wantsLock : PoolPC → Bool
  | .newChk _ | .putDecR _ _ | .dropDecR _ => true
  | _ => false

/-- the lock is held by exactly the thread that is inside its critical section -/
structure LockInv (s : TPool) : Prop where
  held : ∀ (i : Nat) (t : PoolThr), s.thr[i]? = some t → t.pc.locked = true → s.lock = some i
  inside : ∀ i, s.lock = some i → ∃ t : PoolThr, s.thr[i]? = some t ∧ t.pc.locked = true

theorem lock_goto {s s1 : TPool} (h : LockInv s) {i : Nat} {t t' : PoolThr} (ht : s.thr[i]? = some t)
    (hp : t.pc.locked = false) (hp' : t'.pc.locked = false) (e1 : s1.thr = s.thr) (e2 : s1.lock = s.lock) :
    LockInv (s1.goto i t') := by
  refine ⟨fun j u hu hl => ?_, fun j hj => ?_⟩
  · rcases getElem?_goto hu with ⟨_, rfl⟩ | ⟨_, h2⟩
    · rw [hp'] at hl; cases hl
    · show s1.lock = _
      rw [e2]; exact h.held j u (by rw [← e1]; exact h2) hl
  · have hj : s.lock = some j := by rw [← e2]; exact hj
    obtain ⟨u, h1, h2⟩ := h.inside j hj
    have hne : i ≠ j := by
      rintro rfl
      rw [ht] at h1; cases h1
      rw [hp] at h2; cases h2
    exact ⟨u, by show (s1.thr.set i t')[j]? = _; rw [List.getElem?_set_ne hne, e1]; exact h1, h2⟩

theorem lock_acquire {s s1 : TPool} (h : LockInv s) {i : Nat} {t t' : PoolThr} (ht : s.thr[i]? = some t)
    (hn : s.lock = none) (hp' : t'.pc.locked = true) (e1 : s1.thr = s.thr) (e2 : s1.lock = some i) :
    LockInv (s1.goto i t') := by
  have hlt : i < s.thr.length := by
    rw [List.getElem?_eq_some_iff] at ht; exact ht.1
  refine ⟨fun j u hu hl => ?_, fun j hj => ?_⟩
  · show s1.lock = _
    rcases getElem?_goto hu with ⟨rfl, _⟩ | ⟨_, h2⟩
    · exact e2
    · have := h.held j u (by rw [← e1]; exact h2) hl
      rw [hn] at this; cases this
  · have hj : s1.lock = some j := hj
    rw [e2] at hj
    cases hj
    exact ⟨t', by show (s1.thr.set i t')[i]? = _; rw [List.getElem?_set_self (by rw [e1]; exact hlt)], hp'⟩

theorem lock_release {s s1 : TPool} (h : LockInv s) {i : Nat} {t t' : PoolThr} (ht : s.thr[i]? = some t)
    (hp : t.pc.locked = true) (hp' : t'.pc.locked = false) (e1 : s1.thr = s.thr) (e2 : s1.lock = none) :
    LockInv (s1.goto i t') := by
  have hs := h.held i t ht hp
  refine ⟨fun j u hu hl => ?_, fun j hj => ?_⟩
  · rcases getElem?_goto hu with ⟨_, rfl⟩ | ⟨hne, h2⟩
    · rw [hp'] at hl; cases hl
    · have := h.held j u (by rw [← e1]; exact h2) hl
      rw [hs] at this
      exact absurd (Option.some.inj this) hne
  · have hj : s1.lock = some j := hj
    rw [e2] at hj; cases hj

theorem lock_act {cfg : PoolCfg} {s : TPool} (h : LockInv s) {i : Nat} {t : PoolThr} (ht : s.thr[i]? = some t)
    (b : Bool) : LockInv (s.act cfg i t b) := by
  obtain ⟨pc, held⟩ := t
  unfold TPool.act
  cases pc with
  | idle => exact h
  | getLoad => dsimp only; split <;> exact lock_goto h ht rfl rfl rfl rfl
  | getPop =>
    dsimp only; split
    · exact lock_goto h ht rfl rfl rfl rfl
    · split
      · split
        · exact lock_goto h ht rfl rfl rfl rfl
        · exact h
      · exact lock_goto h ht rfl rfl rfl rfl
  | getSize c => dsimp only; split <;> exact lock_goto h ht rfl rfl rfl rfl
  | getQsize c => dsimp only; split <;> exact lock_goto h ht rfl rfl rfl rfl
  | newChk k =>
    dsimp only; split
    · exact h
    · split <;> exact lock_goto h ht rfl rfl rfl rfl
  | newRead k => exact lock_goto h ht rfl rfl rfl rfl
  | newWrite k r => exact lock_goto h ht rfl rfl rfl rfl
  | newMake k => cases k <;> exact lock_goto h ht rfl rfl rfl rfl
  | putLoad k n => dsimp only; split <;> exact lock_goto h ht rfl rfl rfl rfl
  | putPut k n =>
    dsimp only; split
    · exact lock_goto h ht rfl rfl rfl rfl
    · cases k <;> exact lock_goto h ht rfl rfl rfl rfl
  | putDecR k n =>
    dsimp only; split
    · exact h
    · next hn => exact lock_acquire h ht (by simpa using hn) rfl rfl rfl
  | putDecW k n r => exact lock_release h ht rfl rfl rfl rfl
  | putClose k n => cases k <;> exact lock_goto h ht rfl rfl rfl rfl
  | dropChk c => dsimp only; split <;> exact lock_goto h ht rfl rfl rfl rfl
  | dropClose c => exact lock_goto h ht rfl rfl rfl rfl
  | dropDecR c =>
    dsimp only; split
    · exact h
    · next hn => exact lock_acquire h ht (by simpa using hn) rfl rfl rfl
  | dropDecW c r => exact lock_release h ht rfl rfl rfl rfl
  | closeLoad => exact lock_goto h ht rfl rfl rfl rfl
  | closeStore o => cases o <;> exact lock_goto h ht rfl rfl rfl rfl
  | closeDrain => dsimp only; split <;> exact lock_goto h ht rfl rfl rfl rfl
  | closeOne c => exact lock_goto h ht rfl rfl rfl rfl

theorem lock_tev {cfg : PoolCfg} {s : TPool} (h : LockInv s) (ev : PoolTEv) : LockInv (s.tev cfg ev) := by
  cases ev with
  | callGet i =>
    simp only [TPool.tev]; split
    · next t ht => split
                   · next e => exact lock_goto h ht (by rw [e]; rfl) rfl rfl rfl
                   · exact h
    · exact h
  | callPut i c =>
    simp only [TPool.tev]; split
    · next t ht => split
                   · next e => exact lock_goto h ht (by rw [e.1]; rfl) rfl rfl rfl
                   · exact h
    · exact h
  | callClose i =>
    simp only [TPool.tev]; split
    · next t ht => split
                   · next e => exact lock_goto h ht (by rw [e]; rfl) rfl rfl rfl
                   · exact h
    · exact h
  | userClose i c =>
    simp only [TPool.tev]; split
    · split
      · exact ⟨h.held, h.inside⟩
      · exact h
    · exact h
  | step i b =>
    simp only [TPool.tev]; split
    · next t ht => exact lock_act h ht b
    · exact h

theorem lock_run {cfg : PoolCfg} {s : TPool} (h : LockInv s) (evs : List PoolTEv) :
    LockInv (evs.foldl (TPool.tev cfg) s) := by
  induction evs generalizing s with
  | nil => exact h
  | cons e evs ih => exact ih (lock_tev h e)

theorem lock_start (p : CPool) (n : Nat) : LockInv (tpStart p n) := by
  refine ⟨fun i t h hl => ?_, fun i h => by cases h⟩
  have : t ∈ List.replicate n ({} : PoolThr) := List.mem_of_getElem? h
  rw [(List.mem_replicate.1 this).2] at hl
  cases hl

/-- how many actions of its own a `get_conn` or `put_conn` needs at most from here on -/
def PoolPC.rank : PoolPC → Nat
  | .idle => 0
  | .putClose .user _ => 1
  | .putDecW .user _ _ => 2
  | .putDecR .user _ => 3
  | .putPut .user _ => 4
  | .putLoad .user _ => 5
  | .newMake .fresh => 1
  | .newWrite .fresh _ => 2
  | .newRead .fresh => 3
  | .newChk .fresh => 4
  | .dropDecW _ _ => 1
  | .dropDecR _ => 2
  | .dropClose _ => 3
  | .dropChk _ => 4
  | .putClose (.refill _) _ => 5
  | .putDecW (.refill _) _ _ => 6
  | .putDecR (.refill _) _ => 7
  | .putPut (.refill _) _ => 8
  | .putLoad (.refill _) _ => 9
  | .newMake (.refill _) => 10
  | .newWrite (.refill _) _ => 11
  | .newRead (.refill _) => 12
  | .newChk (.refill _) => 13
  | .getQsize _ => 14
  | .getSize _ => 15
  | .getPop => 16
  | .getLoad => 17
  | .closeDrain => 1
  | .closeOne _ => 1
  | .closeStore _ => 2
  | .closeLoad => 3

/-- inside `close` -/
def PoolPC.closing : PoolPC → Bool
  | .closeLoad | .closeStore _ | .closeDrain | .closeOne _ => true
  | _ => false

theorem thr_goto {s : TPool} {i : Nat} {t t' : PoolThr} (ht : s.thr[i]? = some t) :
    (s.goto i t').thr[i]? = some t' := by
  rw [List.getElem?_eq_some_iff] at ht
  show (s.thr.set i t')[i]? = _
  rw [List.getElem?_set_self ht.1]

theorem thr_goto_ne {s : TPool} {i j : Nat} {t' : PoolThr} (h : i ≠ j) : (s.goto i t').thr[j]? = s.thr[j]? := by
  show (s.thr.set i t')[j]? = _
  rw [List.getElem?_set_ne h]

/-- a thread is touched only by its own actions -/
theorem act_other {cfg : PoolCfg} {s : TPool} {i j : Nat} {t : PoolThr} (b : Bool) (h : i ≠ j) :
    (s.act cfg i t b).thr[j]? = s.thr[j]? := by
  have g : ∀ (s1 : TPool) (t' : PoolThr), s1.thr = s.thr → (s1.goto i t').thr[j]? = s.thr[j]? := by
    intro s1 t' e; rw [thr_goto_ne h, e]
  obtain ⟨pc, held⟩ := t
  unfold TPool.act
  cases pc with
  | newMake k => cases k <;> exact g _ _ rfl
  | putClose k n => cases k <;> exact g _ _ rfl
  | putPut k n =>
    dsimp only
    split
    · exact g _ _ rfl
    · cases k <;> exact g _ _ rfl
  | _ => dsimp only; repeat (first | split | exact g _ _ rfl | rfl)

/-- what a thread does next: outside `close` it moves on to a point of smaller rank, unless it waits for the lock or
for a connection -/
theorem act_rank {cfg : PoolCfg} {s : TPool} {i : Nat} {t : PoolThr} (ht : s.thr[i]? = some t) (b : Bool)
    (hc : t.pc.closing = false) (hi : t.pc ≠ .idle) :
    (s.act cfg i t b = s ∧ (t.pc.wantsLock = true ∧ s.lock.isSome ∨ t.pc = .getPop ∧ s.queue = [] ∧ cfg.block ∧ b = false))
    ∨ ∃ t', (s.act cfg i t b).thr[i]? = some t' ∧ t'.pc.rank < t.pc.rank ∧ t'.pc.closing = false := by
  have g : ∀ (s1 : TPool) (t' : PoolThr), s1.thr = s.thr → t'.pc.rank < t.pc.rank → t'.pc.closing = false →
      ∃ t'', (s1.goto i t').thr[i]? = some t'' ∧ t''.pc.rank < t.pc.rank ∧ t''.pc.closing = false := by
    intro s1 t' e h1 h2
    exact ⟨t', thr_goto (t := t) (by rw [e]; exact ht), h1, h2⟩
  obtain ⟨pc, held⟩ := t
  unfold TPool.act
  cases pc with
  | idle => exact absurd rfl hi
  | getLoad => dsimp only; split <;> exact .inr (g _ _ rfl (by simp [PoolPC.rank]) rfl)
  | getPop =>
    dsimp only; split
    · exact .inr (g _ _ rfl (by simp [PoolPC.rank]) rfl)
    · next hq =>
      split
      · next hb =>
        split
        · exact .inr (g _ _ rfl (by simp [PoolPC.rank]) rfl)
        · next hf => exact .inl ⟨rfl, .inr ⟨rfl, hq, hb, by simpa using hf⟩⟩
      · exact .inr (g _ _ rfl (by simp [PoolPC.rank]) rfl)
  | getSize c => dsimp only; split <;> exact .inr (g _ _ rfl (by simp [PoolPC.rank]) rfl)
  | getQsize c => dsimp only; split <;> exact .inr (g _ _ rfl (by simp [PoolPC.rank]) rfl)
  | newChk k =>
    dsimp only; split
    · next hl => exact .inl ⟨rfl, .inl ⟨rfl, hl⟩⟩
    · split <;> cases k <;> exact .inr (g _ _ rfl (by simp [PoolPC.rank]) rfl)
  | newRead k => cases k <;> exact .inr (g _ _ rfl (by simp [PoolPC.rank]) rfl)
  | newWrite k r => cases k <;> exact .inr (g _ _ rfl (by simp [PoolPC.rank]) rfl)
  | newMake k => cases k <;> exact .inr (g _ _ rfl (by simp [PoolPC.rank]) rfl)
  | putLoad k n => dsimp only; split <;> cases k <;> exact .inr (g _ _ rfl (by simp [PoolPC.rank]) rfl)
  | putPut k n =>
    dsimp only; split <;> cases k <;> exact .inr (g _ _ rfl (by simp [PoolPC.rank]) rfl)
  | putDecR k n =>
    dsimp only; split
    · next hl => exact .inl ⟨rfl, .inl ⟨rfl, hl⟩⟩
    · cases k <;> exact .inr (g _ _ rfl (by simp [PoolPC.rank]) rfl)
  | putDecW k n r => cases k <;> exact .inr (g _ _ rfl (by simp [PoolPC.rank]) rfl)
  | putClose k n => cases k <;> exact .inr (g _ _ rfl (by simp [PoolPC.rank]) rfl)
  | dropChk c => dsimp only; split <;> exact .inr (g _ _ rfl (by simp [PoolPC.rank]) rfl)
  | dropClose c => exact .inr (g _ _ rfl (by simp [PoolPC.rank]) rfl)
  | dropDecR c =>
    dsimp only; split
    · next hl => exact .inl ⟨rfl, .inl ⟨rfl, hl⟩⟩
    · exact .inr (g _ _ rfl (by simp [PoolPC.rank]) rfl)
  | dropDecW c r => exact .inr (g _ _ rfl (by simp [PoolPC.rank]) rfl)
  | closeLoad => cases hc
  | closeStore o => cases hc
  | closeDrain => cases hc
  | closeOne c => cases hc

/-- `close` moves on to its loop; each round of the loop takes a connection out of the queue or ends the call -/
theorem act_close {cfg : PoolCfg} {s : TPool} {i : Nat} {t : PoolThr} (ht : s.thr[i]? = some t) (b : Bool)
    (hc : t.pc.closing = true) : ∃ t', (s.act cfg i t b).thr[i]? = some t' ∧
      (t'.pc.rank < t.pc.rank ∨ (t.pc = .closeDrain ∧ (s.act cfg i t b).queue.length < s.queue.length) ∨
        (∃ c, t.pc = .closeOne c) ∧ t'.pc = .closeDrain) := by
  obtain ⟨pc, held⟩ := t
  unfold TPool.act
  cases pc with
  | closeLoad => exact ⟨_, thr_goto ht, .inl (by simp [PoolPC.rank])⟩
  | closeStore o =>
    refine ⟨_, thr_goto (s := { s with isOpen := false }) ht, .inl ?_⟩
    cases o <;> simp [PoolPC.rank]
  | closeDrain =>
    dsimp only; split
    · next c q hq =>
      refine ⟨_, thr_goto (s := { s with queue := q }) ht, .inr (.inl ⟨rfl, ?_⟩)⟩
      simp [TPool.goto, hq]
    · exact ⟨_, thr_goto ht, .inl (by simp [PoolPC.rank])⟩
  | closeOne c => exact ⟨_, thr_goto (s := { s with closed := c :: s.closed }) ht, .inr (.inr ⟨⟨c, rfl⟩, rfl⟩)⟩
  | _ => cases hc

/-- C93 (no deadlock): in every state that any number of threads can reach, a thread in the middle of a call can take
its next step, except in two cases. Either it waits for the pool's lock: then the lock is held by another thread that
can go on and whose next step releases it. Or the pool is blocking, it waits in `get` for a connection and there is
none: then it ends when the timeout expires (`b = true`). -/
theorem C93_no_deadlock (cfg : PoolCfg) (p : CPool) (n : Nat) (evs : List PoolTEv) (i : Nat) (t : PoolThr)
    (ht : (tpRun cfg p n evs).thr[i]? = some t) (hi : t.pc ≠ .idle) (b : Bool) :
    let s := tpRun cfg p n evs
    (∃ t', (s.act cfg i t b).thr[i]? = some t' ∧ t'.pc ≠ t.pc) ∨
    (t.pc.wantsLock = true ∧ ∃ (j : Nat) (u : PoolThr), j ≠ i ∧ s.lock = some j ∧ s.thr[j]? = some u ∧
      ∀ b', (s.act cfg j u b').lock = none) ∨
    (t.pc = .getPop ∧ s.queue = [] ∧ cfg.block = true ∧ b = false ∧
      ∃ t', (s.act cfg i t true).thr[i]? = some t' ∧ t'.pc = .idle) := by
  have h : LockInv (tpRun cfg p n evs) := lock_run (lock_start p n) evs
  generalize tpRun cfg p n evs = s at *
  intro s'
  cases hc : t.pc.closing with
  | true =>
    obtain ⟨t', h1, h2⟩ := act_close (cfg := cfg) ht b hc
    refine .inl ⟨t', h1, ?_⟩
    intro e
    obtain ⟨pc, held⟩ := t
    simp only at e
    subst e
    rcases h2 with h2 | ⟨h2, h3⟩ | ⟨⟨c, h2⟩, h3⟩
    · exact Nat.lt_irrefl _ h2
    · unfold TPool.act at h1 h3
      rw [h2] at h1 h3
      dsimp only at h1 h3
      split at h1
      · next c q hq =>
        rw [thr_goto (s := { s with queue := q }) ht] at h1
        have := congrArg (fun o => (Option.getD o {}).pc) h1
        simp only [Option.getD_some] at this
        rw [h2] at this
        cases this
      · next hq =>
        rw [hq] at h3
        simp at h3
    · rw [h2] at h3; cases h3
  | false =>
    rcases act_rank (cfg := cfg) ht b hc hi with ⟨h1, ⟨h2, h3⟩ | ⟨h2, h3, h4, h5⟩⟩ | ⟨t', h1, h2, -⟩
    · right; left
      refine ⟨h2, ?_⟩
      cases hl : s.lock with
      | none => rw [hl] at h3; cases h3
      | some j =>
        obtain ⟨u, hu1, hu2⟩ := h.inside j hl
        have hne : j ≠ i := by
          rintro rfl
          rw [ht] at hu1; cases hu1
          cases hp : t.pc <;> rw [hp] at h2 hu2 <;> simp [PoolPC.wantsLock, PoolPC.locked] at h2 hu2
        refine ⟨j, u, hne, rfl, hu1, fun b' => ?_⟩
        obtain ⟨pc, held⟩ := u
        cases pc <;> simp only [PoolPC.locked] at hu2 <;> first | rfl | cases hu2
    · right; right
      refine ⟨h2, h3, h4, h5, ?_⟩
      obtain ⟨pc, held⟩ := t
      simp only at h2
      subst h2
      refine ⟨{ pc := .idle, held := held }, ?_, rfl⟩
      show (TPool.act cfg s i _ true).thr[i]? = _
      unfold TPool.act
      simp only [h3, h4, if_true]
      exact thr_goto ht
    · exact .inl ⟨t', h1, fun e => by rw [e] at h2; exact Nat.lt_irrefl _ h2⟩

/-- the effective actions of thread `i` in a run: those that change the thread -/
def effective (cfg : PoolCfg) (i : Nat) : TPool → List PoolTEv → Nat
  | _, [] => 0
  | s, e :: evs => (if (s.tev cfg e).thr[i]? = s.thr[i]? then 0 else 1) + effective cfg i (s.tev cfg e) evs

/-- no new call is made by thread `i` -/
def NoCall (i : Nat) (e : PoolTEv) : Prop := ∀ c, e ≠ .callGet i ∧ e ≠ .callPut i c ∧ e ≠ .callClose i

theorem tev_other {cfg : PoolCfg} {s : TPool} {i : Nat} {e : PoolTEv} (he : NoCall i e)
    (hs : ∀ b, e ≠ .step i b) : (s.tev cfg e).thr[i]? = s.thr[i]? := by
  cases e with
  | callGet j =>
    have : j ≠ i := fun e => (he 0).1 (by rw [e])
    simp only [TPool.tev]; repeat (first | split | exact thr_goto_ne this | rfl)
  | callPut j c =>
    have : j ≠ i := fun e => (he c).2.1 (by rw [e])
    simp only [TPool.tev]; repeat (first | split | exact thr_goto_ne this | rfl)
  | callClose j =>
    have : j ≠ i := fun e => (he 0).2.2 (by rw [e])
    simp only [TPool.tev]; repeat (first | split | exact thr_goto_ne this | rfl)
  | userClose j c => simp only [TPool.tev]; repeat (first | split | rfl)
  | step j b =>
    have : j ≠ i := fun e => hs b (by rw [e])
    simp only [TPool.tev]
    split
    · exact act_other b this
    · rfl

theorem rank_le (pc : PoolPC) : pc.rank ≤ 17 := by
  cases pc with
  | newChk k => cases k <;> simp [PoolPC.rank]
  | newRead k => cases k <;> simp [PoolPC.rank]
  | newWrite k r => cases k <;> simp [PoolPC.rank]
  | newMake k => cases k <;> simp [PoolPC.rank]
  | putLoad k n => cases k <;> simp [PoolPC.rank]
  | putPut k n => cases k <;> simp [PoolPC.rank]
  | putDecR k n => cases k <;> simp [PoolPC.rank]
  | putDecW k n r => cases k <;> simp [PoolPC.rank]
  | putClose k n => cases k <;> simp [PoolPC.rank]
  | _ => simp [PoolPC.rank]

/-- C93 (calls end): from any state on, however the threads are scheduled, a `get_conn` or `put_conn` takes at most 17
steps of its own; the rest of its time it waits as described in `C93_no_deadlock`. There is no loop in which it could
be overtaken for ever. -/
theorem C93_calls_end (cfg : PoolCfg) (s : TPool) (i : Nat) (t : PoolThr) (ht : s.thr[i]? = some t)
    (hc : t.pc.closing = false) (evs : List PoolTEv) (hn : ∀ e ∈ evs, NoCall i e) :
    effective cfg i s evs ≤ 17 := by
  suffices h : effective cfg i s evs ≤ t.pc.rank from Nat.le_trans h (rank_le _)
  induction evs generalizing s t with
  | nil => exact Nat.zero_le _
  | cons e evs ih =>
    have hn' : ∀ x ∈ evs, NoCall i x := fun x hx => hn x (List.mem_cons_of_mem _ hx)
    unfold effective
    by_cases hsame : (s.tev cfg e).thr[i]? = s.thr[i]?
    · rw [if_pos hsame, Nat.zero_add]
      exact ih (s.tev cfg e) t (by rw [hsame]; exact ht) hc hn'
    · rw [if_neg hsame]
      by_cases hs : ∃ b, e = .step i b
      · obtain ⟨b, rfl⟩ := hs
        have hact : s.tev cfg (.step i b) = s.act cfg i t b := by simp only [TPool.tev, ht]
        by_cases hi : t.pc = .idle
        · exfalso
          apply hsame
          rw [hact]
          unfold TPool.act
          rw [hi]
        · rcases act_rank (cfg := cfg) ht b hc hi with ⟨h1, -⟩ | ⟨t', h1, h2, h3⟩
          · exact absurd (by rw [hact, h1]) hsame
          · have := ih (s.tev cfg (.step i b)) t' (by rw [hact]; exact h1) h3 hn'
            omega
      · exact absurd (tev_other (hn e (by simp)) fun b hb => hs ⟨b, hb⟩) hsame

/-- A thread waits for the lock while another one is inside: both pools' counters are being decremented. -/
example : ∃ t : PoolThr, (tpRun { initial := 1, maxFree := 1, minFree := 0 } { free := some [0], num := 1, made := 1 } 2
      [.callGet 0, .step 0 false, .step 0 false, .step 0 false, .step 0 false, .step 0 true, .step 0 true,
       .callGet 1, .step 1 false, .step 1 false, .step 0 false]).thr[1]? = some t ∧ t.pc = .newChk .fresh ∧
    (tpRun { initial := 1, maxFree := 1, minFree := 0 } { free := some [0], num := 1, made := 1 } 2
      [.callGet 0, .step 0 false, .step 0 false, .step 0 false, .step 0 false, .step 0 true, .step 0 true,
       .callGet 1, .step 1 false, .step 1 false, .step 0 false]).lock = some 0 := by
  exact ⟨⟨.newChk .fresh, []⟩, by decide⟩

/-! ## C94 -/

/-- `s'` can be reached from `s` -/
def Reach (cfg : PoolCfg) (s s' : TPool) : Prop := ∃ evs : List PoolTEv, evs.foldl (TPool.tev cfg) s = s'

theorem Reach.trans {cfg : PoolCfg} {a b c : TPool} (h1 : Reach cfg a b) (h2 : Reach cfg b c) : Reach cfg a c := by
  obtain ⟨e1, rfl⟩ := h1
  obtain ⟨e2, rfl⟩ := h2
  exact ⟨e1 ++ e2, by rw [List.foldl_append]⟩

theorem Reach.one {cfg : PoolCfg} (s : TPool) (e : PoolTEv) : Reach cfg s (s.tev cfg e) := ⟨[e], rfl⟩

/-- the thread system `s` with the single thread `t` is in the state of the sequential pool `p` -/
structure Rep (p : CPool) (s : TPool) (t : PoolThr) : Prop where
  thr : s.thr = [t]
  lock : s.lock = none
  free : p.free = if s.isOpen then some s.queue else none
  num : s.num = p.num
  made : s.made = p.made
  closed : ∀ c, c ∈ s.closed ↔ c ∈ p.closed

theorem Rep.tev {cfg : PoolCfg} {p : CPool} {s : TPool} {t : PoolThr} (h : Rep p s t) (b : Bool) :
    s.tev cfg (.step 0 b) = s.act cfg 0 t b := by
  simp only [TPool.tev, h.thr, List.getElem?_cons_zero]

/-- one action of the thread that only moves it -/
theorem Rep.goto {p : CPool} {s : TPool} {t : PoolThr} (h : Rep p s t) (t' : PoolThr) : Rep p (s.goto 0 t') t' :=
  ⟨by simp [TPool.goto, h.thr], h.lock, h.free, h.num, h.made, h.closed⟩

theorem Rep.close {p : CPool} {s : TPool} {t : PoolThr} (h : Rep p s t) (n : Nat) (t' : PoolThr) :
    Rep (p.closeConn n) ({ s with closed := n :: s.closed }.goto 0 t') t' :=
  ⟨by simp [TPool.goto, h.thr], h.lock, h.free, h.num, h.made, fun c => by
    simp only [TPool.goto, CPool.closeConn, List.mem_cons, h.closed c]⟩

/-- where `put_conn` returns to -/
def PutFor.next (held : List Nat) : PutFor → PoolThr
  | .refill c => ⟨.dropChk c, held⟩
  | .user => ⟨.idle, held⟩

theorem rep_put {cfg : PoolCfg} {p : CPool} {s : TPool} {k : PutFor} {n : Nat} {held : List Nat}
    (h : Rep p s ⟨.putLoad k n, held⟩) :
    ∃ s', Reach cfg s s' ∧ Rep (p.putConn cfg n) s' (k.next held) := by
  have close : ∀ {p : CPool} {s : TPool}, Rep p s ⟨.putClose k n, held⟩ →
      ∃ s', Reach cfg s s' ∧ Rep (p.closeConn n) s' (k.next held) := by
    intro p s h
    refine ⟨_, .one s (.step 0 false), ?_⟩
    rw [h.tev]
    cases k <;> exact h.close n _
  cases ho : s.isOpen with
  | false =>
    have hf := h.free
    rw [ho] at hf
    simp only [Bool.false_eq_true, if_false] at hf
    have h1 : Rep p (s.tev cfg (.step 0 false)) ⟨.putClose k n, held⟩ := by
      rw [h.tev]
      simp only [TPool.act, ho, Bool.false_eq_true, if_false]
      exact h.goto _
    obtain ⟨s', r, h2⟩ := close h1
    refine ⟨s', (Reach.one _ _).trans r, ?_⟩
    simp only [CPool.putConn, hf]
    exact h2
  | true =>
    have hf := h.free
    rw [ho] at hf
    simp only [if_true] at hf
    have h1 : Rep p (s.goto 0 ⟨.putPut k n, held⟩) ⟨.putPut k n, held⟩ := h.goto _
    have r1 : Reach cfg s (s.goto 0 ⟨.putPut k n, held⟩) := by
      have := Reach.one (cfg := cfg) s (.step 0 false)
      rw [h.tev] at this
      simpa only [TPool.act, ho, if_true] using this
    generalize hs1 : s.goto 0 ⟨.putPut k n, held⟩ = s1 at h1 r1
    have hq1 : s1.queue = s.queue := by rw [← hs1]; rfl
    have ho1 : s1.isOpen = true := by rw [← hs1]; exact ho
    have r2 := Reach.one (cfg := cfg) s1 (.step 0 false)
    rw [h1.tev] at r2
    simp only [TPool.act, hq1] at r2
    simp only [CPool.putConn, hf]
    by_cases hfull : CPool.full cfg s.queue = true
    · rw [if_pos hfull] at r2 ⊢
      -- decrement under the lock, then close
      have h3 : Rep p (s1.goto 0 ⟨.putDecR k n, held⟩) ⟨.putDecR k n, held⟩ := h1.goto _
      generalize s1.goto 0 ⟨.putDecR k n, held⟩ = s2 at h3 r2
      have r3 := Reach.one (cfg := cfg) s2 (.step 0 false)
      rw [h3.tev] at r3
      simp only [TPool.act, h3.lock, Option.isSome_none, Bool.false_eq_true, if_false] at r3
      have ht4 : ({ s2 with lock := some 0 }.goto 0 ⟨.putDecW k n s2.num, held⟩).thr =
          [⟨.putDecW k n s2.num, held⟩] := by simp [TPool.goto, h3.thr]
      have r4 := Reach.one (cfg := cfg) ({ s2 with lock := some 0 }.goto 0 ⟨.putDecW k n s2.num, held⟩) (.step 0 false)
      rw [TPool.tev, ht4] at r4
      simp only [List.getElem?_cons_zero, TPool.act] at r4
      have h4 : Rep { p with num := p.num - 1 }
          (TPool.goto { ({ s2 with lock := some 0 }.goto 0 ⟨.putDecW k n s2.num, held⟩) with
            num := s2.num - 1, lock := none } 0 ⟨.putClose k n, held⟩) ⟨.putClose k n, held⟩ :=
        ⟨by simp [TPool.goto, h3.thr], rfl, h3.free, by simp only [TPool.goto, h3.num], h3.made, h3.closed⟩
      obtain ⟨s', r5, h5⟩ := close h4
      rw [hf] at h5
      exact ⟨s', r1.trans (r2.trans (r3.trans (r4.trans r5))), h5⟩
    · rw [if_neg hfull] at r2 ⊢
      refine ⟨_, r1.trans r2, ?_⟩
      cases k <;>
      exact ⟨by simp [TPool.afterPut, TPool.goto, h1.thr, PutFor.next], h1.lock, by
        simp [TPool.afterPut, TPool.goto, ho1], h1.num, h1.made, h1.closed⟩

/-- where `_new_conn` returns to -/
def NewFor.next (held : List Nat) (n : Nat) : NewFor → PoolThr
  | .refill c => ⟨.putLoad (.refill c) n, held⟩
  | .fresh => ⟨.idle, n :: held⟩

theorem rep_new {cfg : PoolCfg} {p : CPool} {s : TPool} {k : NewFor} {held : List Nat}
    (h : Rep p s ⟨.newChk k, held⟩) :
    ∃ s', Reach cfg s s' ∧
      match p.newConn cfg with
      | (p', .ok n) => Rep p' s' (k.next held n)
      | (p', .error _) => Rep p' s' ⟨.idle, held⟩ := by
  have r1 := Reach.one (cfg := cfg) s (.step 0 false)
  rw [h.tev] at r1
  simp only [TPool.act, h.lock, Option.isSome_none, Bool.false_eq_true, if_false, h.num] at r1
  unfold CPool.newConn
  by_cases hc : p.num ≥ cfg.maxConns
  · rw [if_pos hc] at r1
    refine ⟨_, r1, ?_⟩
    simp only [if_pos hc]
    exact h.goto _
  · rw [if_neg hc] at r1
    have h1 : Rep p (s.goto 0 ⟨.newRead k, held⟩) ⟨.newRead k, held⟩ := h.goto _
    generalize s.goto 0 ⟨.newRead k, held⟩ = s1 at h1 r1
    have r2 := Reach.one (cfg := cfg) s1 (.step 0 false)
    rw [h1.tev] at r2
    simp only [TPool.act] at r2
    have h2 : Rep p (s1.goto 0 ⟨.newWrite k s1.num, held⟩) ⟨.newWrite k s1.num, held⟩ := h1.goto _
    have hn : s1.num = p.num := h1.num
    generalize s1.goto 0 ⟨.newWrite k s1.num, held⟩ = s2 at h2 r2
    have r3 := Reach.one (cfg := cfg) s2 (.step 0 false)
    rw [h2.tev] at r3
    simp only [TPool.act] at r3
    have h3 : Rep { p with num := p.num + 1 } ({ s2 with num := s1.num + 1 }.goto 0 ⟨.newMake k, held⟩)
        ⟨.newMake k, held⟩ :=
      ⟨by simp [TPool.goto, h2.thr], h2.lock, h2.free, by simp only [TPool.goto, hn], h2.made, h2.closed⟩
    generalize { s2 with num := s1.num + 1 }.goto 0 ⟨.newMake k, held⟩ = s3 at h3 r3
    have r4 := Reach.one (cfg := cfg) s3 (.step 0 false)
    rw [h3.tev] at r4
    refine ⟨_, r1.trans (r2.trans (r3.trans r4)), ?_⟩
    simp only [if_neg hc]
    have hm : s3.made = p.made := h3.made
    cases k <;>
    exact ⟨by simp [TPool.act, TPool.goto, h3.thr, NewFor.next, hm], h3.lock, h3.free, h3.num, by
      simp [TPool.act, TPool.goto, hm], h3.closed⟩

theorem rep_drop {cfg : PoolCfg} {p : CPool} {s : TPool} {c : Nat} {held : List Nat} (readable : Bool)
    (h : Rep p s ⟨.dropChk c, held⟩) :
    ∃ s', Reach cfg s s' ∧
      Rep (if p.isDropped c readable then { p.closeConn c with num := p.num - 1 } else p) s' ⟨.idle, c :: held⟩ := by
  have r1 := Reach.one (cfg := cfg) s (.step 0 readable)
  rw [h.tev] at r1
  have hcl : (s.closed.contains c || readable) = p.isDropped c readable := by
    have : s.closed.contains c = p.closed.contains c := by
      rw [Bool.eq_iff_iff, List.contains_iff_mem, List.contains_iff_mem]; exact h.closed c
    rw [this]; rfl
  simp only [TPool.act, hcl] at r1
  by_cases hd : p.isDropped c readable = true
  · rw [if_pos hd] at r1 ⊢
    have h1 : Rep p (s.goto 0 ⟨.dropClose c, held⟩) ⟨.dropClose c, held⟩ := h.goto _
    generalize s.goto 0 ⟨.dropClose c, held⟩ = s1 at h1 r1
    have r2 := Reach.one (cfg := cfg) s1 (.step 0 false)
    rw [h1.tev] at r2
    simp only [TPool.act] at r2
    have h2 := h1.close c ⟨.dropDecR c, held⟩
    generalize { s1 with closed := c :: s1.closed }.goto 0 ⟨.dropDecR c, held⟩ = s2 at h2 r2
    have r3 := Reach.one (cfg := cfg) s2 (.step 0 false)
    rw [h2.tev] at r3
    simp only [TPool.act, h2.lock, Option.isSome_none, Bool.false_eq_true, if_false] at r3
    have ht4 : ({ s2 with lock := some 0 }.goto 0 ⟨.dropDecW c s2.num, held⟩).thr =
        [⟨.dropDecW c s2.num, held⟩] := by simp [TPool.goto, h2.thr]
    have r4 := Reach.one (cfg := cfg) ({ s2 with lock := some 0 }.goto 0 ⟨.dropDecW c s2.num, held⟩) (.step 0 false)
    rw [TPool.tev, ht4] at r4
    simp only [List.getElem?_cons_zero, TPool.act] at r4
    refine ⟨_, r1.trans (r2.trans (r3.trans r4)), ?_⟩
    exact ⟨by simp [TPool.goto, h2.thr], rfl, h2.free, by
      have := h2.num
      simp only [TPool.goto, this]; rfl, h2.made, h2.closed⟩
  · rw [if_neg hd] at r1 ⊢
    exact ⟨_, r1, h.goto _⟩

/-- a `get_conn` that does not wait for ever -/
theorem rep_get {cfg : PoolCfg} {p : CPool} {s : TPool} {held : List Nat} (timeout readable : Bool)
    (hw : cfg.block = false ∨ timeout = true) (h : Rep p s ⟨.idle, held⟩) :
    ∃ s', Reach cfg s s' ∧
      match p.getConn cfg timeout readable with
      | (p', .ok c) => Rep p' s' ⟨.idle, c :: held⟩
      | (p', _) => Rep p' s' ⟨.idle, held⟩ := by
  have r1 := Reach.one (cfg := cfg) s (.callGet 0)
  simp only [TPool.tev, h.thr, List.getElem?_cons_zero, if_true] at r1
  have h1 : Rep p (s.goto 0 ⟨.getLoad, held⟩) ⟨.getLoad, held⟩ := h.goto _
  have ho1 : (s.goto 0 ⟨.getLoad, held⟩).isOpen = s.isOpen := rfl
  have hq1 : (s.goto 0 ⟨.getLoad, held⟩).queue = s.queue := rfl
  generalize s.goto 0 ⟨.getLoad, held⟩ = s1 at h1 r1 ho1 hq1
  have r2 := Reach.one (cfg := cfg) s1 (.step 0 false)
  rw [h1.tev] at r2
  simp only [TPool.act, ho1] at r2
  have hf := h.free
  unfold CPool.getConn
  cases ho : s.isOpen with
  | false =>
    rw [ho] at r2 hf
    simp only [Bool.false_eq_true, if_false] at r2 hf
    refine ⟨_, r1.trans r2, ?_⟩
    rw [hf]
    exact h1.goto _
  | true =>
    rw [ho] at r2 hf
    simp only [if_true] at r2 hf
    have h2 : Rep p (s1.goto 0 ⟨.getPop, held⟩) ⟨.getPop, held⟩ := h1.goto _
    have hq2 : (s1.goto 0 ⟨.getPop, held⟩).queue = s.queue := hq1
    have ho2 : (s1.goto 0 ⟨.getPop, held⟩).isOpen = true := by rw [← ho]; exact ho1
    generalize s1.goto 0 ⟨.getPop, held⟩ = s2 at h2 r2 hq2 ho2
    have r3 := Reach.one (cfg := cfg) s2 (.step 0 timeout)
    rw [h2.tev] at r3
    rw [hf]
    cases hq : s.queue with
    | nil =>
      simp only [TPool.act, hq2, hq] at r3
      cases hb : cfg.block with
      | true =>
        have ht : timeout = true := by rcases hw with hw | hw
                                       · rw [hb] at hw; cases hw
                                       · exact hw
        subst ht
        simp only [hb, if_true] at r3 ⊢
        exact ⟨_, r1.trans (r2.trans r3), h2.goto _⟩
      | false =>
        simp only [hb, Bool.false_eq_true, if_false] at r3 ⊢
        obtain ⟨s', r4, h4⟩ := rep_new (cfg := cfg) (h2.goto ⟨.newChk .fresh, held⟩)
        refine ⟨s', r1.trans (r2.trans (r3.trans r4)), ?_⟩
        rcases hn : p.newConn cfg with ⟨p', r | r⟩
        · rw [hn] at h4; exact h4
        · rw [hn] at h4; exact h4
    | cons c q =>
      simp only [TPool.act, hq2, hq] at r3
      have h3 : Rep { p with free := some q } ({ s2 with queue := q }.goto 0 ⟨.getSize c, held⟩) ⟨.getSize c, held⟩ :=
        ⟨by simp [TPool.goto, h2.thr], h2.lock, by simp [TPool.goto, ho2], h2.num, h2.made, h2.closed⟩
      have ho3 : ({ s2 with queue := q }.goto 0 ⟨.getSize c, held⟩).isOpen = true := ho2
      have hq3 : ({ s2 with queue := q }.goto 0 ⟨.getSize c, held⟩).queue = q := rfl
      generalize { s2 with queue := q }.goto 0 ⟨.getSize c, held⟩ = s3 at h3 r3 ho3 hq3
      have r4 := Reach.one (cfg := cfg) s3 (.step 0 false)
      rw [h3.tev] at r4
      simp only [TPool.act, ho3, if_true] at r4
      have h4 : Rep { p with free := some q } (s3.goto 0 ⟨.getQsize c, held⟩) ⟨.getQsize c, held⟩ := h3.goto _
      have hq4 : (s3.goto 0 ⟨.getQsize c, held⟩).queue = q := hq3
      generalize s3.goto 0 ⟨.getQsize c, held⟩ = s4 at h4 r4 hq4
      have r5 := Reach.one (cfg := cfg) s4 (.step 0 false)
      rw [h4.tev] at r5
      simp only [TPool.act, hq4] at r5
      have r04 : Reach cfg s s4 := r1.trans (r2.trans (r3.trans r4))
      by_cases hmin : q.length < cfg.minFree
      · rw [if_pos hmin] at r5
        obtain ⟨s6, r6, h6⟩ := rep_new (cfg := cfg) (h4.goto ⟨.newChk (.refill c), held⟩)
        simp only [hmin, if_true]
        rcases hn : CPool.newConn cfg { p with free := some q } with ⟨p', r | n⟩
        · rw [hn] at h6
          exact ⟨s6, r04.trans (r5.trans r6), h6⟩
        · rw [hn] at h6
          obtain ⟨s7, r7, h7⟩ := rep_put (cfg := cfg) h6
          obtain ⟨s8, r8, h8⟩ := rep_drop (cfg := cfg) readable h7
          refine ⟨s8, r04.trans (r5.trans (r6.trans (r7.trans r8))), ?_⟩
          by_cases hd : (CPool.putConn cfg p' n).isDropped c readable = true
          · simp only [hd, if_true] at h8 ⊢; exact h8
          · simp only [hd] at h8 ⊢; exact h8
      · rw [if_neg hmin] at r5
        obtain ⟨s8, r8, h8⟩ := rep_drop (cfg := cfg) readable (h4.goto ⟨.dropChk c, held⟩)
        refine ⟨s8, r04.trans (r5.trans r8), ?_⟩
        simp only [hmin, if_false]
        by_cases hd : CPool.isDropped { p with free := some q } c readable = true
        · simp only [hd, if_true] at h8 ⊢; exact h8
        · simp only [hd] at h8 ⊢; exact h8

theorem rep_closePool {cfg : PoolCfg} {p : CPool} {s : TPool} {held : List Nat} (h : Rep p s ⟨.idle, held⟩) :
    ∃ s', Reach cfg s s' ∧ Rep p.close.1 s' ⟨.idle, held⟩ := by
  -- the loop
  have drain : ∀ (q : List Nat) (p : CPool) (s : TPool), p.free = none → s.queue = q → Rep p s ⟨.closeDrain, held⟩ →
      ∃ s', Reach cfg s s' ∧ Rep { p with closed := q ++ p.closed } s' ⟨.idle, held⟩ := by
    intro q
    induction q with
    | nil =>
      intro p s hp hq h
      have r := Reach.one (cfg := cfg) s (.step 0 false)
      rw [h.tev] at r
      simp only [TPool.act, hq] at r
      exact ⟨_, r, h.goto _⟩
    | cons c q ih =>
      intro p s hp hq h
      have hso : s.isOpen = false := by
        have := h.free
        rw [hp] at this
        cases hs : s.isOpen with
        | false => rfl
        | true => rw [hs] at this; cases this
      have r := Reach.one (cfg := cfg) s (.step 0 false)
      rw [h.tev] at r
      simp only [TPool.act, hq] at r
      have h1 : Rep p ({ s with queue := q }.goto 0 ⟨.closeOne c, held⟩) ⟨.closeOne c, held⟩ :=
        ⟨by simp [TPool.goto, h.thr], h.lock, by simp [TPool.goto, hso, hp], h.num, h.made, h.closed⟩
      have hq1 : ({ s with queue := q }.goto 0 ⟨.closeOne c, held⟩).queue = q := rfl
      generalize { s with queue := q }.goto 0 ⟨.closeOne c, held⟩ = s1 at h1 r hq1
      have r2 := Reach.one (cfg := cfg) s1 (.step 0 false)
      rw [h1.tev] at r2
      simp only [TPool.act] at r2
      obtain ⟨s', r3, h3⟩ := ih (p.closeConn c) ({ s1 with closed := c :: s1.closed }.goto 0 ⟨.closeDrain, held⟩)
        hp hq1 (h1.close c ⟨.closeDrain, held⟩)
      refine ⟨s', r.trans (r2.trans r3), h3.thr, h3.lock, h3.free, h3.num, h3.made, fun x => ?_⟩
      rw [h3.closed x]
      simp only [CPool.closeConn, List.mem_append, List.mem_cons]
      constructor
      · rintro (h | h | h)
        · exact .inl (.inr h)
        · exact .inl (.inl h)
        · exact .inr h
      · rintro ((h | h) | h)
        · exact .inr (.inl h)
        · exact .inl h
        · exact .inr (.inr h)
  have r1 := Reach.one (cfg := cfg) s (.callClose 0)
  simp only [TPool.tev, h.thr, List.getElem?_cons_zero, if_true] at r1
  have h1 : Rep p (s.goto 0 ⟨.closeLoad, held⟩) ⟨.closeLoad, held⟩ := h.goto _
  have ho1 : (s.goto 0 ⟨.closeLoad, held⟩).isOpen = s.isOpen := rfl
  have hq1 : (s.goto 0 ⟨.closeLoad, held⟩).queue = s.queue := rfl
  generalize s.goto 0 ⟨.closeLoad, held⟩ = s1 at h1 r1 ho1 hq1
  have r2 := Reach.one (cfg := cfg) s1 (.step 0 false)
  rw [h1.tev] at r2
  simp only [TPool.act, ho1] at r2
  have h2 : Rep p (s1.goto 0 ⟨.closeStore s.isOpen, held⟩) ⟨.closeStore s.isOpen, held⟩ := h1.goto _
  have hq2 : (s1.goto 0 ⟨.closeStore s.isOpen, held⟩).queue = s.queue := hq1
  generalize s1.goto 0 ⟨.closeStore s.isOpen, held⟩ = s2 at h2 r2 hq2
  have r3 := Reach.one (cfg := cfg) s2 (.step 0 false)
  rw [h2.tev] at r3
  have hf := h.free
  unfold CPool.close
  cases ho : s.isOpen with
  | false =>
    rw [ho] at r3 hf
    simp only [TPool.act, Bool.false_eq_true, if_false] at r3 hf
    refine ⟨_, r1.trans (r2.trans r3), ?_⟩
    rw [hf]
    exact ⟨by simp [TPool.goto, h2.thr], h2.lock, hf, h2.num, h2.made, h2.closed⟩
  | true =>
    rw [ho] at r3 hf
    simp only [TPool.act, if_true] at r3 hf
    rw [hf]
    obtain ⟨s', r4, h4⟩ := drain s.queue { p with free := none }
      ({ s2 with isOpen := false }.goto 0 ⟨.closeDrain, held⟩) rfl hq2
      ⟨by simp [TPool.goto, h2.thr], h2.lock, rfl, h2.num, h2.made, h2.closed⟩
    exact ⟨s', r1.trans (r2.trans (r3.trans r4)), h4⟩

/-- the operation does not wait for ever on an empty blocking pool -/
def PoolOp.noHang (cfg : PoolCfg) : PoolOp → Prop
  | .get timeout _ => cfg.block = false ∨ timeout = true
  | _ => True

/-- C94 (one pool, two models): every history of the sequential pool model is an execution of the thread model with
one thread: there is a schedule after which the queue, the closed flag, the connection counter, the number of
connections made, the set of closed connections and what the user holds are the same. (So what is proved about all
interleavings holds for the sequential model, and every counterexample found sequentially is real for threads.) -/
theorem C94_sequential_refines (cfg : PoolCfg) (p : CPool) (hp : CPool.init cfg = .ok p) (ops : List PoolOp)
    (hw : ∀ op ∈ ops, op.noHang cfg) :
    ∃ evs, Rep (poolRun cfg p ops).pool (tpRun cfg p 1 evs) ⟨.idle, (poolRun cfg p ops).held⟩ := by
  have key : ∀ (ops : List PoolOp) (sys : PoolSys) (s : TPool), (∀ op ∈ ops, op.noHang cfg) →
      Rep sys.pool s ⟨.idle, sys.held⟩ → ∃ s', Reach cfg s s' ∧
        Rep (ops.foldl (poolStep cfg) sys).pool s' ⟨.idle, (ops.foldl (poolStep cfg) sys).held⟩ := by
    intro ops
    induction ops with
    | nil => intro sys s _ h; exact ⟨s, ⟨[], rfl⟩, h⟩
    | cons op ops ih =>
      intro sys s hw h
      have one : ∃ s', Reach cfg s s' ∧ Rep (poolStep cfg sys op).pool s' ⟨.idle, (poolStep cfg sys op).held⟩ := by
        cases op with
        | get timeout readable =>
          obtain ⟨s', r, h1⟩ := rep_get timeout readable (hw (.get timeout readable) (by simp)) h
          refine ⟨s', r, ?_⟩
          simp only [poolStep]
          rcases hg : sys.pool.getConn cfg timeout readable with ⟨p', c | e | _⟩ <;> rw [hg] at h1 <;> exact h1
        | put c =>
          simp only [poolStep]
          split
          · next hc =>
            have r1 := Reach.one (cfg := cfg) s (.callPut 0 c)
            simp only [TPool.tev, h.thr, List.getElem?_cons_zero, hc, and_self, if_true] at r1
            obtain ⟨s', r2, h2⟩ := rep_put (cfg := cfg) (h.goto ⟨.putLoad .user c, sys.held.erase c⟩)
            exact ⟨s', r1.trans r2, h2⟩
          · exact ⟨s, ⟨[], rfl⟩, h⟩
        | closeConn c =>
          simp only [poolStep]
          split
          · next hc =>
            have r1 := Reach.one (cfg := cfg) s (.userClose 0 c)
            simp only [TPool.tev, h.thr, List.getElem?_cons_zero, hc, and_self, if_true] at r1
            refine ⟨_, r1, rfl, h.lock, h.free, h.num, h.made, fun x => ?_⟩
            simp only [CPool.closeConn, List.mem_cons, h.closed x]
          · exact ⟨s, ⟨[], rfl⟩, h⟩
        | closePool => exact rep_closePool h
      obtain ⟨s1, r1, h1⟩ := one
      obtain ⟨s2, r2, h2⟩ := ih _ s1 (fun o ho => hw o (List.mem_cons_of_mem _ ho)) h1
      exact ⟨s2, r1.trans r2, h2⟩
  have h0 : Rep (poolStart p).pool (tpStart p 1) ⟨.idle, (poolStart p).held⟩ := by
    refine ⟨rfl, rfl, ?_, rfl, rfl, fun _ => Iff.rfl⟩
    have hs := (loc_init hp).2.1
    cases hf : p.free with
    | none => rw [hf] at hs; cases hs
    | some q => show p.free = some (p.free.getD []); rw [hf]; rfl
  obtain ⟨s', ⟨evs, rfl⟩, h⟩ := key ops (poolStart p) (tpStart p 1) hw h0
  exact ⟨evs, h⟩

/-- a history that creates, returns, drops and closes connections -/
example : ∃ p, CPool.init { initial := 1, maxConns := 3, minFree := 1 } = .ok p ∧
    (poolRun { initial := 1, maxConns := 3, minFree := 1 } p
      [.get false false, .get false true, .put 0, .closePool, .get false false]).held = [1] ∧
    (poolRun { initial := 1, maxConns := 3, minFree := 1 } p
      [.get false false, .get false true, .put 0, .closePool, .get false false]).pool.made = 3 := by
  exact ⟨_, rfl, by decide, by decide⟩

/-! ## How far C37 fails -/

/-- `k` of `n` threads have passed the check of `_new_conn` -/
def Checked (n k : Nat) (s : TPool) : Prop :=
  s.queue = [] ∧ s.isOpen = true ∧ s.num = 0 ∧ s.lock = none ∧
  (∀ i, i < k → s.thr[i]? = some ⟨.newRead .fresh, []⟩) ∧ ∀ i, k ≤ i → i < n → s.thr[i]? = some {}

theorem checked_step {n k : Nat} (hk : k < n) {s : TPool} (h : Checked n k s) :
    ∃ s', Reach { initial := 0, maxConns := 1 } s s' ∧ Checked n (k + 1) s' := by
  obtain ⟨h1, h2, h3, h4, h5, h6⟩ := h
  have hk0 := h6 k (Nat.le_refl _) hk
  have e1 : s.tev { initial := 0, maxConns := 1 } (.callGet k) = s.goto k ⟨.getLoad, []⟩ := by
    simp only [TPool.tev, hk0, if_true]
  have t1 : (s.goto k ⟨.getLoad, []⟩).thr[k]? = some ⟨.getLoad, []⟩ := thr_goto hk0
  have e2 : (s.goto k ⟨.getLoad, []⟩).tev { initial := 0, maxConns := 1 } (.step k false) =
      (s.goto k ⟨.getLoad, []⟩).goto k ⟨.getPop, []⟩ := by
    simp only [TPool.tev, t1, TPool.act]
    simp only [TPool.goto, h2, if_true]
  have t2 : ((s.goto k ⟨.getLoad, []⟩).goto k ⟨.getPop, []⟩).thr[k]? = some ⟨.getPop, []⟩ := thr_goto t1
  have e3 : ((s.goto k ⟨.getLoad, []⟩).goto k ⟨.getPop, []⟩).tev { initial := 0, maxConns := 1 } (.step k false) =
      ((s.goto k ⟨.getLoad, []⟩).goto k ⟨.getPop, []⟩).goto k ⟨.newChk .fresh, []⟩ := by
    simp only [TPool.tev, t2, TPool.act]
    simp only [TPool.goto, h1, Bool.false_eq_true, if_false]
  have t3 : (((s.goto k ⟨.getLoad, []⟩).goto k ⟨.getPop, []⟩).goto k ⟨.newChk .fresh, []⟩).thr[k]? =
      some ⟨.newChk .fresh, []⟩ := thr_goto t2
  have e4 : (((s.goto k ⟨.getLoad, []⟩).goto k ⟨.getPop, []⟩).goto k ⟨.newChk .fresh, []⟩).tev
      { initial := 0, maxConns := 1 } (.step k false) =
      (((s.goto k ⟨.getLoad, []⟩).goto k ⟨.getPop, []⟩).goto k ⟨.newChk .fresh, []⟩).goto k ⟨.newRead .fresh, []⟩ := by
    simp only [TPool.tev, t3, TPool.act]
    simp only [TPool.goto, h3, h4]
    rfl
  refine ⟨_, (Reach.one s (.callGet k)).trans ((Reach.one _ (.step k false)).trans
    ((Reach.one _ (.step k false)).trans (Reach.one _ (.step k false)))), ?_⟩
  rw [e1, e2, e3, e4]
  refine ⟨h1, h2, h3, h4, fun i hi => ?_, fun i hi hn => ?_⟩
  · by_cases e : k = i
    · subst e; exact thr_goto t3
    · rw [thr_goto_ne e, thr_goto_ne e, thr_goto_ne e, thr_goto_ne e]; exact h5 i (by omega)
  · have e : k ≠ i := by omega
    rw [thr_goto_ne e, thr_goto_ne e, thr_goto_ne e, thr_goto_ne e]; exact h6 i (by omega) hn

/-- `k` threads have counted their connection, the others have passed the check -/
def Counted (n k : Nat) (s : TPool) : Prop :=
  s.num = k ∧ ∀ i, k ≤ i → i < n → s.thr[i]? = some ⟨.newRead .fresh, []⟩

theorem counted_step {n k : Nat} (hk : k < n) {s : TPool} (h : Counted n k s) :
    ∃ s', Reach { initial := 0, maxConns := 1 } s s' ∧ Counted n (k + 1) s' := by
  obtain ⟨h1, h2⟩ := h
  have hk0 := h2 k (Nat.le_refl _) hk
  have e1 : s.tev { initial := 0, maxConns := 1 } (.step k false) = s.goto k ⟨.newWrite .fresh s.num, []⟩ := by
    simp only [TPool.tev, hk0, TPool.act]
  have t1 : (s.goto k ⟨.newWrite .fresh s.num, []⟩).thr[k]? = some ⟨.newWrite .fresh s.num, []⟩ := thr_goto hk0
  have e2 : (s.goto k ⟨.newWrite .fresh s.num, []⟩).tev { initial := 0, maxConns := 1 } (.step k false) =
      { s.goto k ⟨.newWrite .fresh s.num, []⟩ with num := s.num + 1 }.goto k ⟨.newMake .fresh, []⟩ := by
    simp only [TPool.tev, t1, TPool.act]
  refine ⟨_, (Reach.one s (.step k false)).trans (Reach.one _ (.step k false)), ?_⟩
  rw [e1, e2]
  refine ⟨by simp only [TPool.goto, h1]; omega, fun i hi hn => ?_⟩
  have e : k ≠ i := by omega
  rw [thr_goto_ne e]
  show (s.goto k ⟨.newWrite .fresh s.num, []⟩).thr[i]? = _
  rw [thr_goto_ne e]
  exact h2 i (by omega) hn

/-- C37 fails without bound: with a limit of one connection, `n` threads can make the pool open `n` of them, for
every `n`. -/
theorem C37_unbounded (n : Nat) : ∃ evs, (tpRun { initial := 0, maxConns := 1 } {} n evs).num = n := by
  have a : ∀ k, k ≤ n → ∃ s, Reach { initial := 0, maxConns := 1 } (tpStart {} n) s ∧ Checked n k s := by
    intro k
    induction k with
    | zero =>
      intro _
      refine ⟨_, ⟨[], rfl⟩, rfl, rfl, rfl, rfl, fun i hi => by omega, fun i _ hi => ?_⟩
      simp [tpStart, hi]
    | succ k ih =>
      intro hk
      obtain ⟨s, r, h⟩ := ih (by omega)
      obtain ⟨s', r', h'⟩ := checked_step (by omega) h
      exact ⟨s', r.trans r', h'⟩
  have b : ∀ k, k ≤ n → ∃ s, Reach { initial := 0, maxConns := 1 } (tpStart {} n) s ∧ Counted n k s := by
    intro k
    induction k with
    | zero =>
      intro _
      obtain ⟨s, r, h⟩ := a n (Nat.le_refl _)
      exact ⟨s, r, h.2.2.1, fun i _ hi => h.2.2.2.2.1 i hi⟩
    | succ k ih =>
      intro hk
      obtain ⟨s, r, h⟩ := ih (by omega)
      obtain ⟨s', r', h'⟩ := counted_step (by omega) h
      exact ⟨s', r.trans r', h'⟩
  obtain ⟨s, ⟨evs, rfl⟩, h, -⟩ := b n (Nat.le_refl _)
  exact ⟨evs, h⟩

end Bolt
