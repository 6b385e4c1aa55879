import Verif.Props.PoolProgress
/-!
# C123, C124: closing a pool while threads use it

`close` (connection_pool.py:164-178) replaces `self.pool` by `None` and then empties the queue. A thread that evaluated
`self.pool` before still works on the queue afterwards.
-/
namespace Bolt

/-- no thread is in a call of the pool -/
def TPool.quiet (s : TPool) : Prop := ∀ t ∈ s.thr, t.pc = .idle

/-- the connection is closed, in the queue, held by a user or in the hands of pool code running in a thread -/
def TPool.has (s : TPool) (c : Nat) : Prop :=
  c ∈ s.closed ∨ c ∈ s.queue ∨ ∃ t ∈ s.thr, c ∈ t.held ∨ c ∈ t.pc.hand

/-- the thread has evaluated `self.pool` in `put_conn` and is about to put -/
def PoolPC.late : PoolPC → Bool
  | .putPut _ _ => true
  | _ => false

/-- the thread is in `get_conn`, between the evaluation of `self.pool` and the end of the replenishing -/
def PoolPC.mayLose : PoolPC → Bool
  | .getPop | .getSize _ | .getQsize _ | .newChk (.refill _) => true
  | _ => false

/-- the thread is emptying the queue -/
def PoolPC.draining : PoolPC → Bool
  | .closeDrain | .closeOne _ => true
  | _ => false

/-- how many threads are at such a point -/
def TPool.count (s : TPool) (f : PoolPC → Bool) : Nat := (s.thr.map fun t => if f t.pc then 1 else 0).sum

theorem count_goto {s : TPool} {i : Nat} {t t' : PoolThr} (f : PoolPC → Bool) (ht : s.thr[i]? = some t) :
    (s.goto i t').count f + (if f t.pc then 1 else 0) = s.count f + (if f t'.pc then 1 else 0) :=
  sum_set s.thr (fun t => if f t.pc then 1 else 0) i t t' ht

theorem count_zero {s : TPool} {f : PoolPC → Bool} (h : ∀ t ∈ s.thr, f t.pc = false) : s.count f = 0 := by
  unfold TPool.count
  generalize s.thr = l at h
  induction l with
  | nil => rfl
  | cons a l ih =>
    rw [List.map_cons, List.sum_cons, ih fun t ht => h t (List.mem_cons_of_mem _ ht), h a (by simp)]
    rfl

/-- what holds from the moment on at which the pool has been disabled (`s0`) -/
structure LateInv (s0 s : TPool) : Prop where
  off : s.isOpen = false
  puts : s.count PoolPC.late ≤ s0.count PoolPC.late
  drained : (∃ t ∈ s.thr, t.pc.draining = true) ∨ s.queue.length + s.count PoolPC.late ≤ s0.count PoolPC.late
  books : ∃ L : List Nat, L.length + s.count PoolPC.mayLose ≤ s0.count PoolPC.mayLose ∧
    ∀ c, (s0.has c ∨ s0.made ≤ c ∧ c < s.made) → s.has c ∨ c ∈ L

theorem mem_goto {s : TPool} {i : Nat} {t t' u : PoolThr} (ht : s.thr[i]? = some t) (hu : u ∈ s.thr) :
    u = t ∨ u ∈ (s.goto i t').thr := by
  obtain ⟨j, hj⟩ := List.mem_iff_getElem?.1 hu
  by_cases e : i = j
  · subst e; rw [ht] at hj; exact .inl (Option.some.inj hj).symm
  · right
    refine List.mem_iff_getElem?.2 ⟨j, ?_⟩
    show (s.thr.set i t')[j]? = _
    rw [List.getElem?_set_ne e]; exact hj

theorem late_goto {s0 s s1 : TPool} (h : LateInv s0 s) {i : Nat} {t t' : PoolThr} (ht : s.thr[i]? = some t)
    (X : List Nat) (e : s1.thr = s.thr) (ho : s1.isOpen = false)
    (hp : (if t'.pc.late then 1 else 0) ≤ (if t.pc.late then 1 else 0))
    (hq : s1.queue.length + (if t'.pc.late then 1 else 0) ≤ s.queue.length + (if t.pc.late then 1 else 0))
    (hd : t.pc.draining = true → t'.pc.draining = true ∨ s1.queue = [])
    (hx : X.length + (if t'.pc.mayLose then 1 else 0) ≤ (if t.pc.mayLose then 1 else 0))
    (hc : ∀ c ∈ s.closed, c ∈ s1.closed)
    (hh : ∀ c, c ∈ s.queue ∨ c ∈ t.held ∨ c ∈ t.pc.hand ∨ s.made ≤ c ∧ c < s1.made →
      c ∈ s1.closed ∨ c ∈ s1.queue ∨ c ∈ t'.held ∨ c ∈ t'.pc.hand ∨ c ∈ X) : LateInv s0 (s1.goto i t') := by
  have ht1 : s1.thr[i]? = some t := by rw [e]; exact ht
  have c1 := count_goto (t' := t') PoolPC.late ht1
  have c2 := count_goto (t' := t') PoolPC.mayLose ht1
  have d1 : s1.count PoolPC.late = s.count PoolPC.late := by unfold TPool.count; rw [e]
  have d2 : s1.count PoolPC.mayLose = s.count PoolPC.mayLose := by unfold TPool.count; rw [e]
  have hin : t' ∈ (s1.goto i t').thr := List.mem_of_getElem? (thr_goto ht1)
  have hput := h.puts
  have hlose := h.books
  have hpl : (s1.goto i t').count PoolPC.late ≤ s0.count PoolPC.late := by omega
  refine ⟨ho, hpl, ?_, ?_⟩
  · have hnil : s1.queue = [] → (s1.goto i t').queue.length + (s1.goto i t').count PoolPC.late ≤ s0.count PoolPC.late := by
      intro hn
      have : (s1.goto i t').queue.length = 0 := by show s1.queue.length = 0; rw [hn]; rfl
      omega
    rcases h.drained with ⟨u, hu, hud⟩ | hle
    · rcases mem_goto (t' := t') ht1 (e ▸ hu : u ∈ s1.thr) with rfl | hu'
      · rcases hd hud with h1 | h1
        · exact .inl ⟨t', hin, h1⟩
        · exact .inr (hnil h1)
      · exact .inl ⟨u, hu', hud⟩
    · right
      show s1.queue.length + _ ≤ _
      omega
  · obtain ⟨L, hL, hall⟩ := h.books
    refine ⟨X ++ L, by rw [List.length_append]; omega, ?_⟩
    have conv : ∀ c, s.has c ∨ s.made ≤ c ∧ c < s1.made → (s1.goto i t').has c ∨ c ∈ X := by
      have fin : ∀ c, c ∈ s1.closed ∨ c ∈ s1.queue ∨ c ∈ t'.held ∨ c ∈ t'.pc.hand ∨ c ∈ X →
          (s1.goto i t').has c ∨ c ∈ X := by
        intro c hc
        rcases hc with hc | hc | hc | hc | hc
        · exact .inl (.inl hc)
        · exact .inl (.inr (.inl hc))
        · exact .inl (.inr (.inr ⟨t', hin, .inl hc⟩))
        · exact .inl (.inr (.inr ⟨t', hin, .inr hc⟩))
        · exact .inr hc
      intro c hcs
      rcases hcs with (hcs | hcs | ⟨u, hu, hcs⟩) | hcs
      · exact .inl (.inl (hc c hcs))
      · exact fin c (hh c (.inl hcs))
      · rcases mem_goto (t' := t') ht1 (e ▸ hu : u ∈ s1.thr) with rfl | hu'
        · rcases hcs with hcs | hcs
          · exact fin c (hh c (.inr (.inl hcs)))
          · exact fin c (hh c (.inr (.inr (.inl hcs))))
        · exact .inl (.inr (.inr ⟨u, hu', hcs⟩))
      · exact fin c (hh c (.inr (.inr (.inr hcs))))
    intro c hcm
    by_cases hold : s0.has c ∨ s0.made ≤ c ∧ c < s.made
    · rcases hall c hold with h1 | h1
      · rcases conv c (.inl h1) with h2 | h2
        · exact .inl h2
        · exact .inr (List.mem_append_left _ h2)
      · exact .inr (List.mem_append_right _ h1)
    · have hnew : s.made ≤ c ∧ c < s1.made := by
        rcases hcm with h1 | ⟨h1, h2⟩
        · exact absurd (.inl h1) hold
        · refine ⟨?_, h2⟩
          rcases Nat.lt_or_ge c s.made with h3 | h3
          · exact absurd (.inr ⟨h1, h3⟩) hold
          · exact h3
      rcases conv c (.inr hnew) with h2 | h2
      · exact .inl h2
      · exact .inr (List.mem_append_left _ h2)

set_option linter.unusedSimpArgs false in
theorem late_act {cfg : PoolCfg} {s0 s : TPool} (h : LateInv s0 s) {i : Nat} {t : PoolThr} (ht : s.thr[i]? = some t)
    (b : Bool) : LateInv s0 (s.act cfg i t b) := by
  have ho := h.off
  obtain ⟨pc, held⟩ := t
  -- nothing shared changes and nothing is dropped
  have plain : ∀ (pc' : PoolPC) (held' : List Nat), pc'.late = false ∨ pc.late = true →
      (pc.draining = true → pc'.draining = true ∨ s.queue = []) → pc'.mayLose = false ∨ pc.mayLose = true →
      (∀ c, c ∈ held ∨ c ∈ pc.hand → c ∈ held' ∨ c ∈ pc'.hand) → LateInv s0 (s.goto i ⟨pc', held'⟩) := by
    intro pc' held' h1 h2 h3 h4
    have a1 : (if pc'.late then 1 else 0) ≤ (if pc.late then 1 else 0) := by
      rcases h1 with h1 | h1 <;> rw [h1] <;> (try simp) <;> split <;> omega
    have a2 : (if pc'.mayLose then 1 else 0) ≤ (if pc.mayLose then 1 else 0) := by
      rcases h3 with h1 | h1 <;> rw [h1] <;> (try simp) <;> split <;> omega
    refine late_goto h ht [] rfl ho a1 (Nat.add_le_add_left a1 _) h2 (by simpa using a2) (fun _ h => h) ?_
    intro c hc
    rcases hc with hc | hc | hc | hc
    · exact .inr (.inl hc)
    · rcases h4 c (.inl hc) with h | h
      · exact .inr (.inr (.inl h))
      · exact .inr (.inr (.inr (.inl h)))
    · rcases h4 c (.inr hc) with h | h
      · exact .inr (.inr (.inl h))
      · exact .inr (.inr (.inr (.inl h)))
    · omega
  unfold TPool.act
  cases pc with
  | idle => exact h
  | getLoad => dsimp only; rw [ho]; exact plain _ _ (by simp [PoolPC.late, PoolPC.mayLose]) (by simp [PoolPC.draining]) (by simp [PoolPC.late, PoolPC.mayLose]) (by simp [PoolPC.hand])
  | getPop =>
    dsimp only; split
    · next c q hq =>
      refine late_goto h ht [] rfl ho (by simp [PoolPC.late, PoolPC.mayLose]) (by simp [hq, PoolPC.late]) (by simp [PoolPC.draining]) (by simp [PoolPC.late, PoolPC.mayLose])
        (fun _ h => h) ?_
      intro x hx
      rw [hq] at hx
      simp [PoolPC.hand] at hx ⊢
      grind
    · next hq =>
      split
      · split
        · exact plain _ _ (by simp [PoolPC.late, PoolPC.mayLose]) (by simp [PoolPC.draining]) (by simp [PoolPC.late, PoolPC.mayLose]) (by simp [PoolPC.hand])
        · exact h
      · exact plain _ _ (by simp [PoolPC.late]) (by simp [PoolPC.draining]) (by simp [PoolPC.mayLose]) (by simp [PoolPC.hand])
  | getSize c =>
    dsimp only; rw [ho]
    refine late_goto h ht [c] rfl ho (by simp [PoolPC.late, PoolPC.mayLose]) (by simp [PoolPC.late]) (by simp [PoolPC.draining])
      (by simp [PoolPC.mayLose]) (fun _ h => h) ?_
    intro x hx
    simp [PoolPC.hand] at hx ⊢
    rcases hx with hx | hx | hx | hx
    · exact .inr (.inl hx)
    · exact .inr (.inr (.inl hx))
    · exact .inr (.inr (.inr hx))
    · grind
  | getQsize c =>
    dsimp only; split <;>
      exact plain _ _ (by simp [PoolPC.late]) (by simp [PoolPC.draining]) (by simp [PoolPC.mayLose]) (by simp [PoolPC.hand])
  | newChk k =>
    dsimp only; split
    · exact h
    · split
      · cases k with
        | fresh => exact plain _ _ (by simp [PoolPC.late]) (by simp [PoolPC.draining]) (by simp [PoolPC.mayLose]) (by simp [PoolPC.hand])
        | refill c =>
          refine late_goto h ht [c] rfl ho (by simp [PoolPC.late, PoolPC.mayLose]) (by simp [PoolPC.late]) (by simp [PoolPC.draining])
            (by simp [PoolPC.mayLose]) (fun _ h => h) ?_
          intro x hx
          simp [PoolPC.hand] at hx ⊢
          rcases hx with hx | hx | hx | hx
          · exact .inr (.inl hx)
          · exact .inr (.inr (.inl hx))
          · exact .inr (.inr (.inr hx))
          · grind
      · cases k <;>
          exact plain _ _ (by simp [PoolPC.late]) (by simp [PoolPC.draining]) (by simp [PoolPC.mayLose]) (by simp [PoolPC.hand])
  | newRead k =>
    cases k <;>
      exact plain _ _ (by simp [PoolPC.late]) (by simp [PoolPC.draining]) (by simp [PoolPC.mayLose]) (by simp [PoolPC.hand])
  | newWrite k r =>
    cases k <;>
    · refine late_goto h ht [] rfl ho (by simp [PoolPC.late]) (by simp [PoolPC.late]) (by simp [PoolPC.draining])
        (by simp [PoolPC.mayLose]) (fun _ h => h) ?_
      intro x hx
      simp [PoolPC.hand] at hx ⊢
      grind
  | newMake k =>
    cases k <;>
    · refine late_goto h ht [] rfl ho (by simp [PoolPC.late]) (by simp [PoolPC.late]) (by simp [PoolPC.draining])
        (by simp [PoolPC.mayLose]) (fun _ h => h) ?_
      intro x hx
      simp [PoolPC.hand] at hx ⊢
      grind
  | putLoad k n =>
    dsimp only; rw [ho]
    cases k <;>
      exact plain _ _ (by simp [PoolPC.late]) (by simp [PoolPC.draining]) (by simp [PoolPC.mayLose]) (by simp [PoolPC.hand])
  | putPut k n =>
    dsimp only; split
    · cases k <;>
        exact plain _ _ (by simp [PoolPC.late]) (by simp [PoolPC.draining]) (by simp [PoolPC.mayLose]) (by simp [PoolPC.hand])
    · cases k <;>
      · refine late_goto h ht [] rfl ho (by simp [PoolPC.late]) (by simp [PoolPC.late]) (by simp [PoolPC.draining])
          (by simp [PoolPC.mayLose]) (fun _ h => h) ?_
        intro x hx
        simp [PoolPC.hand] at hx ⊢
        grind
  | putDecR k n =>
    dsimp only; split
    · exact h
    · cases k <;>
      · refine late_goto h ht [] rfl ho (by simp [PoolPC.late]) (by simp [PoolPC.late]) (by simp [PoolPC.draining])
          (by simp [PoolPC.mayLose]) (fun _ h => h) ?_
        intro x hx
        simp [PoolPC.hand] at hx ⊢
        grind
  | putDecW k n r =>
    cases k <;>
    · refine late_goto h ht [] rfl ho (by simp [PoolPC.late]) (by simp [PoolPC.late]) (by simp [PoolPC.draining])
        (by simp [PoolPC.mayLose]) (fun _ h => h) ?_
      intro x hx
      simp [PoolPC.hand] at hx ⊢
      grind
  | putClose k n =>
    cases k <;>
    · refine late_goto h ht [] rfl ho (by simp [PoolPC.late]) (by simp [PoolPC.late]) (by simp [PoolPC.draining])
        (by simp [PoolPC.mayLose]) (fun _ h => List.mem_cons_of_mem _ h) ?_
      intro x hx
      simp [PoolPC.hand] at hx ⊢
      grind
  | dropChk c =>
    dsimp only; split
    · exact plain _ _ (by simp [PoolPC.late]) (by simp [PoolPC.draining]) (by simp [PoolPC.mayLose]) (by simp [PoolPC.hand])
    · exact plain _ _ (by simp [PoolPC.late]) (by simp [PoolPC.draining]) (by simp [PoolPC.mayLose]) (by simp [PoolPC.hand]; grind)
  | dropClose c =>
    refine late_goto h ht [] rfl ho (by simp [PoolPC.late]) (by simp [PoolPC.late]) (by simp [PoolPC.draining])
      (by simp [PoolPC.mayLose]) (fun _ h => List.mem_cons_of_mem _ h) ?_
    intro x hx
    simp [PoolPC.hand] at hx ⊢
    grind
  | dropDecR c =>
    dsimp only; split
    · exact h
    · refine late_goto h ht [] rfl ho (by simp [PoolPC.late]) (by simp [PoolPC.late]) (by simp [PoolPC.draining])
        (by simp [PoolPC.mayLose]) (fun _ h => h) ?_
      intro x hx
      simp [PoolPC.hand] at hx ⊢
      grind
  | dropDecW c r =>
    refine late_goto h ht [] rfl ho (by simp [PoolPC.late]) (by simp [PoolPC.late]) (by simp [PoolPC.draining])
      (by simp [PoolPC.mayLose]) (fun _ h => h) ?_
    intro x hx
    simp [PoolPC.hand] at hx ⊢
    grind
  | closeLoad =>
    exact plain _ _ (by simp [PoolPC.late]) (by simp [PoolPC.draining]) (by simp [PoolPC.mayLose]) (by simp [PoolPC.hand])
  | closeStore o =>
    cases o <;>
    · refine late_goto h ht [] rfl rfl (by simp [PoolPC.late]) (by simp [PoolPC.late]) (by simp [PoolPC.draining])
        (by simp [PoolPC.mayLose]) (fun _ h => h) ?_
      intro x hx
      simp [PoolPC.hand] at hx ⊢
      grind
  | closeDrain =>
    dsimp only; split
    · next c q hq =>
      refine late_goto h ht [] rfl ho (by simp [PoolPC.late, PoolPC.mayLose]) (by simp [hq, PoolPC.late]) (by simp [PoolPC.draining]) (by simp [PoolPC.late, PoolPC.mayLose])
        (fun _ h => h) ?_
      intro x hx
      rw [hq] at hx
      simp [PoolPC.hand] at hx ⊢
      grind
    · next hq =>
      exact plain _ _ (by simp [PoolPC.late]) (by simp [hq]) (by simp [PoolPC.mayLose]) (by simp [PoolPC.hand])
  | closeOne c =>
    refine late_goto h ht [] rfl ho (by simp [PoolPC.late]) (by simp [PoolPC.late]) (by simp [PoolPC.draining])
      (by simp [PoolPC.mayLose]) (fun _ h => List.mem_cons_of_mem _ h) ?_
    intro x hx
    simp [PoolPC.hand] at hx ⊢
    grind

theorem late_tev {cfg : PoolCfg} {s0 s : TPool} (h : LateInv s0 s) (ev : PoolTEv) : LateInv s0 (s.tev cfg ev) := by
  cases ev with
  | callGet i =>
    simp only [TPool.tev]; split
    · next t ht =>
      split
      · next e =>
        refine late_goto h ht [] rfl h.off (by simp [PoolPC.late]) (by simp [PoolPC.late]) (by simp [PoolPC.draining, e])
          (by simp [PoolPC.mayLose]) (fun _ h => h) ?_
        intro x hx
        simp [PoolPC.hand, e] at hx ⊢
        grind
      · exact h
    · exact h
  | callPut i c =>
    simp only [TPool.tev]; split
    · next t ht =>
      split
      · next e =>
        refine late_goto h ht [] rfl h.off (by simp [PoolPC.late]) (by simp [PoolPC.late]) (by simp [PoolPC.draining, e])
          (by simp [PoolPC.mayLose]) (fun _ h => h) ?_
        intro x hx
        simp [PoolPC.hand, e] at hx ⊢
        by_cases hxc : x = c
        · exact .inr (.inr (.inr hxc))
        · have := List.mem_erase_of_ne (l := t.held) hxc
          grind
      · exact h
    · exact h
  | callClose i =>
    simp only [TPool.tev]; split
    · next t ht =>
      split
      · next e =>
        refine late_goto h ht [] rfl h.off (by simp [PoolPC.late]) (by simp [PoolPC.late]) (by simp [PoolPC.draining, e])
          (by simp [PoolPC.mayLose]) (fun _ h => h) ?_
        intro x hx
        simp [PoolPC.hand, e] at hx ⊢
        grind
      · exact h
    · exact h
  | userClose i c =>
    simp only [TPool.tev]; split
    · split
      · refine ⟨h.off, h.puts, h.drained, ?_⟩
        obtain ⟨L, h1, h2⟩ := h.books
        refine ⟨L, h1, fun x hx => ?_⟩
        rcases h2 x hx with (h3 | h3) | h3
        · exact .inl (.inl (List.mem_cons_of_mem _ h3))
        · exact .inl (.inr h3)
        · exact .inr h3
      · exact h
    · exact h
  | step i b =>
    simp only [TPool.tev]; split
    · next t ht => exact late_act h ht b
    · exact h

theorem late_run {cfg : PoolCfg} {s0 s : TPool} (h : LateInv s0 s) (evs : List PoolTEv) :
    LateInv s0 (evs.foldl (TPool.tev cfg) s) := by
  induction evs generalizing s with
  | nil => exact h
  | cons e evs ih => exact ih (late_tev h e)

/-! ## C123 -/

/-- `close` disables the pool in this step of thread `i` (connection_pool.py:169), which will then empty the queue. -/
def Disables (cfg : PoolCfg) (s s0 : TPool) : Prop :=
  ∃ (i : Nat) (t : PoolThr) (b : Bool), s.thr[i]? = some t ∧ t.pc = .closeStore true ∧ s0 = s.tev cfg (.step i b)

/-- C123, as one would expect it: when a pool has been closed and all calls have ended, every connection that was in the pool
or in use when it was disabled is closed or still held by a user. -/
def C123_full : Prop :=
  ∀ (cfg : PoolCfg) (p : CPool) (n : Nat) (evs evs2 : List PoolTEv) (s0 : TPool), CPool.init cfg = .ok p →
    Disables cfg (tpRun cfg p n evs) s0 →
    let s2 := evs2.foldl (TPool.tev cfg) s0
    s2.quiet → ∀ c, s0.has c → c ∈ s2.closed ∨ ∃ t ∈ s2.thr, c ∈ t.held

instance (s : TPool) : Decidable s.quiet := inferInstanceAs (Decidable (∀ t ∈ s.thr, t.pc = .idle))

/-- The code violates C123: thread 0 has evaluated `self.pool` in `put_conn`, thread 1 closes the pool and empties the queue,
then thread 0 puts its connection into the queue that nobody looks at any more. -/
theorem C123_violated : ¬ C123_full := by
  intro h
  have := h { minFree := 0 } { free := some [0], num := 1, made := 1 } 2
    [.callGet 0, .step 0 false, .step 0 false, .step 0 false, .step 0 false, .step 0 false, .callPut 0 0, .step 0 false,
      .callClose 1, .step 1 false]
    [.step 1 false, .step 0 false] _ rfl ⟨1, ⟨.closeStore true, []⟩, false, by decide, rfl, rfl⟩ (by decide) 0
    (.inr (.inr ⟨⟨.putPut .user 0, []⟩, by decide, .inr (by decide)⟩))
  revert this
  decide

/-- It is also violated by a thread that takes a connection out of the queue after the pool has been disabled: it gets a
`ClosedPoolError` and nobody has the connection any more. -/
theorem C123_violated_by_get : ¬ C123_full := by
  intro h
  have := h { minFree := 0 } { free := some [0], num := 1, made := 1 } 2
    [.callGet 0, .step 0 false, .callClose 1, .step 1 false]
    [.step 0 false, .step 0 false, .step 1 false] _ rfl ⟨1, ⟨.closeStore true, []⟩, false, by decide, rfl, rfl⟩ (by decide) 0
    (.inr (.inl (by decide)))
  revert this
  decide

/-- C123, what holds. Let the pool be disabled, with threads anywhere in their calls. Whatever happens afterwards, when all
calls have ended, every connection that was closed, in the queue, held or in the hands of a running call at that moment, or has
been made since, is closed or held by a user, except
* those left in the queue: not more than there were threads between the evaluation of `self.pool` in `put_conn` and the put;
* those in `L`: not more than there were threads between the evaluation of `self.pool` in `get_conn` and the end of the
  replenishing.
So if no thread was at one of these points, nothing is left open but what users hold. -/
theorem C123_bounded_leak_partial (cfg : PoolCfg) (p : CPool) (n : Nat) (evs evs2 : List PoolTEv) (s0 : TPool)
    (hs : Disables cfg (tpRun cfg p n evs) s0) (hq : (evs2.foldl (TPool.tev cfg) s0).quiet) :
    let s2 := evs2.foldl (TPool.tev cfg) s0
    s2.isOpen = false ∧ s2.queue.length ≤ s0.count PoolPC.late ∧
    ∃ L : List Nat, L.length ≤ s0.count PoolPC.mayLose ∧
      ∀ c, (s0.has c ∨ s0.made ≤ c ∧ c < s2.made) →
        c ∈ s2.closed ∨ (∃ t ∈ s2.thr, c ∈ t.held) ∨ c ∈ s2.queue ∨ c ∈ L := by
  intro s2
  obtain ⟨i, t, b, ht, hpc, rfl⟩ := hs
  have hstart : LateInv ((tpRun cfg p n evs).tev cfg (.step i b)) ((tpRun cfg p n evs).tev cfg (.step i b)) := by
    generalize tpRun cfg p n evs = s at *
    have he : s.tev cfg (.step i b) = { s with isOpen := false }.goto i { t with pc := .closeDrain } := by
      simp only [TPool.tev, ht, TPool.act, hpc]; rfl
    rw [he]
    refine ⟨rfl, Nat.le_refl _, .inl ⟨{ t with pc := .closeDrain }, List.mem_of_getElem? (thr_goto ht), rfl⟩, [],
      by simp, fun c hc => ?_⟩
    rcases hc with hc | hc
    · exact .inl hc
    · omega
  have h : LateInv _ s2 := late_run hstart evs2
  have hz : s2.count PoolPC.late = 0 := count_zero fun t ht => by rw [hq t ht]; rfl
  obtain ⟨L, h1, h2⟩ := h.books
  refine ⟨h.off, ?_, L, by omega, fun c hc => ?_⟩
  · rcases h.drained with ⟨u, hu, hd⟩ | hle
    · rw [hq u hu] at hd; cases hd
    · omega
  · rcases h2 c hc with (h3 | h3 | ⟨u, hu, h3 | h3⟩) | h3
    · exact .inl h3
    · exact .inr (.inr (.inl h3))
    · exact .inr (.inl ⟨u, hu, h3⟩)
    · rw [hq u hu] at h3; simp [PoolPC.hand] at h3
    · exact .inr (.inr (.inr h3))

/-- A thread is at a harmless point of `get_conn` (it has not evaluated `self.pool` yet), another one holds a connection and
puts it back later: everything is closed in the end. -/
example : let cfg : PoolCfg := { initial := 3, minFree := 0 }
    let s := tpRun cfg { free := some [2, 1, 0], num := 3, made := 3 } 3
      [.callGet 0, .step 0 false, .step 0 false, .step 0 false, .step 0 false, .step 0 false, .callGet 2, .callClose 1, .step 1 false]
    let s0 := s.tev cfg (.step 1 false)
    let s2 := [.step 2 false, .step 1 false, .callPut 0 2, .step 0 false, .step 1 false, .step 0 false, .step 1 false,
      .step 1 false, .step 1 false].foldl (TPool.tev cfg) s0
    Disables cfg s s0 ∧ s2.quiet ∧ s0.count PoolPC.late = 0 ∧ s0.count PoolPC.mayLose = 0 ∧ s2.closed = [0, 2, 1] := by
  exact ⟨⟨1, ⟨.closeStore true, []⟩, false, by decide⟩, by decide⟩

/-! ## C124 -/

/-- C124, as one would expect it: closing a pool ends the calls that wait for a connection. In every state of a closed pool, a
thread in `get_conn` can come to the end of its call without its timeout expiring. -/
def C124_full : Prop :=
  ∀ (cfg : PoolCfg) (p : CPool) (n : Nat) (evs : List PoolTEv) (i : Nat) (t : PoolThr), CPool.init cfg = .ok p →
    let s := tpRun cfg p n evs
    s.isOpen = false → s.thr[i]? = some t → t.pc = .getPop →
    ∃ evs2 : List PoolTEv, .step i true ∉ evs2 ∧ ∃ t' : PoolThr, (evs2.foldl (TPool.tev cfg) s).thr[i]? = some t' ∧ t'.pc = .idle

/-- nothing can come into the queue of a closed pool any more -/
structure StuckInv (i : Nat) (s : TPool) : Prop where
  off : s.isOpen = false
  empty : s.queue = []
  noput : ∀ t ∈ s.thr, t.pc.late = false
  waits : ∃ t : PoolThr, s.thr[i]? = some t ∧ t.pc = .getPop

theorem stuck_goto {i j : Nat} {s s1 : TPool} {t' : PoolThr} (h : StuckInv i s) (hij : j ≠ i) (e : s1.thr = s.thr)
    (ho : s1.isOpen = false) (hq : s1.queue = []) (hl : t'.pc.late = false) : StuckInv i (s1.goto j t') := by
  refine ⟨ho, hq, fun u hu => ?_, ?_⟩
  · obtain ⟨k, hk⟩ := List.mem_iff_getElem?.1 hu
    rcases getElem?_goto hk with ⟨-, rfl⟩ | ⟨-, h2⟩
    · exact hl
    · rw [e] at h2; exact h.noput u (List.mem_of_getElem? h2)
  · obtain ⟨t, h1, h2⟩ := h.waits
    exact ⟨t, by rw [thr_goto_ne hij, e]; exact h1, h2⟩

theorem stuck_tev {cfg : PoolCfg} (hb : cfg.block = true) {i : Nat} {s : TPool} (h : StuckInv i s) (ev : PoolTEv)
    (hev : ev ≠ .step i true) : StuckInv i (s.tev cfg ev) := by
  obtain ⟨ti, hti, hpi⟩ := h.waits
  have ne : ∀ j (t : PoolThr), s.thr[j]? = some t → t.pc ≠ .getPop → j ≠ i := by
    rintro j t ht hp rfl
    rw [ht] at hti
    cases hti
    exact hp hpi
  cases ev with
  | callGet j =>
    simp only [TPool.tev]; split
    · next t ht =>
      split
      · next e => exact stuck_goto h (ne j t ht (by rw [e]; simp)) rfl h.off h.empty rfl
      · exact h
    · exact h
  | callPut j c =>
    simp only [TPool.tev]; split
    · next t ht =>
      split
      · next e => exact stuck_goto h (ne j t ht (by rw [e.1]; simp)) rfl h.off h.empty rfl
      · exact h
    · exact h
  | callClose j =>
    simp only [TPool.tev]; split
    · next t ht =>
      split
      · next e => exact stuck_goto h (ne j t ht (by rw [e]; simp)) rfl h.off h.empty rfl
      · exact h
    · exact h
  | userClose j c =>
    simp only [TPool.tev]; split
    · split
      · exact ⟨h.off, h.empty, h.noput, h.waits⟩
      · exact h
    · exact h
  | step j b =>
    simp only [TPool.tev]; split
    · next t ht =>
      by_cases hij : j = i
      · subst hij
        rw [hti] at ht
        cases ht
        have hbf : b = false := by
          cases b with
          | false => rfl
          | true => exact absurd rfl hev
        unfold TPool.act
        rw [hpi, h.empty, hb, hbf]
        exact h
      · have hl := h.noput t (List.mem_of_getElem? ht)
        have G : ∀ (s1 : TPool) (t' : PoolThr), s1.thr = s.thr → s1.isOpen = false → s1.queue = [] → t'.pc.late = false →
            StuckInv i (s1.goto j t') := fun s1 t' a b c d => stuck_goto h hij a b c d
        have ho := h.off
        have hq := h.empty
        obtain ⟨pc, held⟩ := t
        unfold TPool.act
        cases pc with
        | idle => exact h
        | getLoad => dsimp only; split <;> exact G _ _ rfl ho hq rfl
        | getPop =>
          dsimp only; rw [hq]; dsimp only; split
          · split
            · exact G _ _ rfl ho hq rfl
            · exact h
          · next hx => exact absurd hb hx
        | getSize c => dsimp only; split <;> exact G _ _ rfl ho hq rfl
        | getQsize c => dsimp only; split <;> exact G _ _ rfl ho hq rfl
        | newChk k =>
          dsimp only; split
          · exact h
          · split <;> exact G _ _ rfl ho hq rfl
        | newRead k => exact G _ _ rfl ho hq rfl
        | newWrite k r => exact G _ _ rfl ho hq rfl
        | newMake k => cases k <;> exact G _ _ rfl ho hq rfl
        | putLoad k n =>
          dsimp only; split
          · next hx => rw [ho] at hx; cases hx
          · exact G _ _ rfl ho hq rfl
        | putPut k n => cases hl
        | putDecR k n =>
          dsimp only; split
          · exact h
          · exact G _ _ rfl ho hq rfl
        | putDecW k n r => exact G _ _ rfl ho hq rfl
        | putClose k n => cases k <;> exact G _ _ rfl ho hq rfl
        | dropChk c => dsimp only; split <;> exact G _ _ rfl ho hq rfl
        | dropClose c => exact G _ _ rfl ho hq rfl
        | dropDecR c =>
          dsimp only; split
          · exact h
          · exact G _ _ rfl ho hq rfl
        | dropDecW c r => exact G _ _ rfl ho hq rfl
        | closeLoad => exact G _ _ rfl ho hq rfl
        | closeStore o => cases o <;> exact G _ _ rfl rfl hq rfl
        | closeDrain => dsimp only; rw [hq]; exact G _ _ rfl ho hq rfl
        | closeOne c => exact G _ _ rfl ho hq rfl
    · exact h

theorem stuck_run {cfg : PoolCfg} (hb : cfg.block = true) {i : Nat} {s : TPool} (h : StuckInv i s) (evs : List PoolTEv)
    (hev : .step i true ∉ evs) : StuckInv i (evs.foldl (TPool.tev cfg) s) := by
  induction evs generalizing s with
  | nil => exact h
  | cons e evs ih =>
    exact ih (stuck_tev hb h e fun he => hev (by rw [he]; simp)) fun he => hev (List.mem_cons_of_mem _ he)

/-- C124, what holds in a closed pool.
1. A `get_conn` that starts after the pool has been disabled ends with its first step (`ClosedPoolError`).
2. A `get_conn` that waits for a connection of a blocking pool whose queue is empty can go on without its timeout expiring if
   and only if some other thread is just about to put a connection (it had evaluated `self.pool` before); if there is none, it
   waits for ever, whatever the other threads do. -/
theorem C124_blocked_partial (cfg : PoolCfg) (s : TPool) (i : Nat) (t : PoolThr) (hoff : s.isOpen = false)
    (ht : s.thr[i]? = some t) :
    (t.pc = .getLoad → ∀ b, ∃ t' : PoolThr, (s.tev cfg (.step i b)).thr[i]? = some t' ∧ t'.pc = .idle ∧ t'.held = t.held) ∧
    (t.pc = .getPop → cfg.block = true → s.queue = [] →
      ((∃ evs2 : List PoolTEv, .step i true ∉ evs2 ∧
          ∃ t' : PoolThr, (evs2.foldl (TPool.tev cfg) s).thr[i]? = some t' ∧ t'.pc ≠ .getPop) ↔
        ∃ u ∈ s.thr, u.pc.late = true)) := by
  refine ⟨fun hp b => ?_, fun hp hb hq => ⟨?_, ?_⟩⟩
  · refine ⟨{ t with pc := .idle }, ?_, rfl, rfl⟩
    simp only [TPool.tev, ht, TPool.act, hp, hoff]
    exact thr_goto ht
  · rintro ⟨evs2, hev, t', ht', hne⟩
    apply Classical.byContradiction
    intro hno
    have hS : StuckInv i s := ⟨hoff, hq, fun u hu => by
      cases hl : u.pc.late with
      | false => rfl
      | true => exact absurd ⟨u, hu, hl⟩ hno, t, ht, hp⟩
    obtain ⟨t2, h1, h2⟩ := (stuck_run hb hS evs2 hev).waits
    rw [ht'] at h1
    cases h1
    exact hne h2
  · rintro ⟨u, hu, hl⟩
    obtain ⟨j, hj⟩ := List.mem_iff_getElem?.1 hu
    have hji : j ≠ i := by
      rintro rfl
      rw [ht] at hj
      cases hj
      rw [hp] at hl
      cases hl
    obtain ⟨pc, held⟩ := u
    cases pc with
    | putPut k n =>
      refine ⟨[.step j false, .step i false], by simp, { t with pc := .getSize n }, ?_, by simp⟩
      have hfull : CPool.full cfg ([] : List ConnRef) = false := by
        unfold CPool.full
        cases cfg.maxFree <;> simp
      have h1 : ∃ t', s.tev cfg (.step j false) = { s with queue := [n] }.goto j t' := by
        simp only [TPool.tev, hj, TPool.act, hq, hfull]
        cases k <;> exact ⟨_, rfl⟩
      obtain ⟨t', h1⟩ := h1
      simp only [List.foldl_cons, List.foldl_nil, h1]
      have h2 : (({ s with queue := [n] } : TPool).goto j t').thr[i]? = some t := by rw [thr_goto_ne hji]; exact ht
      simp only [TPool.tev, h2, TPool.act, hp]
      exact thr_goto (s := { ({ s with queue := [n] } : TPool).goto j t' with queue := [] }) h2
    | _ => cases hl

/-- The code violates C124: thread 0 waits in `get_conn` of a blocking pool, thread 1 closes the pool; thread 0 waits for
ever. -/
theorem C124_violated : ¬ C124_full := by
  intro h
  obtain ⟨evs2, h1, t', h2, h3⟩ := h { initial := 0, block := true } {} 2
    [.callGet 0, .step 0 false, .step 0 false, .callClose 1, .step 1 false, .step 1 false, .step 1 false] 0 ⟨.getPop, []⟩ rfl
    (by decide) (by decide) rfl
  have h4 := (C124_blocked_partial { initial := 0, block := true } (tpRun { initial := 0, block := true } {} 2
    [.callGet 0, .step 0 false, .step 0 false, .callClose 1, .step 1 false, .step 1 false, .step 1 false]) 0 ⟨.getPop, []⟩
    (by decide) (by decide)).2 rfl rfl (by decide)
  obtain ⟨u, hu, hl⟩ := h4.1 ⟨evs2, h1, t', h2, by rw [h3]; simp⟩
  revert u
  decide

/-- a waiting thread that is saved by a late put -/
example : let cfg : PoolCfg := { initial := 1, block := true, minFree := 0 }
    let s := tpRun cfg { free := some [0], num := 1, made := 1 } 3
      [.callGet 0, .step 0 false, .step 0 false, .step 0 false, .step 0 false, .step 0 false, .callGet 2, .step 2 false,
        .callPut 0 0, .step 0 false, .callClose 1, .step 1 false, .step 1 false, .step 1 false]
    s.isOpen = false ∧ s.queue = [] ∧ s.thr[2]? = some ⟨.getPop, []⟩ ∧ s.thr[0]? = some ⟨.putPut .user 0, []⟩ := by
  decide

end Bolt
