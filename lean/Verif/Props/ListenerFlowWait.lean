import Verif.Props.ListenerFlow
/-!
# C164: back pressure holds responses up only as long as the socket takes nothing
-/
namespace Bolt
open Spec

namespace Spec

/-- the coroutine is in `_write_msg` or in the closing sequence -/
def Writes (s : LFSt) : LWho → Prop
  | .task i => ∃ t, s.l.tasks[i]? = some t ∧ (t.st = .ended ∨ ∃ m, t.st = .writing m)
  | .reader => s.dead = false ∧ (s.hold = true ∨ s.l.tail ≠ .reading)

/-- how many bytes the socket can take with this event -/
def offered : LFEv → Nat
  | .turn _ k | .take k => k
  | _ => 0

end Spec

/-! ## the flow control -/

/-- the flow control of the connection is in order -/
structure LFlow (c : FlowCfg) (s : LFSt) : Prop where
  wait : s.waiters ≠ [] → s.l.lost = false ∧ s.paused = true
  low : s.l.lost = false → s.paused = true → c.low < s.buf
  high : s.l.lost = false → s.paused = false → s.buf ≤ c.high
  woken : s.l.lost = false → ∀ x ∈ s.woken, x.2 = true
  disj : ∀ x ∈ s.woken, x.1 ∉ s.waiters

theorem LFlow.congr {c : FlowCfg} {s s' : LFSt} (h : LFlow c s) (h1 : s'.l.lost = s.l.lost) (h2 : s'.waiters = s.waiters)
    (h3 : s'.paused = s.paused) (h4 : s'.buf = s.buf) (h5 : s'.woken = s.woken) : LFlow c s' := by
  constructor
  · rw [h1, h2, h3]; exact h.wait
  · rw [h1, h3, h4]; exact h.low
  · rw [h1, h3, h4]; exact h.high
  · rw [h1, h5]; exact h.woken
  · rw [h2, h5]; exact h.disj

theorem LFlow.drain {c : FlowCfg} {s : LFSt} (h : LFlow c s) (w : LWho) :
    LFlow c (s.drain c w).1 ∧ ((s.drain c w).2 ≠ none → w ∉ (s.drain c w).1.waiters) ∧
      (∀ x, x ∈ (s.drain c w).1.waiters → x ∈ s.waiters ∨ x = w) := by
  unfold LFSt.drain
  split
  · next x hx =>
    have hw : x.1 = w := by simpa using List.find?_some hx
    refine ⟨⟨h.wait, h.low, h.high, fun hl y hy => h.woken hl y (List.mem_filter.1 hy).1,
      fun y hy => h.disj y (List.mem_filter.1 hy).1⟩, fun _ => ?_, fun _ => .inl⟩
    exact hw ▸ h.disj x (List.mem_of_find?_eq_some hx)
  · next hx =>
    have hx : ∀ y ∈ s.woken, y.1 ≠ w := by
      intro y hy
      simpa using (List.find?_eq_none.1 hx) y hy
    split
    · exact ⟨h, fun x => absurd rfl x, fun _ => .inl⟩
    · next hw =>
      split
      · exact ⟨h, fun _ => hw, fun _ => .inl⟩
      · next hl =>
        have hl : s.l.lost = false := by simpa using hl
        split
        · next hp =>
          split
          · refine ⟨⟨fun _ => ⟨hl, hp⟩, h.low, h.high, h.woken, ?_⟩, fun x => absurd rfl x, ?_⟩
            · intro y hy hm
              rcases List.mem_append.1 hm with hm | hm
              · exact h.disj y hy hm
              · exact hx y hy (by simpa using hm)
            · intro x hx
              rcases List.mem_append.1 hx with hm | hm
              · exact .inl hm
              · exact .inr (by simpa using hm)
          · exact ⟨h, fun _ => hw, fun _ => .inl⟩
        · exact ⟨h, fun _ => hw, fun _ => .inl⟩

theorem LFlow.buffer {c : FlowCfg} (hc : c.low ≤ c.high) {s : LFSt} (h : LFlow c s) (n k : Nat) :
    LFlow c (s.buffer c n k) := by
  unfold LFSt.buffer
  split
  · exact h
  · dsimp only
    generalize (if s.buf = 0 then n - k else n) = rest
    refine ⟨fun hw => ⟨(h.wait hw).1, by simp [(h.wait hw).2]⟩, fun hl hp => ?_, fun hl hp => ?_, h.woken, h.disj⟩
    · dsimp only at hl hp ⊢
      cases hq : s.paused with
      | true => have := h.low hl hq; omega
      | false => simp [hq] at hp; omega
    · dsimp only at hl hp ⊢
      cases hq : s.paused with
      | true => simp [hq] at hp
      | false =>
        have := h.high hl hq
        simp only [hq, Bool.false_or, Bool.and_eq_false_imp, decide_eq_true_eq, decide_eq_false_iff_not] at hp
        by_cases hr : rest = 0
        · omega
        · have := hp hr; omega

/-- the tasks that write -/
theorem LSt.dispatch_tasks (svc : Services) (s : LSt) (i : Nat) (t : Task) (r : Req) (fresh : PyStr) (j : Nat) (hj : j ≠ i) :
    (s.dispatch svc i t r fresh).tasks[j]? = s.tasks[j]? := by
  have key : ∀ t' : Task, (s.tasks.set i t')[j]? = s.tasks[j]? := fun t' => List.getElem?_set_ne (Ne.symm hj)
  unfold LSt.dispatch LSt.setTask
  repeat' (first | exact key _ | split | dsimp only)

/-- the state is one of writing -/
def TaskSt.writes : TaskSt → Prop
  | .ended | .writing _ => True
  | _ => False

theorem TaskSt.writes_iff (t : TaskSt) : t.writes ↔ (t = .ended ∨ ∃ m, t = .writing m) := by
  cases t <;> simp [TaskSt.writes]

/-- events from outside do not touch tasks that write or have ended -/
theorem lstep_outside_writes (svc : Services) (s : LSt) (e : LEv) (h : e.outside = true) (j : Nat) (t : Task)
    (hj : s.tasks[j]? = some t) (hw : t.st.writes) : (lstep svc s e).tasks[j]? = some t := by
  have other : ∀ (s' : LSt) (i : Nat) (t' u : Task), s'.tasks = s.tasks → s.tasks[i]? = some u → ¬ u.st.writes →
      (s'.setTask i t').tasks[j]? = some t := by
    intro s' i t' u h1 h2 h3
    have : j ≠ i := by
      intro e
      rw [e, h2] at hj
      injection hj with hj
      exact h3 (hj ▸ hw)
    simp only [LSt.setTask, h1, List.getElem?_set_ne (Ne.symm this), hj]
  cases e with
  | reader => cases h
  | write i => cases h
  | reset => cases h
  | run i fresh =>
    unfold lstep
    dsimp only
    split
    · next u hu =>
      split
      · next r hst _ =>
        rw [LSt.dispatch_tasks _ _ _ _ _ _ _ (fun e => by
          rw [e, hu] at hj
          injection hj with hj
          rw [← hj, hst] at hw
          exact hw)]
        exact hj
      · exact hj
    · exact hj
  | result i =>
    unfold lstep
    dsimp only
    split
    · next u hu =>
      split
      · next hst _ _ =>
        split
        · exact hj
        · exact other s i _ u rfl hu (by rw [hst]; exact id)
        · exact hj
      · exact hj
    · exact hj
  | expire i =>
    unfold lstep
    dsimp only
    split
    · next u hu =>
      split
      · next hst _ _ =>
        split
        · refine other _ i _ u ?_ hu (by rw [hst]; exact id)
          unfold LSt.cancelFut LSt.setFut
          split <;> rfl
        · exact hj
      · exact hj
    · exact hj
  | _ =>
    unfold lstep LSt.setFut
    dsimp only
    repeat' split
    all_goals exact hj

/-- everyone who waits is in a `drain` -/
def LFWrites (s : LFSt) : Prop := ∀ w ∈ s.waiters, Writes s w

theorem LSt.reader_tasks (s : LSt) (j : Nat) (t : Task) (h : s.tasks[j]? = some t) : s.reader.tasks[j]? = some t := by
  have happ : ∀ t' : Task, (s.tasks ++ [t'])[j]? = some t := fun t' => by
    rw [List.getElem?_append_left (List.getElem?_eq_some_iff.1 h).1]; exact h
  unfold LSt.reader LSt.write LSt.perform
  repeat' (first | split | exact h | exact happ _ | dsimp only)

theorem LFlow.turnTask {c : FlowCfg} (hc : c.low ≤ c.high) {svc : Services} {s : LFSt} (h : LFlow c s) (hw : LFWrites s)
    (i k : Nat) : LFlow c (s.turnTask c svc i k) ∧ LFWrites (s.turnTask c svc i k) := by
  have hfr := s.turnTask_frame c svc i k
  have keep : ∀ s' : LFSt, s' = s.turnTask c svc i k → (∀ j, j ≠ i → s'.l.tasks[j]? = s.l.tasks[j]?) →
      (∀ x ∈ s'.waiters, x ∈ s.waiters ∨ x = .task i) →
      (.task i ∈ s'.waiters → ∃ t, s'.l.tasks[i]? = some t ∧ (t.st = .ended ∨ ∃ m, t.st = .writing m)) → LFWrites s' := by
    intro s' e ht hx hi w hm
    subst e
    cases w with
    | reader =>
      have := hw .reader ((hx _ hm).resolve_right (by simp))
      exact ⟨hfr.2.2.2.trans this.1, by rw [hfr.2.2.1, hfr.1.2.1]; exact this.2⟩
    | task j =>
      by_cases e : j = i
      · subst e; exact hi hm
      · obtain ⟨t, h1, h2⟩ := hw (.task j) ((hx _ hm).resolve_right (by simpa using e))
        exact ⟨t, by rw [ht j e]; exact h1, h2⟩
  have heq : s.turnTask c svc i k = s.turnTask c svc i k := rfl
  revert keep heq
  generalize hR : s.turnTask c svc i k = R
  intro keep heq
  rw [← hR] at keep ⊢
  clear heq hR
  have keep := keep _ rfl
  revert keep
  unfold LFSt.turnTask
  split
  · next hn => exact fun _ => ⟨h, hw⟩
  · next t ht =>
    have hlt : i < s.l.tasks.length := (List.getElem?_eq_some_iff.1 ht).1
    split
    · next m hm =>
      have hd := h.drain (w := .task i)
      have hf := s.drain_frame c (.task i)
      rcases hres : s.drain c (.task i) with ⟨s1, o⟩
      rw [hres] at hd hf
      obtain ⟨h1, hno, hin⟩ := hd
      dsimp only at h1 hno hin hf
      rcases o with - | - | -
      · dsimp only
        intro keep
        exact ⟨h1, keep (fun j _ => by rw [hf.1]) hin fun _ => ⟨t, by rw [hf.1]; exact ht, .inr ⟨m, hm⟩⟩⟩
      · dsimp only
        intro keep
        refine ⟨h1.congr rfl rfl rfl rfl rfl, keep (fun j hj => ?_) hin fun x => absurd x (hno (by simp))⟩
        simp only [LSt.setTask, hf.1, List.getElem?_set_ne (Ne.symm hj)]
      · dsimp only
        have bf := s1.buffer_frame c m.length k
        have wf := lstep_write_frame svc s1.l i
        have htk : (lstep svc s1.l (.write i)).tasks = s1.l.tasks.set i { t with st := .ended } := by
          rw [hf.1]
          simp only [lstep, ht, hm, LSt.write, LSt.setTask]
          split <;> rfl
        have hother : ∀ j, j ≠ i → (lstep svc s1.l (.write i)).tasks[j]? = s.l.tasks[j]? := by
          intro j hj
          rw [htk, hf.1, List.getElem?_set_ne (Ne.symm hj)]
        have hself : (lstep svc s1.l (.write i)).tasks[i]? = some { t with st := .ended } := by
          rw [htk, hf.1, List.getElem?_set_self hlt]
        have h2 : LFlow c { s1.buffer c m.length k with l := lstep svc s1.l (.write i) } :=
          (h1.buffer hc m.length k).congr (by rw [bf.1]; exact wf.1) rfl rfl rfl rfl
        split
        · intro keep
          exact ⟨h2, keep hother (fun x hx => hin x (by rw [← bf.2.1]; exact hx)) fun _ => ⟨_, hself, .inl rfl⟩⟩
        · intro keep
          have h3 := h2.drain (w := .task i)
          have f3 := (LFSt.drain_frame c { s1.buffer c m.length k with l := lstep svc s1.l (.write i) } (.task i)).1
          refine ⟨h3.1, keep (fun j hj => by rw [f3]; exact hother j hj) (fun x hx => ?_) fun _ =>
            ⟨_, by rw [f3]; exact hself, .inl rfl⟩⟩
          rcases h3.2.2 x hx with hx | hx
          · exact hin x (by rw [← bf.2.1]; exact hx)
          · exact .inr hx
    · exact fun _ => ⟨⟨h.wait, h.low, h.high, fun hl x hx => h.woken hl x (List.mem_filter.1 hx).1,
        fun x hx => h.disj x (List.mem_filter.1 hx).1⟩, hw⟩

theorem LFlow.turnReader {c : FlowCfg} (hc : c.low ≤ c.high) {svc : Services} {s : LFSt} (h : LFlow c s) (hw : LFWrites s)
    (k : Nat) : LFlow c (s.turnReader c svc k) ∧ LFWrites (s.turnReader c svc k) := by
  -- tasks stay in place, the reader waits only where it is in a `drain`
  have keep : ∀ s' : LFSt, (∀ (j : Nat) (t : Task), s.l.tasks[j]? = some t → s'.l.tasks[j]? = some t) →
      (∀ x ∈ s'.waiters, x ∈ s.waiters ∨ x = .reader) → (.reader ∈ s'.waiters → Writes s' .reader) → LFWrites s' := by
    intro s' ht hx hr w hm
    cases w with
    | reader => exact hr hm
    | task j =>
      obtain ⟨t, h1, h2⟩ := hw (.task j) ((hx _ hm).resolve_right (by simp))
      exact ⟨t, ht j t h1, h2⟩
  unfold LFSt.turnReader
  split
  · exact ⟨h, hw⟩
  next hdd =>
  have hdd : s.dead = false := by simpa using hdd
  have hd := h.drain (w := .reader)
  have hf := s.drain_frame c .reader
  rcases hres : s.drain c .reader with ⟨s1, o⟩
  rw [hres] at hd hf
  obtain ⟨h1, hno, hin⟩ := hd
  dsimp only at h1 hno hin hf
  have die : ∀ s2 : LFSt, LFlow c s2 → (∀ (j : Nat) (t : Task), s.l.tasks[j]? = some t → s2.l.tasks[j]? = some t) →
      (∀ x ∈ s2.waiters, x ∈ s.waiters ∨ x = .reader) → .reader ∉ s2.waiters → LFlow c s2.die ∧ LFWrites s2.die := by
    intro s2 a1 a2 a3 a4
    exact ⟨a1.congr rfl rfl rfl rfl rfl, keep _ a2 a3 fun x => absurd x a4⟩
  have ht1 : ∀ (j : Nat) (t : Task), s.l.tasks[j]? = some t → s1.l.tasks[j]? = some t := fun j t x => by rw [hf.1]; exact x
  split
  · next hh =>
    rcases o with - | - | -
    · exact ⟨h1, keep _ ht1 hin fun _ => ⟨hf.2.2.2.2.trans hdd, .inl (hf.2.2.2.1.trans hh)⟩⟩
    · exact die s1 h1 ht1 hin (hno (by simp))
    · exact ⟨h1.congr rfl rfl rfl rfl rfl, keep _ ht1 hin fun x => absurd x (hno (by simp))⟩
  · next hh =>
    have hh : s.hold = false := by simpa using hh
    split
    · next ht =>
      refine ⟨h.congr (LSt.reader_lost _) rfl rfl rfl rfl, keep _ (fun j t x => LSt.reader_tasks _ j t x) (fun x => .inl) ?_⟩
      intro x
      have := hw .reader x
      rcases this.2 with y | y
      · rw [hh] at y; cases y
      · exact absurd ht y
    · next m ht =>
      rcases o with - | - | -
      · exact ⟨h1, keep _ ht1 hin fun _ => ⟨hf.2.2.2.2.trans hdd, .inr (by rw [hf.1, ht]; simp)⟩⟩
      · exact die s1 h1 ht1 hin (hno (by simp))
      · dsimp only
        have bf := s1.buffer_frame c m.length k
        have h2 : LFlow c { s1.buffer c m.length k with l := lstep svc s1.l .reader } :=
          (h1.buffer hc m.length k).congr (by rw [bf.1]; exact LSt.reader_lost _) rfl rfl rfl rfl
        have h3 := h2.drain (w := .reader)
        have hf3 := LFSt.drain_frame c { s1.buffer c m.length k with l := lstep svc s1.l .reader } .reader
        rcases hres3 : LFSt.drain c { s1.buffer c m.length k with l := lstep svc s1.l .reader } .reader with ⟨s3, o3⟩
        rw [hres3] at h3 hf3
        obtain ⟨h3, hno3, hin3⟩ := h3
        dsimp only at h3 hno3 hin3 hf3 ⊢
        have ht3 : ∀ (j : Nat) (t : Task), s.l.tasks[j]? = some t → s3.l.tasks[j]? = some t := fun j t x => by
          rw [hf3.1]; exact LSt.reader_tasks _ j t (ht1 j t x)
        have hx3 : ∀ x ∈ s3.waiters, x ∈ s.waiters ∨ x = .reader := fun x hx => by
          rcases hin3 x hx with hx | hx
          · exact hin x (by rw [← bf.2.1]; exact hx)
          · exact .inr hx
        rcases o3 with - | - | -
        · refine ⟨h3.congr rfl rfl rfl rfl rfl, keep _ ht3 hx3 fun _ => ⟨?_, .inl rfl⟩⟩
          show s3.dead = false
          rw [hf3.2.2.2.2, show _ = _ from bf.2.2.2.2.1, hf.2.2.2.2]; exact hdd
        · exact die s3 h3 ht3 hx3 (hno3 (by simp))
        · exact ⟨h3, keep _ ht3 hx3 fun x => absurd x (hno3 (by simp))⟩
    · next m ht =>
      rcases o with - | - | -
      · exact ⟨h1, keep _ ht1 hin fun _ => ⟨hf.2.2.2.2.trans hdd, .inr (by rw [hf.1, ht]; simp)⟩⟩
      · dsimp only
        refine ⟨h1.congr (LSt.reader_lost _) rfl rfl rfl rfl, keep _ (fun j t x => LSt.reader_tasks _ j t ?_) hin
          fun x => absurd x (hno (by simp))⟩
        exact ht1 j t x
      · dsimp only
        have bf := s1.buffer_frame c ((m.map List.length).getD 0) k
        refine ⟨(h1.buffer hc _ k).congr (by rw [bf.1]; exact LSt.reader_lost _) rfl rfl rfl rfl,
          keep _ (fun j t x => LSt.reader_tasks _ j t (ht1 j t x)) (fun x hx => hin x (by rw [← bf.2.1]; exact hx)) ?_⟩
        intro x
        exact absurd (by rw [← bf.2.1]; exact x) (hno (by simp))

theorem LFlow.step {c : FlowCfg} (hc : c.low ≤ c.high) {svc : Services} {s : LFSt} (h : LFlow c s) (hw : LFWrites s)
    (e : LFEv) : LFlow c (lfStep c svc s e) ∧ LFWrites (lfStep c svc s e) := by
  cases e with
  | ev e =>
    unfold lfStep
    dsimp only
    split
    · next he =>
      have a := lstep_outside svc s.l e he
      refine ⟨h.congr a.1 rfl rfl rfl rfl, fun w hm => ?_⟩
      have := hw w hm
      cases w with
      | reader => exact ⟨this.1, by rw [show _ = _ from a.2.1]; exact this.2⟩
      | task j =>
        obtain ⟨t, h1, h2⟩ := this
        exact ⟨t, lstep_outside_writes svc s.l e he j t h1 ((TaskSt.writes_iff _).2 h2), h2⟩
    · exact ⟨h, hw⟩
  | turn w k =>
    cases w with
    | task i => exact h.turnTask hc hw i k
    | reader => exact h.turnReader hc hw k
  | take k =>
    unfold lfStep
    dsimp only
    split
    · exact ⟨h, hw⟩
    · next hl =>
      have hl : s.l.lost = false := by simpa using hl
      split
      · next hp =>
        simp only [Bool.and_eq_true, decide_eq_true_eq] at hp
        refine ⟨⟨fun x => absurd rfl x, fun _ x => (by cases x), fun _ _ => ?_, fun _ x hx => ?_, fun _ _ x => (by cases x)⟩,
          fun w x => (by cases x)⟩
        · dsimp only; omega
        · rcases List.mem_append.1 hx with hx | hx
          · exact h.woken hl x hx
          · obtain ⟨w, -, rfl⟩ := List.mem_map.1 hx; rfl
      · next hp =>
        refine ⟨⟨h.wait, fun _ x => ?_, fun _ x => ?_, h.woken, h.disj⟩, hw⟩
        · dsimp only at x ⊢
          simp only [x, Bool.true_and, decide_eq_true_eq, Nat.not_le] at hp
          exact hp
        · have := h.high hl x
          dsimp only; omega
  | reset =>
    refine ⟨⟨fun x => absurd rfl x, fun x => (by cases x), fun x => (by cases x), fun x => (by cases x),
      fun _ _ x => (by cases x)⟩, fun w x => (by cases x)⟩

theorem LFlow.run {c : FlowCfg} (hc : c.low ≤ c.high) (svc : Services) (reg : Registry) (evs : List LFEv) :
    LFlow c (lfRun c svc reg evs) ∧ LFWrites (lfRun c svc reg evs) := by
  induction evs using snoc_induct with
  | nil =>
    exact ⟨⟨fun x => absurd rfl x, fun _ x => (by cases x), fun _ _ => Nat.zero_le _, fun _ _ x => (by cases x),
      fun _ x => (by cases x)⟩, fun _ x => (by cases x)⟩
  | snoc evs e ih => rw [lfRun_snoc]; exact ih.1.step hc ih.2 e

/-! ## who goes on -/

theorem LFlow.drain_up {c : FlowCfg} {s : LFSt} (h : LFlow c s) (hl : s.l.lost = false) (hp : s.paused = false) (w : LWho) :
    (s.drain c w).2 = some true := by
  have hw : s.waiters = [] := by
    cases hx : s.waiters with
    | nil => rfl
    | cons a l => have := (h.wait (by simp [hx])).2; rw [hp] at this; cases this
  unfold LFSt.drain
  split
  · next x hx => simp [h.woken hl x (List.mem_of_find?_eq_some hx)]
  · simp [hw, hl, hp]

theorem LFSt.turnTask_returns {c : FlowCfg} {svc : Services} {s : LFSt} {i : Nat} {t : Task} {m : Bytes}
    (ht : s.l.tasks[i]? = some t) (hm : t.st = .writing m) (hd : (s.drain c (.task i)).2 = some true) (k : Nat) :
    (s.turnTask c svc i k).l = lstep svc s.l (.write i) := by
  unfold LFSt.turnTask
  rw [ht]
  dsimp only
  rw [hm]
  dsimp only
  have hf := (s.drain_frame c (.task i)).1
  rcases hres : s.drain c (.task i) with ⟨s2, o⟩
  rw [hres] at hd hf
  dsimp only at hd hf
  subst hd
  dsimp only
  split
  · rw [hf]
  · rw [(LFSt.drain_frame c _ (.task i)).1, hf]

theorem LFSt.turnTask_raises {c : FlowCfg} {svc : Services} {s : LFSt} {i : Nat} {t : Task} {m : Bytes}
    (ht : s.l.tasks[i]? = some t) (hm : t.st = .writing m) (hd : (s.drain c (.task i)).2 = some false) (k : Nat) :
    (s.turnTask c svc i k).l = s.l.setTask i { t with st := .ended } := by
  unfold LFSt.turnTask
  rw [ht]
  dsimp only
  rw [hm]
  dsimp only
  have hf := (s.drain_frame c (.task i)).1
  rcases hres : s.drain c (.task i) with ⟨s2, o⟩
  rw [hres] at hd hf
  dsimp only at hd hf
  subst hd
  dsimp only
  rw [hf]

theorem LFSt.turnTask_waits {c : FlowCfg} {svc : Services} {s : LFSt} {i : Nat} {t : Task} {m : Bytes}
    (ht : s.l.tasks[i]? = some t) (hm : t.st = .writing m) (hd : (s.drain c (.task i)).2 = none) (k : Nat) :
    s.turnTask c svc i k = (s.drain c (.task i)).1 := by
  unfold LFSt.turnTask
  rw [ht]
  dsimp only
  rw [hm]
  dsimp only
  rcases hres : s.drain c (.task i) with ⟨s2, o⟩
  rw [hres] at hd
  dsimp only at hd
  subst hd
  rfl

/-- when enough has been taken -/
theorem LFlow.takes {c : FlowCfg} (hc : c.low ≤ c.high) {svc : Services} {s : LFSt} (h : LFlow c s) (hw : LFWrites s)
    (hl : s.l.lost = false) {k : Nat} (hk : s.buf ≤ k + c.low) :
    LFlow c (lfStep c svc s (.take k)) ∧ (lfStep c svc s (.take k)).paused = false ∧ (lfStep c svc s (.take k)).l = s.l ∧
      (lfStep c svc s (.take k)).hold = s.hold ∧ (lfStep c svc s (.take k)).dead = s.dead := by
  refine ⟨(h.step hc hw _).1, ?_⟩
  unfold lfStep
  dsimp only
  rw [hl]
  simp only [Bool.false_eq_true, if_false]
  split
  · exact ⟨rfl, rfl, rfl, rfl⟩
  · next hn =>
    refine ⟨?_, rfl, rfl, rfl⟩
    show s.paused = false
    cases hp : s.paused with
    | false => rfl
    | true => simp [hp] at hn; omega

/-! ## C164 -/

/-- Whoever is suspended by flow control is a coroutine in `_write_msg` or in the closing sequence of a connection that has
not been reset, whose transport has paused the protocol and buffers more than the low limit; the protocol is paused if
more than the high limit is buffered. -/
theorem C164_waits (c : FlowCfg) (hc : c.low ≤ c.high) (svc : Services) (reg : Registry) (evs : List LFEv) :
    (∀ w ∈ (lfRun c svc reg evs).waiters, Writes (lfRun c svc reg evs) w ∧ (lfRun c svc reg evs).l.lost = false ∧
      (lfRun c svc reg evs).paused = true ∧ c.low < (lfRun c svc reg evs).buf) ∧
    ((lfRun c svc reg evs).l.lost = false → (lfRun c svc reg evs).paused = false → (lfRun c svc reg evs).buf ≤ c.high) := by
  obtain ⟨h, hw⟩ := LFlow.run hc svc reg evs
  refine ⟨fun w hm => ?_, h.high⟩
  have := h.wait (fun e => by rw [e] at hm; cases hm)
  exact ⟨hw w hm, this.1, this.2, h.low this.1 this.2⟩

/-- However many wait: once the socket has taken what is buffered, or all but the low limit, every task that has a message
to write writes it as soon as it runs. -/
theorem C164_task (c : FlowCfg) (hc : c.low ≤ c.high) (svc : Services) (reg : Registry) (evs : List LFEv) (i k j : Nat)
    (t : Task) (m : Bytes) (hl : (lfRun c svc reg evs).l.lost = false) (ht : (lfRun c svc reg evs).l.tasks[i]? = some t)
    (hm : t.st = .writing m) (hk : (lfRun c svc reg evs).buf ≤ k + c.low) :
    (lfRun c svc reg (evs ++ [.take k, .turn (.task i) j])).l = lstep svc (lfRun c svc reg evs).l (.write i) := by
  obtain ⟨h, hw⟩ := LFlow.run hc svc reg evs
  have hsplit : lfRun c svc reg (evs ++ [.take k, .turn (.task i) j]) =
      (lfStep c svc (lfRun c svc reg evs) (.take k)).turnTask c svc i j := by
    simp [lfRun, List.foldl_append, lfStep]
  rw [hsplit]
  generalize lfRun c svc reg evs = s at *
  obtain ⟨h1, hp, hl1, -, -⟩ := h.takes hc (svc := svc) hw hl hk
  rw [← hl1] at ht hl ⊢
  exact LFSt.turnTask_returns ht hm (h1.drain_up hl hp _) j

/-- So does the reader: it goes on reading after a message that has been written, writes the one it is about to write, and
closes the connection if that is next. -/
theorem C164_reader (c : FlowCfg) (hc : c.low ≤ c.high) (svc : Services) (reg : Registry) (evs : List LFEv) (k j : Nat)
    (hl : (lfRun c svc reg evs).l.lost = false) (hd : (lfRun c svc reg evs).dead = false)
    (hk : (lfRun c svc reg evs).buf ≤ k + c.low) :
    (lfRun c svc reg (evs ++ [.take k, .turn .reader j])).dead = false ∧
    ((lfRun c svc reg evs).hold = true → (lfRun c svc reg (evs ++ [.take k, .turn .reader j])).hold = false ∧
      (lfRun c svc reg (evs ++ [.take k, .turn .reader j])).l = (lfRun c svc reg evs).l) ∧
    ((lfRun c svc reg evs).hold = false →
      (lfRun c svc reg (evs ++ [.take k, .turn .reader j])).l = lstep svc (lfRun c svc reg evs).l .reader) := by
  obtain ⟨h, hw⟩ := LFlow.run hc svc reg evs
  have hsplit : lfRun c svc reg (evs ++ [.take k, .turn .reader j]) =
      (lfStep c svc (lfRun c svc reg evs) (.take k)).turnReader c svc j := by
    simp [lfRun, List.foldl_append, lfStep]
  rw [hsplit]
  generalize lfRun c svc reg evs = s at *
  obtain ⟨h1, hp, hl1, hh1, hd1⟩ := h.takes hc (svc := svc) hw hl hk
  rw [← hl1] at hl
  rw [← hl1, ← hh1]
  rw [← hd1] at hd
  generalize lfStep c svc s (.take k) = s1 at *
  have hr := h1.drain_up hl hp .reader
  have hf := s1.drain_frame c .reader
  have hq := h1.drain .reader
  rcases hres : s1.drain c .reader with ⟨s2, o⟩
  rw [hres] at hr hf hq
  dsimp only at hr hf hq
  subst hr
  unfold LFSt.turnReader
  rw [if_neg (by rw [hd]; simp)]
  cases hh : s1.hold with
  | true =>
    rw [if_pos rfl, hres]
    exact ⟨hf.2.2.2.2.trans hd, fun _ => ⟨rfl, hf.1⟩, fun x => (by cases x)⟩
  | false =>
    rw [if_neg (by simp)]
    split
    · exact ⟨hd, fun x => (by cases x), fun _ => rfl⟩
    · next m ht =>
      rw [hres]
      dsimp only
      have bf := s2.buffer_frame c m.length j
      have h2 : LFlow c { s2.buffer c m.length j with l := lstep svc s2.l .reader } :=
        (hq.1.buffer hc m.length j).congr (by rw [bf.1]; exact LSt.reader_lost _) rfl rfl rfl rfl
      have hw2 : ({ s2.buffer c m.length j with l := lstep svc s2.l .reader } : LFSt).waiters = [] := by
        show (s2.buffer c m.length j).waiters = []
        rw [bf.2.1]
        cases hx : s2.waiters with
        | nil => rfl
        | cons a l =>
          have := (hq.1.wait (by simp [hx])).2
          rw [hf.2.1, hp] at this; cases this
      have hl2 : ({ s2.buffer c m.length j with l := lstep svc s2.l .reader } : LFSt).l.lost = false := by
        show s2.l.reader.lost = false
        rw [LSt.reader_lost, hf.1]; exact hl
      have hf3 := LFSt.drain_frame c { s2.buffer c m.length j with l := lstep svc s2.l .reader } .reader
      have hne : (LFSt.drain c { s2.buffer c m.length j with l := lstep svc s2.l .reader } .reader).2 ≠ some false := by
        unfold LFSt.drain
        split
        · next x hx => simp [h2.woken hl2 x (List.mem_of_find?_eq_some hx)]
        · rw [hw2, hl2]
          simp only [List.not_mem_nil, if_false, Bool.false_eq_true, List.isEmpty_nil, Bool.or_true, if_true]
          split <;> simp
      rcases hres3 : LFSt.drain c { s2.buffer c m.length j with l := lstep svc s2.l .reader } .reader with ⟨s3, o3⟩
      rw [hres3] at hf3 hne
      dsimp only at hf3 hne
      have hdd : s3.dead = false := by
        rw [hf3.2.2.2.2, show _ = _ from bf.2.2.2.2.1, hf.2.2.2.2]; exact hd
      have hll : s3.l = lstep svc s1.l .reader := by rw [hf3.1, hf.1]
      rcases o3 with - | - | -
      · exact ⟨hdd, fun x => (by cases x), fun _ => hll⟩
      · exact absurd rfl hne
      · exact ⟨hdd, fun x => (by cases x), fun _ => hll⟩
    · next m ht =>
      rw [hres]
      dsimp only
      have bf := s2.buffer_frame c ((m.map List.length).getD 0) j
      exact ⟨by rw [show _ = _ from bf.2.2.2.2.1, hf.2.2.2.2]; exact hd, fun x => (by cases x), fun _ => by rw [hf.1]⟩

/-- When the connection is reset, a task suspended before its write ends as soon as it runs, and nothing is written any more. -/
theorem C164_reset (c : FlowCfg) (hc : c.low ≤ c.high) (svc : Services) (reg : Registry) (evs : List LFEv) (i j : Nat)
    (t : Task) (m : Bytes) (hi : .task i ∈ (lfRun c svc reg evs).waiters)
    (ht : (lfRun c svc reg evs).l.tasks[i]? = some t) (hm : t.st = .writing m) :
    (lfRun c svc reg (evs ++ [.reset, .turn (.task i) j])).l =
      (lstep svc (lfRun c svc reg evs).l .reset).setTask i { t with st := .ended } := by
  obtain ⟨h, hw⟩ := LFlow.run hc svc reg evs
  have hsplit : lfRun c svc reg (evs ++ [.reset, .turn (.task i) j]) =
      (lfStep c svc (lfRun c svc reg evs) .reset).turnTask c svc i j := by
    simp [lfRun, List.foldl_append, lfStep]
  rw [hsplit]
  generalize lfRun c svc reg evs = s at *
  refine LFSt.turnTask_raises (m := m) (t := t) (by exact ht) hm ?_ j
  have hfind : (lfStep c svc s .reset).woken.find? (fun x => x.1 == .task i) = some (.task i, false) := by
    show (s.woken ++ _).find? _ = _
    rw [List.find?_append]
    have : s.woken.find? (fun x => x.1 == .task i) = none := by
      rw [List.find?_eq_none]
      intro x hx e
      have e : x.1 = .task i := by simpa using e
      exact h.disj x hx (e ▸ hi)
    rw [this, Option.none_or]
    clear this h hw hsplit
    have hi : LWho.task i ∈ s.waiters.filter (· != .reader) := List.mem_filter.2 ⟨hi, by simp⟩
    generalize s.waiters.filter (· != .reader) = ws at hi
    induction ws with
    | nil => cases hi
    | cons a ws ih =>
      by_cases e : a = .task i
      · subst e; simp
      · rcases List.mem_cons.1 hi with rfl | h'
        · exact absurd rfl e
        · simpa [e] using ih h'
  unfold LFSt.drain
  rw [hfind]

/-- A task that comes to write while the connection is up and not paused writes at once; while it is paused it waits, unless
there is room for one waiter only and another one has it: then its message is dropped. -/
theorem C164_runs (c : FlowCfg) (svc : Services) (reg : Registry) (evs : List LFEv) (i j : Nat) (t : Task) (m : Bytes)
    (ht : (lfRun c svc reg evs).l.tasks[i]? = some t) (hm : t.st = .writing m) (hl : (lfRun c svc reg evs).l.lost = false)
    (hw : ∀ x ∈ (lfRun c svc reg evs).woken, x.1 ≠ .task i) (hn : .task i ∉ (lfRun c svc reg evs).waiters) :
    ((lfRun c svc reg evs).paused = false →
      (lfRun c svc reg (evs ++ [.turn (.task i) j])).l = lstep svc (lfRun c svc reg evs).l (.write i)) ∧
    ((lfRun c svc reg evs).paused = true → c.many = true ∨ (lfRun c svc reg evs).waiters = [] →
      lfRun c svc reg (evs ++ [.turn (.task i) j]) =
        { lfRun c svc reg evs with waiters := (lfRun c svc reg evs).waiters ++ [.task i] }) ∧
    ((lfRun c svc reg evs).paused = true → c.many = false → (lfRun c svc reg evs).waiters ≠ [] →
      (lfRun c svc reg (evs ++ [.turn (.task i) j])).l =
        (lfRun c svc reg evs).l.setTask i { t with st := .ended }) := by
  have hstep : lfRun c svc reg (evs ++ [.turn (.task i) j]) = (lfRun c svc reg evs).turnTask c svc i j := by
    simp [lfRun, List.foldl_append, lfStep]
  rw [hstep]
  generalize lfRun c svc reg evs = s at *
  have hfind : s.woken.find? (fun x => x.1 == .task i) = none := by
    rw [List.find?_eq_none]; intro x hx; simpa using hw x hx
  refine ⟨fun hp => ?_, fun hp hm' => ?_, fun hp hm' hne => ?_⟩
  · refine LFSt.turnTask_returns ht hm ?_ j
    unfold LFSt.drain
    rw [hfind]
    simp [hn, hl, hp]
  · have hcond : (c.many || s.waiters.isEmpty) = true := by rcases hm' with h | h <;> simp [h]
    have hd : s.drain c (.task i) = ({ s with waiters := s.waiters ++ [.task i] }, none) := by
      unfold LFSt.drain
      rw [hfind]
      simp only [hn, if_false, hl, Bool.false_eq_true, hp, if_true, hcond]
    rw [LFSt.turnTask_waits ht hm (by rw [hd]) j, hd]
  · have hcond : (c.many || s.waiters.isEmpty) = false := by
      rw [hm']; cases hx : s.waiters with
      | nil => exact absurd hx hne
      | cons => rfl
    refine LFSt.turnTask_raises ht hm ?_ j
    unfold LFSt.drain
    rw [hfind]
    simp only [hn, if_false, hl, Bool.false_eq_true, hp, if_true, hcond]

/-! ### what is buffered -/

theorem LFSt.buffer_bytes (c : FlowCfg) (s : LFSt) (n k : Nat) :
    ∃ got, got ≤ k ∧ (s.buffer c n k).buf + got = s.buf + if s.l.closed then 0 else n := by
  unfold LFSt.buffer
  cases s.l.closed with
  | true => exact ⟨0, Nat.zero_le _, by simp⟩
  | false =>
    simp only [Bool.false_eq_true, if_false]
    split
    · exact ⟨min n k, Nat.min_le_right _ _, by omega⟩
    · exact ⟨0, Nat.zero_le _, by omega⟩

theorem LSt.write_wire (s : LSt) (o : Origin) (m : Bytes) :
    (s.write o m).wire.length = s.wire.length + if s.closed then 0 else m.length := by
  unfold LSt.write
  cases s.closed with
  | true => simp
  | false => simp [LSt.wire]

theorem LSt.reader_wire (s : LSt) :
    s.reader.wire.length = s.wire.length + if s.closed then 0 else
      match s.tail with | .reading => 0 | .replying m => m.length | .closing m => (m.map List.length).getD 0 := by
  cases ht : s.tail with
  | reading =>
    have : s.reader.out = s.out := by
      unfold LSt.reader LSt.perform
      rw [ht]
      dsimp only
      repeat' (first | split | rfl | dsimp only)
    simp [LSt.wire, this]
  | replying m =>
    have := s.write_wire (.reader (s.acts.length - 1)) m
    unfold LSt.reader
    rw [ht]
    exact this
  | closing m =>
    cases m with
    | none =>
      unfold LSt.reader
      rw [ht]
      simp [LSt.wire]
    | some m =>
      have := s.write_wire (.reader (s.acts.length - 1)) m
      unfold LSt.reader
      rw [ht]
      exact this

theorem LSt.dispatch_wire (svc : Services) (s : LSt) (i : Nat) (t : Task) (r : Req) (fresh : PyStr) :
    (s.dispatch svc i t r fresh).out = s.out := by
  unfold LSt.dispatch
  repeat' (first | split | rfl | dsimp only)

theorem lstep_outside_wire (svc : Services) (s : LSt) (e : LEv) (h : e.outside = true) : (lstep svc s e).out = s.out := by
  cases e with
  | run i fresh =>
    unfold lstep
    dsimp only
    repeat' split
    · exact s.dispatch_wire svc i _ _ fresh
    · rfl
    · rfl
  | reader => cases h
  | write i => cases h
  | reset => cases h
  | expire i =>
    unfold lstep LSt.cancelFut LSt.setTask LSt.setFut
    dsimp only
    repeat' split
    all_goals rfl
  | _ =>
    unfold lstep
    dsimp only
    repeat' (first | split | rfl | dsimp only)

/-- one event: what is buffered and what has gone to the socket is what has been written -/
theorem lfStep_bytes (c : FlowCfg) (svc : Services) (s : LFSt) (e : LFEv) (hr : e ≠ .reset) :
    ∃ got, got ≤ offered e ∧ (lfStep c svc s e).buf + got + s.l.wire.length = s.buf + (lfStep c svc s e).l.wire.length := by
  cases e with
  | reset => exact absurd rfl hr
  | ev e =>
    refine ⟨0, Nat.zero_le _, ?_⟩
    unfold lfStep
    dsimp only
    split
    · next he => simp [LSt.wire, lstep_outside_wire svc s.l e he]
    · rfl
  | take k =>
    show ∃ got, got ≤ k ∧ _
    unfold lfStep
    dsimp only
    split
    · exact ⟨0, Nat.zero_le _, rfl⟩
    · split
      · exact ⟨min k s.buf, Nat.min_le_left _ _, by dsimp only; omega⟩
      · exact ⟨min k s.buf, Nat.min_le_left _ _, by dsimp only; omega⟩
  | turn w k =>
    show ∃ got, got ≤ k ∧ _
    have hf := s.drain_frame c w
    cases w with
    | task i =>
      show ∃ got, got ≤ k ∧ (s.turnTask c svc i k).buf + got + _ = _ + (s.turnTask c svc i k).l.wire.length
      unfold LFSt.turnTask
      split
      · exact ⟨0, Nat.zero_le _, rfl⟩
      · next t ht =>
        split
        · next m hm =>
          rcases hres : s.drain c (.task i) with ⟨s1, o⟩
          rw [hres] at hf
          dsimp only at hf
          obtain ⟨f1, -, f3, -, -⟩ := hf
          rcases o with - | - | -
          · exact ⟨0, Nat.zero_le _, by dsimp only; rw [f1, f3]; rfl⟩
          · exact ⟨0, Nat.zero_le _, by dsimp only; rw [f1, f3]; rfl⟩
          · dsimp only
            obtain ⟨got, hg, hb⟩ := s1.buffer_bytes c m.length k
            have hwire : (lstep svc s1.l (.write i)).wire.length = s.l.wire.length + if s1.l.closed then 0 else m.length := by
              rw [f1]
              simp only [lstep, ht, hm]
              exact s.l.write_wire (.task i) m
            refine ⟨got, hg, ?_⟩
            split
            · dsimp only; omega
            · have f := LFSt.drain_frame c { s1.buffer c m.length k with l := lstep svc s1.l (.write i) } (.task i)
              rw [f.1, f.2.2.1]
              dsimp only; omega
        · exact ⟨0, Nat.zero_le _, rfl⟩
    | reader =>
      show ∃ got, got ≤ k ∧ (s.turnReader c svc k).buf + got + _ = _ + (s.turnReader c svc k).l.wire.length
      unfold LFSt.turnReader
      split
      · exact ⟨0, Nat.zero_le _, rfl⟩
      rcases hres : s.drain c .reader with ⟨s1, o⟩
      rw [hres] at hf
      dsimp only at hf
      obtain ⟨f1, -, f3, -, -⟩ := hf
      have hsame : ∃ got, got ≤ k ∧ s1.buf + got + s.l.wire.length = s.buf + s1.l.wire.length :=
        ⟨0, Nat.zero_le _, by rw [f1, f3]; rfl⟩
      split
      · rcases o with - | - | -
        · exact hsame
        · exact hsame
        · exact hsame
      · have hrw := s.l.reader_wire
        split
        · next ht =>
          refine ⟨0, Nat.zero_le _, ?_⟩
          rw [ht] at hrw
          dsimp only [lstep] at hrw ⊢
          split at hrw <;> omega
        · next m ht =>
          rw [ht] at hrw
          dsimp only at hrw
          rcases o with - | - | -
          · exact hsame
          · exact hsame
          · dsimp only
            obtain ⟨got, hg, hb⟩ := s1.buffer_bytes c m.length k
            have f := LFSt.drain_frame c { s1.buffer c m.length k with l := lstep svc s1.l .reader } .reader
            rcases hres3 : LFSt.drain c { s1.buffer c m.length k with l := lstep svc s1.l .reader } .reader with ⟨s3, o3⟩
            rw [hres3] at f
            dsimp only [lstep] at f
            have : s3.buf + got + s.l.wire.length = s.buf + s3.l.wire.length := by
              rw [f.1, f.2.2.1, f1]
              rw [f1] at hb
              omega
            rcases o3 with - | - | - <;> exact ⟨got, hg, this⟩
        · next m ht =>
          rw [ht] at hrw
          dsimp only at hrw
          rcases o with - | - | -
          · exact hsame
          · refine ⟨0, Nat.zero_le _, ?_⟩
            dsimp only [lstep, LSt.reader]
            rw [f1, f3]
            rfl
          · dsimp only
            obtain ⟨got, hg, hb⟩ := s1.buffer_bytes c ((m.map List.length).getD 0) k
            refine ⟨got, hg, ?_⟩
            dsimp only [lstep]
            rw [f1]
            rw [f1] at hb
            omega

/-- As long as the connection is not reset, what has been written is what the socket has taken and what is buffered. -/
theorem C164_bytes (c : FlowCfg) (svc : Services) (reg : Registry) (evs : List LFEv) (hr : LFKept evs) :
    ∃ got, got ≤ (evs.map offered).sum ∧ (lfRun c svc reg evs).buf + got = (lfRun c svc reg evs).l.wire.length := by
  induction evs using snoc_induct with
  | nil => exact ⟨0, Nat.le_refl _, rfl⟩
  | snoc evs e ih =>
    obtain ⟨got, h1, h2⟩ := ih fun h => hr (by simp [h])
    obtain ⟨g, h3, h4⟩ := lfStep_bytes c svc (lfRun c svc reg evs) e fun h => hr (by simp [h])
    rw [lfRun_snoc]
    exact ⟨got + g, by simp only [List.map_append, List.map_cons, List.map_nil, List.sum_append, List.sum_cons, List.sum_nil]; omega,
      by omega⟩

/-! ### examples -/

set_option maxRecDepth 40000 in
/-- a task and the reader wait; the socket takes 40 of 62 bytes, which is not enough; then they go on -/
example : (lfRun exFlowMany exServices exReg exCrowdBoth).waiters = [.task 0, .reader] ∧
    (lfRun exFlowMany exServices exReg exCrowdBoth).dead = false ∧ (lfRun exFlowMany exServices exReg exCrowdBoth).hold = false ∧
    (lfRun exFlowMany exServices exReg exCrowdBoth).l.tail = .replying (reply 77 8 []) ∧
    (lfRun exFlowMany exServices exReg (exCrowdBoth ++ [.take 40, .turn .reader 0])).waiters = [.task 0, .reader] ∧
    (lfRun exFlowMany exServices exReg (exCrowdBoth ++ [.take 100, .turn .reader 0])).l.wire =
      reply 3 0 [7, 8] ++ reply 77 8 [] := by decide +kernel

/-- both responses come to be written: the first fills the buffer -/
def exTwoWait : List LFEv := exTwoAnswers ++ [.turn (.task 0) 0, .turn (.task 1) 0]

set_option maxRecDepth 40000 in
/-- a task waits with its message; it writes it when the socket has taken the buffered bytes, and drops it on a reset -/
example : (lfRun exFlowMany exServices exReg exTwoWait).waiters = [.task 0, .task 1] ∧
    (lfRun exFlowMany exServices exReg exTwoWait).l.tasks.map Task.st = [.ended, .writing (reply 4 0 [8])] ∧
    (lfRun exFlowMany exServices exReg exTwoWait).l.lost = false ∧
    (lfRun exFlowMany exServices exReg (exTwoWait ++ [.take 100, .turn (.task 1) 0])).l.wire = reply 3 0 [7] ++ reply 4 0 [8] ∧
    (lfRun exFlowMany exServices exReg (exTwoWait ++ [.reset, .turn (.task 1) 0])).l.wire = reply 3 0 [7] ∧
    (lfRun exFlowOne exServices exReg exTwoWait).l.tasks.map Task.st = [.ended, .ended] := by decide +kernel

end Bolt
