import Verif.Model.ExecutorFull
import Verif.Props.ListenerReplies
import Verif.Props.HostName
/-!
# C189: a request that is refused is not executed
-/
namespace Bolt
open Spec

namespace Spec

/-- the listener refused the request: a name is missing, the trace context cannot be read, there is no such method, or
`handle_request` failed -/
def RequestRefused : Option Fate → Prop
  | some .badName | some .badCarrier | some .notFound | some (.failed _) => True
  | _ => False

/-- the call has been started by a worker of the pool -/
def CallBegun (f : Fut) : Prop := f.st = .running ∨ ∃ o, f.st = .finished o

end Spec

/-- C189 as listed: no call that was submitted for a refused request is ever started. -/
def C189_full : Prop :=
  ∀ (svc : Services) (reg : Registry) (evs : List XEv) (j : Nat) (t : Task) (k : Nat) (f : Fut),
    (xrun svc reg evs).tasks[j]? = some t → RequestRefused t.fate → t.fut = some k → (xrun svc reg evs).futs[k]? = some f → ¬ CallBegun f

/-! ## what an event does to tasks and futures -/

/-- What one event can do to the tasks and the futures; `full` says whether a `submit` may fail for task `i`. -/
inductive Move (full : Nat → Prop) (s s' : LSt) : Prop where
  | same (ht : s'.tasks = s.tasks) (hf : s'.futs = s.futs)
  | add (t : Task) (ht : s'.tasks = s.tasks ++ [t]) (hf : s'.futs = s.futs) (h1 : t.fut = none) (h2 : t.fate = none)
      (h3 : ∀ d, t.st ≠ .waiting d)
  | refuse (i : Nat) (t t' : Task) (h : s.tasks[i]? = some t) (hn : t.st = .new) (ht : s'.tasks = s.tasks.set i t')
      (hf : s'.futs = s.futs) (h1 : t'.fut = t.fut) (h2 : ∀ d, t'.st ≠ .waiting d) (h3 : t'.st ≠ .new)
  | accept (i : Nat) (t t' : Task) (f : Fut) (h : s.tasks[i]? = some t) (hn : t.st = .new)
      (ht : s'.tasks = s.tasks.set i t') (hf : s'.futs = s.futs ++ [f]) (hq : f.st = .queued)
      (h1 : t'.fut = some s.futs.length) (h2 : t'.st ≠ .new)
      (h3 : t'.fate = t.fate ∨ t'.fate = some .accepted ∧ ∀ d, t'.st ≠ .waiting d)
  | fail (i : Nat) (t t' : Task) (f : Fut) (h : s.tasks[i]? = some t) (hn : t.st = .new) (hi : full i)
      (ht : s'.tasks = s.tasks.set i t') (hf : s'.futs = s.futs ++ [f]) (hq : f.st = .queued)
      (h1 : t'.fut = some s.futs.length) (h2 : t'.st ≠ .new) (h3 : t'.fate = some (.failed .other))
      (h4 : ∀ d, t'.st ≠ .waiting d)
  | answer (i : Nat) (t t' : Task) (h : s.tasks[i]? = some t) (d : Option Int) (hw : t.st = .waiting d)
      (ht : s'.tasks = s.tasks.set i t') (hf : s'.futs = s.futs) (h1 : t'.fut = t.fut) (o : Outcome)
      (h2 : t'.fate = some (.answered o)) (h3 : t'.st ≠ .new) (h4 : ∀ d, t'.st ≠ .waiting d)
  | finish (i : Nat) (t : Task) (h : s.tasks[i]? = some t) (m : Bytes) (hw : t.st = .writing m)
      (ht : s'.tasks = s.tasks.set i { t with st := .ended }) (hf : s'.futs = s.futs)
  | work (k : Nat) (st : FutSt) (hc : st ≠ .cancelled) (ht : s'.tasks = s.tasks)
      (hf : s'.futs = s.futs.modify k fun f => { f with st := st })
      (hold : s.futSt k = some .queued ∨ s.futSt k = some .running)
  | expire (i : Nat) (t t' : Task) (k : Nat) (h : s.tasks[i]? = some t) (d : Option Int) (hw : t.st = .waiting d)
      (hk : t.fut = some k) (ht : s'.tasks = s.tasks.set i t') (h1 : t'.fut = t.fut) (h2 : t'.fate = some .expired)
      (h3 : t'.st ≠ .new) (h4 : ∀ d, t'.st ≠ .waiting d)
      (hf : s'.futs = s.futs ∨ s'.futs = s.futs.modify k fun f => { f with st := .cancelled })

theorem toWrite_not_waiting (m : Except PyExc Bytes) (d : Option Int) : toWrite m ≠ .waiting d := by
  unfold toWrite; split <;> (intro h; cases h)

theorem toWrite_not_new (m : Except PyExc Bytes) : toWrite m ≠ .new := by
  unfold toWrite; split <;> (intro h; cases h)

theorem afterCall_not_waiting (id : Int) (o : Outcome) (d : Option Int) : afterCall id o ≠ .waiting d := by
  unfold afterCall
  repeat' split
  all_goals first | exact toWrite_not_waiting _ _ | (intro h; cases h)

theorem afterCall_not_new (id : Int) (o : Outcome) : afterCall id o ≠ .new := by
  unfold afterCall
  repeat' split
  all_goals first | exact toWrite_not_new _ | (intro h; cases h)

theorem reader_move (full : Nat → Prop) (s : LSt) : Move full s s.reader := by
  unfold LSt.reader LSt.write LSt.perform
  dsimp only
  repeat' split
  all_goals first
    | exact .same rfl rfl
    | exact .add _ rfl rfl rfl rfl (by intro d h; cases h)

theorem dispatch_move (full : Nat → Prop) (svc : Services) (s : LSt) (i : Nat) (t : Task) (r : Req) (f : PyStr)
    (h : s.tasks[i]? = some t) (hn : t.st = .new) : Move full s (s.dispatch svc i t r f) := by
  unfold LSt.dispatch LSt.setTask
  dsimp only
  repeat' split
  all_goals first
    | exact .refuse i t _ h hn rfl rfl rfl (toWrite_not_waiting _) (toWrite_not_new _)
    | exact .refuse i t _ h hn rfl rfl rfl (by intro d h; cases h) (by intro h; cases h)
    | exact .accept i t _ _ h hn rfl rfl rfl rfl (by intro h; cases h) (.inr ⟨rfl, by intro d h; cases h⟩)
    | exact .accept i t _ _ h hn rfl rfl rfl rfl (by intro h; cases h) (.inl rfl)

theorem dispatchX_move (full : Nat → Prop) (svc : Services) (s : LSt) (i : Nat) (t : Task) (r : Req) (f : PyStr)
    (h : s.tasks[i]? = some t) (hn : t.st = .new) (hi : full i) : Move full s (s.dispatchX svc i t r f) := by
  unfold LSt.dispatchX LSt.setTask
  dsimp only
  repeat' split
  all_goals first
    | exact .refuse i t _ h hn rfl rfl rfl (toWrite_not_waiting _) (toWrite_not_new _)
    | exact .refuse i t _ h hn rfl rfl rfl (by intro d h; cases h) (by intro h; cases h)
    | exact .fail i t _ _ h hn hi rfl rfl rfl rfl (toWrite_not_new _) rfl (toWrite_not_waiting _)

theorem xstep_move (svc : Services) (s : LSt) (e : XEv) : Move (fun i => ∃ f, e = .runFull i f) s (xstep svc s e) := by
  cases e with
  | runFull i f =>
    simp only [xstep]
    split
    · next t ht =>
      split
      · next r hn hk => exact dispatchX_move _ svc s i t r f ht hn ⟨f, rfl⟩
      · exact .same rfl rfl
    · exact .same rfl rfl
  | ev e =>
    simp only [xstep]
    cases e with
    | reader => exact reader_move _ s
    | run i f =>
      simp only [lstep]
      split
      · next t ht =>
        split
        · next r hn hk => exact dispatch_move _ svc s i t r f ht hn
        · exact .same rfl rfl
      · exact .same rfl rfl
    | result i =>
      simp only [lstep]
      split
      · next t ht =>
        split
        · next d r k hst hkind hfut =>
          split
          · exact .same rfl rfl
          · exact .answer i t _ ht d hst rfl rfl rfl _ rfl (afterCall_not_new _ _) (afterCall_not_waiting _ _)
          · exact .same rfl rfl
        · exact .same rfl rfl
      · exact .same rfl rfl
    | expire i =>
      simp only [lstep]
      split
      · next t ht =>
        split
        · next d r k hst hkind hfut =>
          split
          · have hc : (s.cancelFut k).tasks = s.tasks ∧
                ((s.cancelFut k).futs = s.futs ∨ (s.cancelFut k).futs = s.futs.modify k fun f => { f with st := .cancelled }) := by
              unfold LSt.cancelFut LSt.setFut
              split
              · exact ⟨rfl, .inr rfl⟩
              · exact ⟨rfl, .inl rfl⟩
            refine .expire i t { t with st := toWrite (failMsg r.id .timeout), fate := some .expired } k ht (some d) hst hfut ?_ rfl
              rfl (toWrite_not_new _) (toWrite_not_waiting _) hc.2
            unfold LSt.setTask
            rw [hc.1]
          · exact .same rfl rfl
        · exact .same rfl rfl
      · exact .same rfl rfl
    | write i =>
      simp only [lstep]
      split
      · next t ht =>
        split
        · next m hst =>
          have hw : (s.write (.task i) m).tasks = s.tasks ∧ (s.write (.task i) m).futs = s.futs := by
            unfold LSt.write; split <;> exact ⟨rfl, rfl⟩
          refine .finish i t ht m hst ?_ hw.2
          unfold LSt.setTask
          rw [hw.1]
        · exact .same rfl rfl
      · exact .same rfl rfl
    | futStart k =>
      simp only [lstep]
      split
      · next h => exact .work k .running (by intro h; cases h) rfl rfl (.inl h)
      · exact .same rfl rfl
    | futFinish k o =>
      simp only [lstep]
      split
      · next h => exact .work k (.finished o) (by intro h; cases h) rfl rfl (.inr h)
      · exact .same rfl rfl
    | data bs =>
      simp only [lstep]
      split <;> exact .same rfl rfl
    | _ => exact .same rfl rfl

/-! ## the invariant -/

/-- Every future belongs to one task; a refused task has one only if its `submit` failed; a cancelled one belongs to a task
whose deadline has passed. -/
structure XInv (evs : List XEv) (s : LSt) : Prop where
  lt : ∀ (j : Nat) (t : Task) (k : Nat), s.tasks[j]? = some t → t.fut = some k → k < s.futs.length
  inj : ∀ (j j' : Nat) (t t' : Task) (k : Nat), s.tasks[j]? = some t → s.tasks[j']? = some t' → t.fut = some k →
    t'.fut = some k → j = j'
  cover : ∀ k, k < s.futs.length → ∃ (j : Nat) (t : Task), s.tasks[j]? = some t ∧ t.fut = some k
  fresh : ∀ (j : Nat) (t : Task), s.tasks[j]? = some t → t.st = .new → t.fut = none ∧ t.fate = none
  wait : ∀ (j : Nat) (t : Task) d, s.tasks[j]? = some t → t.st = .waiting d → t.fate = none
  refused : ∀ (j : Nat) (t : Task), s.tasks[j]? = some t → RequestRefused t.fate → t.fut ≠ none →
    t.fate = some (.failed .other) ∧ ∃ f, XEv.runFull j f ∈ evs
  cancelled : ∀ (k : Nat) (f : Fut), s.futs[k]? = some f → f.st = .cancelled →
    ∃ (j : Nat) (t : Task), s.tasks[j]? = some t ∧ t.fut = some k ∧ t.fate = some .expired

theorem XInv.mono {evs : List XEv} {s : LSt} (h : XInv evs s) (e : XEv) : XInv (evs ++ [e]) s :=
  ⟨h.lt, h.inj, h.cover, h.fresh, h.wait,
    fun j t h1 h2 h3 => ⟨(h.refused j t h1 h2 h3).1, (h.refused j t h1 h2 h3).2.imp fun _ h => List.mem_append_left _ h⟩, h.cancelled⟩

theorem taskSet_get {l : List Task} {i j : Nat} {t' u : Task} (h : (l.set i t')[j]? = some u) :
    j = i ∧ u = t' ∨ j ≠ i ∧ l[j]? = some u := by
  by_cases e : i = j
  · subst e
    have hlt : i < l.length := by
      have := (List.getElem?_eq_some_iff.1 h).1
      simpa using this
    rw [List.getElem?_set_self hlt] at h
    cases h
    exact .inl ⟨rfl, rfl⟩
  · rw [List.getElem?_set_ne e] at h
    exact .inr ⟨fun h => e h.symm, h⟩

theorem taskSet_self {l : List Task} {i : Nat} {t t' : Task} (h : l[i]? = some t) : (l.set i t')[i]? = some t' :=
  List.getElem?_set_self (List.getElem?_eq_some_iff.1 h).1

/-- a task changes and keeps its future -/
theorem XInv.set {evs : List XEv} {s s' : LSt} (h : XInv evs s) {i : Nat} {t t' : Task} (hi : s.tasks[i]? = some t)
    (ht : s'.tasks = s.tasks.set i t') (h1 : t'.fut = t.fut) (hl : s'.futs.length = s.futs.length) (hn : t'.st ≠ .new)
    (hw : ∀ d, t'.st = .waiting d → t'.fate = none)
    (hr : RequestRefused t'.fate → t'.fut ≠ none → t'.fate = some (.failed .other) ∧ ∃ f, XEv.runFull i f ∈ evs)
    (hc : ∀ (k : Nat) (f : Fut), s'.futs[k]? = some f → f.st = .cancelled →
      (∃ f0, s.futs[k]? = some f0 ∧ f0.st = .cancelled) ∨ t.fut = some k ∧ t'.fate = some .expired)
    (hk : t.fut ≠ none → t.fate = some .expired → t'.fate = some .expired) : XInv evs s' := by
  have get : ∀ (j : Nat) (u : Task), s'.tasks[j]? = some u → j = i ∧ u = t' ∨ j ≠ i ∧ s.tasks[j]? = some u := by
    intro j u hu; rw [ht] at hu; exact taskSet_get hu
  have getf : ∀ (j : Nat) (u : Task), s'.tasks[j]? = some u → ∃ u0, s.tasks[j]? = some u0 ∧ u.fut = u0.fut := by
    intro j u hu
    rcases get j u hu with ⟨rfl, rfl⟩ | ⟨-, h0⟩
    · exact ⟨t, hi, h1⟩
    · exact ⟨u, h0, rfl⟩
  have self : s'.tasks[i]? = some t' := by rw [ht]; exact taskSet_self hi
  have other : ∀ (j : Nat) (u : Task), j ≠ i → s.tasks[j]? = some u → s'.tasks[j]? = some u := by
    intro j u hj hu
    rw [ht, List.getElem?_set_ne (fun h => hj h.symm)]
    exact hu
  refine ⟨?_, ?_, ?_, ?_, ?_, ?_, ?_⟩
  · intro j u k hu hf
    obtain ⟨u0, h0, e⟩ := getf j u hu
    rw [hl]
    exact h.lt j u0 k h0 (e ▸ hf)
  · intro j j' u u' k hu hu' hf hf'
    obtain ⟨u0, h0, e⟩ := getf j u hu
    obtain ⟨u0', h0', e'⟩ := getf j' u' hu'
    exact h.inj j j' u0 u0' k h0 h0' (e ▸ hf) (e' ▸ hf')
  · intro k hk'
    rw [hl] at hk'
    obtain ⟨j, u, hu, hf⟩ := h.cover k hk'
    by_cases e : j = i
    · subst e
      rw [hi] at hu
      cases hu
      exact ⟨j, t', self, h1 ▸ hf⟩
    · exact ⟨j, u, other j u e hu, hf⟩
  · intro j u hu hnew
    rcases get j u hu with ⟨rfl, rfl⟩ | ⟨-, h0⟩
    · exact absurd hnew hn
    · exact h.fresh j u h0 hnew
  · intro j u d hu hwt
    rcases get j u hu with ⟨rfl, rfl⟩ | ⟨-, h0⟩
    · exact hw d hwt
    · exact h.wait j u d h0 hwt
  · intro j u hu h2 h3
    rcases get j u hu with ⟨rfl, rfl⟩ | ⟨-, h0⟩
    · exact hr h2 h3
    · exact h.refused j u h0 h2 h3
  · intro k f hf hst
    rcases hc k f hf hst with ⟨f0, hf0, hst0⟩ | ⟨h2, h3⟩
    · obtain ⟨j, u, hu, hfu, hfa⟩ := h.cancelled k f0 hf0 hst0
      by_cases e : j = i
      · subst e
        rw [hi] at hu
        cases hu
        exact ⟨j, t', self, h1 ▸ hfu, hk (by rw [hfu]; intro h; cases h) hfa⟩
      · exact ⟨j, u, other j u e hu, hfu, hfa⟩
    · exact ⟨i, t', self, h1 ▸ h2, h3⟩

/-- a task that starts submits a call -/
theorem XInv.push {evs : List XEv} {s s' : LSt} (h : XInv evs s) {i : Nat} {t t' : Task} {f : Fut} (hi : s.tasks[i]? = some t)
    (hnew : t.st = .new) (ht : s'.tasks = s.tasks.set i t') (hf : s'.futs = s.futs ++ [f]) (hq : f.st = .queued)
    (h1 : t'.fut = some s.futs.length) (hn : t'.st ≠ .new) (hw : ∀ d, t'.st = .waiting d → t'.fate = none)
    (hr : RequestRefused t'.fate → t'.fate = some (.failed .other) ∧ ∃ f, XEv.runFull i f ∈ evs) : XInv evs s' := by
  have hno : t.fut = none := (h.fresh i t hi hnew).1
  have get : ∀ (j : Nat) (u : Task), s'.tasks[j]? = some u → j = i ∧ u = t' ∨ j ≠ i ∧ s.tasks[j]? = some u := by
    intro j u hu; rw [ht] at hu; exact taskSet_get hu
  have self : s'.tasks[i]? = some t' := by rw [ht]; exact taskSet_self hi
  have other : ∀ (j : Nat) (u : Task), j ≠ i → s.tasks[j]? = some u → s'.tasks[j]? = some u := by
    intro j u hj hu
    rw [ht, List.getElem?_set_ne (fun h => hj h.symm)]
    exact hu
  have hlen : s'.futs.length = s.futs.length + 1 := by rw [hf]; simp
  have old : ∀ (j : Nat) (u : Task) (k : Nat), s.tasks[j]? = some u → u.fut = some k → j ≠ i := by
    intro j u k hu hk e
    subst e
    rw [hi] at hu
    cases hu
    rw [hno] at hk
    cases hk
  refine ⟨?_, ?_, ?_, ?_, ?_, ?_, ?_⟩
  · intro j u k hu hk
    rcases get j u hu with ⟨rfl, rfl⟩ | ⟨-, h0⟩
    · rw [h1] at hk
      cases hk
      omega
    · have := h.lt j u k h0 hk
      omega
  · intro j j' u u' k hu hu' hk hk'
    rcases get j u hu with ⟨rfl, rfl⟩ | ⟨hj, h0⟩ <;> rcases get j' u' hu' with ⟨rfl, rfl⟩ | ⟨hj', h0'⟩
    · rfl
    · rw [h1] at hk
      cases hk
      exact absurd (h.lt j' u' _ h0' hk') (Nat.lt_irrefl _)
    · rw [h1] at hk'
      cases hk'
      exact absurd (h.lt j u _ h0 hk) (Nat.lt_irrefl _)
    · exact h.inj j j' u u' k h0 h0' hk hk'
  · intro k hk
    by_cases e : k = s.futs.length
    · subst e
      exact ⟨i, t', self, h1⟩
    · obtain ⟨j, u, hu, hfu⟩ := h.cover k (by omega)
      exact ⟨j, u, other j u (old j u k hu hfu) hu, hfu⟩
  · intro j u hu hnw
    rcases get j u hu with ⟨rfl, rfl⟩ | ⟨-, h0⟩
    · exact absurd hnw hn
    · exact h.fresh j u h0 hnw
  · intro j u d hu hwt
    rcases get j u hu with ⟨rfl, rfl⟩ | ⟨-, h0⟩
    · exact hw d hwt
    · exact h.wait j u d h0 hwt
  · intro j u hu h2 h3
    rcases get j u hu with ⟨rfl, rfl⟩ | ⟨-, h0⟩
    · exact hr h2
    · exact h.refused j u h0 h2 h3
  · intro k g hg hst
    rw [hf, List.getElem?_append] at hg
    split at hg
    · obtain ⟨j, u, hu, hfu, hfa⟩ := h.cancelled k g hg hst
      exact ⟨j, u, other j u (old j u k hu hfu) hu, hfu, hfa⟩
    · rw [List.getElem?_singleton] at hg
      split at hg
      · cases hg
        rw [hq] at hst
        cases hst
      · cases hg

theorem futs_modify_cancelled {l : List Fut} {k n : Nat} {st : FutSt} {f : Fut}
    (h : (l.modify k fun f => { f with st := st })[n]? = some f) (hc : f.st = .cancelled) :
    (∃ f0, l[n]? = some f0 ∧ f0.st = .cancelled) ∨ n = k ∧ st = .cancelled := by
  rw [List.getElem?_modify] at h
  cases hl : l[n]? with
  | none => rw [hl] at h; simp at h
  | some f0 =>
    rw [hl] at h
    by_cases e : k = n
    · subst e
      simp at h
      subst h
      exact .inr ⟨rfl, hc⟩
    · simp [e] at h
      subst h
      exact .inl ⟨f0, rfl, hc⟩

theorem XInv.move {evs : List XEv} {s s' : LSt} {e : XEv} (h : XInv evs s)
    (hm : Move (fun i => ∃ f, e = .runFull i f) s s') : XInv (evs ++ [e]) s' := by
  have h := h.mono e
  cases hm with
  | same ht hf =>
    obtain ⟨a1, a2, a3, a4, a5, a6, a7⟩ := h
    constructor <;> (first | rw [ht] | skip) <;> (try rw [hf]) <;> assumption
  | add t ht hf h1 h2 h3 =>
    have get : ∀ (j : Nat) (u : Task), s'.tasks[j]? = some u → u = t ∨ s.tasks[j]? = some u := by
      intro j u hu
      rw [ht, List.getElem?_append] at hu
      split at hu
      · exact .inr hu
      · rw [List.getElem?_singleton] at hu
        split at hu
        · cases hu; exact .inl rfl
        · cases hu
    have keep : ∀ (j : Nat) (u : Task), s.tasks[j]? = some u → s'.tasks[j]? = some u := by
      intro j u hu
      rw [ht, List.getElem?_append_left (List.getElem?_eq_some_iff.1 hu).1]
      exact hu
    refine ⟨?_, ?_, ?_, ?_, ?_, ?_, ?_⟩
    · intro j u k hu hk
      rcases get j u hu with rfl | h0
      · rw [h1] at hk; cases hk
      · rw [hf]; exact h.lt j u k h0 hk
    · intro j j' u u' k hu hu' hk hk'
      rcases get j u hu with rfl | h0
      · rw [h1] at hk; cases hk
      · rcases get j' u' hu' with rfl | h0'
        · rw [h1] at hk'; cases hk'
        · exact h.inj j j' u u' k h0 h0' hk hk'
    · intro k hk
      rw [hf] at hk
      obtain ⟨j, u, hu, hfu⟩ := h.cover k hk
      exact ⟨j, u, keep j u hu, hfu⟩
    · intro j u hu hn
      rcases get j u hu with rfl | h0
      · exact ⟨h1, h2⟩
      · exact h.fresh j u h0 hn
    · intro j u d hu hw
      rcases get j u hu with rfl | h0
      · exact h2
      · exact h.wait j u d h0 hw
    · intro j u hu hr hne
      rcases get j u hu with rfl | h0
      · exact absurd h1 hne
      · exact h.refused j u h0 hr hne
    · intro k f hk hst
      rw [hf] at hk
      obtain ⟨j, u, hu, hfu, hfa⟩ := h.cancelled k f hk hst
      exact ⟨j, u, keep j u hu, hfu, hfa⟩
  | refuse i t t' hi hn ht hf h1 h2 h3 =>
    have h0 := (h.fresh i t hi hn).1
    exact h.set hi ht h1 (by rw [hf]) h3 (fun d hd => absurd hd (h2 d)) (fun _ hne => absurd (h1.trans h0) hne)
      (fun k f hk hst => .inl ⟨f, by rw [← hf]; exact hk, hst⟩) (fun hne => absurd h0 hne)
  | accept i t t' f hi hn ht hf hq h1 h2 h3 =>
    have h0 := (h.fresh i t hi hn).2
    refine h.push hi hn ht hf hq h1 h2 ?_ ?_
    · intro d hd
      rcases h3 with h3 | ⟨-, h3⟩
      · rw [h3]; exact h0
      · exact absurd hd (h3 d)
    · intro hr
      rcases h3 with h3 | ⟨h3, -⟩
      · rw [h3, h0] at hr; exact hr.elim
      · rw [h3] at hr; exact hr.elim
  | fail i t t' f hi hn hfull ht hf hq h1 h2 h3 h4 =>
    obtain ⟨fr, rfl⟩ := hfull
    exact h.push hi hn ht hf hq h1 h2 (fun d hd => absurd hd (h4 d)) (fun _ => ⟨h3, fr, by simp⟩)
  | answer i t t' hi d hw ht hf h1 o h2 h3 h4 =>
    have h0 := h.wait i t d hi hw
    exact h.set hi ht h1 (by rw [hf]) h3 (fun d hd => absurd hd (h4 d)) (fun hr => by rw [h2] at hr; exact hr.elim)
      (fun k f hk hst => .inl ⟨f, by rw [← hf]; exact hk, hst⟩) (fun _ he => by rw [h0] at he; cases he)
  | finish i t hi m hw ht hf =>
    exact h.set hi ht rfl (by rw [hf]) (by intro h; cases h) (fun d hd => by cases hd)
      (fun hr hne => h.refused i t hi hr hne) (fun k f hk hst => .inl ⟨f, by rw [← hf]; exact hk, hst⟩) (fun _ he => he)
  | work k st hc ht hf hold =>
    have hl : s'.futs.length = s.futs.length := by rw [hf]; simp
    refine ⟨?_, ?_, ?_, ?_, ?_, ?_, ?_⟩
    · rw [ht, hl]; exact h.lt
    · rw [ht]; exact h.inj
    · rw [ht, hl]; exact h.cover
    · rw [ht]; exact h.fresh
    · rw [ht]; exact h.wait
    · rw [ht]; exact h.refused
    · intro n f hn hst
      rw [hf] at hn
      rcases futs_modify_cancelled hn hst with ⟨f0, h0, hc0⟩ | ⟨-, hc0⟩
      · rw [ht]; exact h.cancelled n f0 h0 hc0
      · exact absurd hc0 hc
  | expire i t t' k hi d hw hk ht h1 h2 h3 h4 hf =>
    have h0 := h.wait i t d hi hw
    refine h.set hi ht h1 ?_ h3 (fun d hd => absurd hd (h4 d)) (fun hr => by rw [h2] at hr; exact hr.elim) ?_ (fun _ _ => h2)
    · rcases hf with hf | hf <;> rw [hf]
      simp
    · intro n f hn hst
      rcases hf with hf | hf
      · exact .inl ⟨f, by rw [← hf]; exact hn, hst⟩
      · rw [hf] at hn
        rcases futs_modify_cancelled hn hst with h5 | ⟨rfl, -⟩
        · exact .inl h5
        · exact .inr ⟨hk, h2⟩

theorem xrun_snoc (svc : Services) (reg : Registry) (evs : List XEv) (e : XEv) :
    xrun svc reg (evs ++ [e]) = xstep svc (xrun svc reg evs) e := by simp [xrun]

theorem xrun_inv (svc : Services) (reg : Registry) (evs : List XEv) : XInv evs (xrun svc reg evs) := by
  induction evs using snoc_induct with
  | nil =>
    refine ⟨?_, ?_, ?_, ?_, ?_, ?_, ?_⟩ <;> intros <;> simp_all [xrun]
  | snoc evs e ih =>
    rw [xrun_snoc]
    exact ih.move (xstep_move svc _ e)

/-! ## C189 -/

/-- Without failing threads this is the connection of the other properties. -/
theorem C189_same (svc : Services) (reg : Registry) (evs : List LEv) : xrun svc reg (evs.map .ev) = lrun svc reg evs := by
  unfold xrun lrun
  rw [List.foldl_map]
  rfl

/-- C189, what holds: every call on the queue of the pool was submitted for exactly one request; a refused request has none,
unless it was refused because its `submit` could not start a thread. Missing: those requests (`C189_always`). -/
theorem C189_refused_partial (svc : Services) (reg : Registry) (evs : List XEv) :
    let s := xrun svc reg evs
    (∀ k, k < s.futs.length → ∃ (j : Nat) (t : Task), (s.tasks[j]? = some t ∧ t.fut = some k) ∧
      ∀ (j' : Nat) (t' : Task), s.tasks[j']? = some t' → t'.fut = some k → j' = j) ∧
    ∀ (j : Nat) (t : Task), s.tasks[j]? = some t → RequestRefused t.fate → t.fut ≠ none →
      t.fate = some (.failed .other) ∧ ∃ f, XEv.runFull j f ∈ evs := by
  intro s
  have h := xrun_inv svc reg evs
  refine ⟨?_, h.refused⟩
  intro k hk
  obtain ⟨j, t, ht, hf⟩ := h.cover k hk
  exact ⟨j, t, ⟨ht, hf⟩, fun j' t' ht' hf' => h.inj j' j t' t k ht' ht hf' hf⟩

theorem Move.ended {full : Nat → Prop} {s s' : LSt} (hm : Move full s s') {i : Nat} {t : Task} (ht : s.tasks[i]? = some t)
    (hn : t.st ≠ .new) (hw : ∀ d, t.st ≠ .waiting d) :
    s'.tasks[i]? = some t ∨ s'.tasks[i]? = some { t with st := .ended } := by
  have other : ∀ (j : Nat) (u u' : Task), s.tasks[j]? = some u → (u.st = .new ∨ ∃ d, u.st = .waiting d) →
      s'.tasks = s.tasks.set j u' → s'.tasks[i]? = some t := by
    intro j u u' hu hst hs
    have hne : j ≠ i := by
      rintro rfl
      rw [ht] at hu
      cases hu
      rcases hst with h | ⟨d, h⟩
      · exact hn h
      · exact hw d h
    rw [hs, List.getElem?_set_ne hne]
    exact ht
  cases hm with
  | same h _ => exact .inl (by rw [h]; exact ht)
  | add u h => exact .inl (by rw [h, List.getElem?_append_left (List.getElem?_eq_some_iff.1 ht).1]; exact ht)
  | refuse j u u' hu hst hs => exact .inl (other j u u' hu (.inl hst) hs)
  | accept j u u' f hu hst hs => exact .inl (other j u u' hu (.inl hst) hs)
  | fail j u u' f hu hst _ hs => exact .inl (other j u u' hu (.inl hst) hs)
  | answer j u u' hu d hst hs => exact .inl (other j u u' hu (.inr ⟨d, hst⟩) hs)
  | expire j u u' k hu d hst _ hs => exact .inl (other j u u' hu (.inr ⟨d, hst⟩) hs)
  | work k st _ h => exact .inl (by rw [h]; exact ht)
  | finish j u hu m hst hs =>
    by_cases e : j = i
    · subst e
      rw [ht] at hu
      cases hu
      exact .inr (by rw [hs]; exact taskSet_self ht)
    · exact .inl (by rw [hs, List.getElem?_set_ne e]; exact ht)

theorem Move.call {full : Nat → Prop} {s s' : LSt} (hm : Move full s s') {k : Nat} {f : Fut} (hf : s.futs[k]? = some f) :
    ∃ f', s'.futs[k]? = some f' ∧ f'.func = f.func ∧ f'.body = f.body := by
  have happ : ∀ g, s'.futs = s.futs ++ [g] → ∃ f', s'.futs[k]? = some f' ∧ f'.func = f.func ∧ f'.body = f.body := by
    intro g h
    exact ⟨f, by rw [h, List.getElem?_append_left (List.getElem?_eq_some_iff.1 hf).1]; exact hf, rfl, rfl⟩
  have hmod : ∀ n st, s'.futs = (s.futs.modify n fun f => { f with st := st }) →
      ∃ f', s'.futs[k]? = some f' ∧ f'.func = f.func ∧ f'.body = f.body := by
    intro n st h
    rw [h, List.getElem?_modify, hf]
    by_cases e : n = k
    · subst e
      exact ⟨{ f with st := st }, by simp, rfl, rfl⟩
    · exact ⟨f, by simp [e], rfl, rfl⟩
  have hsame : s'.futs = s.futs → ∃ f', s'.futs[k]? = some f' ∧ f'.func = f.func ∧ f'.body = f.body :=
    fun h => ⟨f, by rw [h]; exact hf, rfl, rfl⟩
  cases hm with
  | same _ h => exact hsame h
  | add u _ h => exact hsame h
  | refuse j u u' _ _ _ h => exact hsame h
  | accept j u u' g _ _ _ h => exact happ g h
  | fail j u u' g _ _ _ _ h => exact happ g h
  | answer j u u' _ d _ _ h => exact hsame h
  | finish j u _ m _ _ h => exact hsame h
  | work n st _ _ h => exact hmod n st h
  | expire j u u' n _ d _ _ _ _ _ _ _ h =>
    rcases h with h | h
    · exact hsame h
    · exact hmod n _ h

/-- What happens, always: a request for a method that exists, started while no thread can be started, is answered
SERVER_EXCEPTION and its call is on the queue all the same, with its argument. Whatever happens later, the call is never
taken back; as long as it waits a worker can start it, and as long as the connection is open the answer can be written. -/
theorem C189_always (svc : Services) (reg : Registry) (pre more : List XEv) (i : Nat) (fresh : PyStr) (t : Task) (r : Req)
    (service method : PyStr) (heap : Heap) (ctx : Baggage) (func : Nat)
    (ht : (xrun svc reg pre).tasks[i]? = some t) (hk : t.kind = .dispatch r) (hs : t.st = .new)
    (h1 : serviceOf r.header = some service) (h2 : methodOf r.header = some method)
    (h3 : extract (xrun svc reg pre).heap fresh r.header = .ok (heap, ctx))
    (h4 : findMethod svc (xrun svc reg pre).reg heap ctx service method = .ok func) :
    let k := (xrun svc reg pre).futs.length
    let s := xrun svc reg (pre ++ .runFull i fresh :: more)
    ∃ (t' : Task) (f : Fut), s.tasks[i]? = some t' ∧ t'.kind = .dispatch r ∧ t'.fate = some (.failed .other) ∧
      t'.fut = some k ∧ (t'.st = toWrite (failMsg r.id .serverException) ∨ t'.st = .ended) ∧
      s.futs[k]? = some f ∧ f.func = func ∧ f.body = r.body ∧ f.st ≠ .cancelled ∧
      (f.st = .queued → (xstep svc s (.ev (.futStart k))).futSt k = some .running) ∧
      (t'.st ≠ .ended → s.closed = false → ∃ m, failMsg r.id .serverException = .ok m ∧
        (xstep svc s (.ev (.write i))).out = s.out ++ [(.task i, m)]) := by
  intro k s
  have key : ∃ (t' : Task) (f : Fut), s.tasks[i]? = some t' ∧ t'.kind = .dispatch r ∧ t'.fate = some (.failed .other) ∧
      t'.fut = some k ∧ (t'.st = toWrite (failMsg r.id .serverException) ∨ t'.st = .ended) ∧
      s.futs[k]? = some f ∧ f.func = func ∧ f.body = r.body := by
    show ∃ (t' : Task) (f : Fut), (xrun svc reg (pre ++ .runFull i fresh :: more)).tasks[i]? = some t' ∧ _ ∧ _ ∧
      _ ∧ _ ∧ (xrun svc reg (pre ++ .runFull i fresh :: more)).futs[k]? = some f ∧ _ ∧ _
    clear_value s
    induction more using snoc_induct with
    | nil =>
      rw [xrun_snoc]
      have e : xstep svc (xrun svc reg pre) (.runFull i fresh) = (xrun svc reg pre).dispatchX svc i t r fresh := by
        simp only [xstep, ht, hs, hk]
      rw [e]
      unfold LSt.dispatchX
      rw [h1, h2]
      dsimp only
      rw [h3]
      dsimp only
      rw [h4]
      refine ⟨_, { func := func, body := r.body, ctx := ctx, heap := heap }, taskSet_self ht, hk, rfl, rfl, .inl rfl, ?_, rfl,
        rfl⟩
      · show ((xrun svc reg pre).futs ++ [_])[(xrun svc reg pre).futs.length]? = _
        rw [List.getElem?_append_right (Nat.le_refl _), Nat.sub_self]
        rfl
    | snoc more e ih =>
      obtain ⟨t', f, a1, a2, a3, a4, a5, a6, a7, a8⟩ := ih
      have e1 : xrun svc reg (pre ++ .runFull i fresh :: (more ++ [e])) =
          xstep svc (xrun svc reg (pre ++ .runFull i fresh :: more)) e := by
        rw [← xrun_snoc]; simp
      rw [e1]
      have hm := xstep_move svc (xrun svc reg (pre ++ .runFull i fresh :: more)) e
      obtain ⟨f', b1, b2, b3⟩ := hm.call a6
      have hn : t'.st ≠ .new := by
        rcases a5 with h | h <;> rw [h]
        · exact toWrite_not_new _
        · intro h; cases h
      have hw : ∀ d, t'.st ≠ .waiting d := by
        intro d
        rcases a5 with h | h <;> rw [h]
        · exact toWrite_not_waiting _ _
        · intro h; cases h
      rcases hm.ended a1 hn hw with h | h
      · exact ⟨t', f', h, a2, a3, a4, a5, b1, b2.trans a7, b3.trans a8⟩
      · exact ⟨_, f', h, a2, a3, a4, .inr rfl, b1, b2.trans a7, b3.trans a8⟩
  obtain ⟨t', f, a1, a2, a3, a4, a5, a6, a7, a8⟩ := key
  have hinv : XInv _ s := xrun_inv svc reg (pre ++ .runFull i fresh :: more)
  refine ⟨t', f, a1, a2, a3, a4, a5, a6, a7, a8, ?_, ?_, ?_⟩
  · intro hc
    obtain ⟨j, u, hu, hfu, hfa⟩ := hinv.cancelled k f a6 hc
    have : j = i := hinv.inj j i u t' k hu a1 hfu a4
    subst this
    rw [a1] at hu
    cases hu
    rw [a3] at hfa
    cases hfa
  · intro hq
    have hst : s.futSt k = some .queued := by unfold LSt.futSt; rw [a6]; exact congrArg some hq
    simp only [xstep, lstep, if_pos hst]
    unfold LSt.futSt LSt.setFut
    dsimp only
    rw [List.getElem?_modify, a6]
    simp
  · intro hne hop
    rcases a5 with h | h
    · cases hm : failMsg r.id .serverException with
      | error e => rw [hm] at h; exact absurd h hne
      | ok m =>
        rw [hm] at h
        refine ⟨m, rfl, ?_⟩
        have h' : t'.st = .writing m := h
        simp only [xstep, lstep, a1, h']
        unfold LSt.setTask LSt.write
        rw [hop]
        rfl
    · exact absurd h hne

/-! ### examples -/

/-- a request has arrived -/
def exFull : List XEv := [.ev (.data (exReq 3 [1]).bytes), .ev .reader, .ev .reader, .ev .reader, .ev .reader]

set_option maxRecDepth 20000 in
theorem C189_violated : ¬ C189_full := by
  intro h
  have e : ((xrun exServices exReg (exFull ++ [.runFull 0 (py "t"), .ev (.write 0), .ev (.futStart 0)])).tasks.map
      fun t => (t.fate, t.fut)) = [(some (.failed .other), some 0)] ∧
    ((xrun exServices exReg (exFull ++ [.runFull 0 (py "t"), .ev (.write 0), .ev (.futStart 0)])).futs.map Fut.st) = [.running] := by
    decide +kernel
  obtain ⟨e1, e2⟩ := e
  have h := h exServices exReg (exFull ++ [.runFull 0 (py "t"), .ev (.write 0), .ev (.futStart 0)])
  generalize xrun exServices exReg (exFull ++ [.runFull 0 (py "t"), .ev (.write 0), .ev (.futStart 0)]) = s at e1 e2 h
  match hT : s.tasks, hF : s.futs with
  | [t], [f] =>
    rw [hT] at e1
    rw [hF] at e2
    simp only [List.map_cons, List.map_nil, List.cons.injEq, Prod.mk.injEq, and_true] at e1 e2
    exact h 0 t 0 f (by rw [hT]; rfl) (by rw [e1.1]; exact trivial) e1.2 (by rw [hF]; rfl) (.inl e2)
  | [], _ => rw [hT] at e1; cases e1
  | _ :: _ :: _, _ => rw [hT] at e1; simp at e1
  | _, [] => rw [hF] at e2; cases e2
  | _, _ :: _ :: _ => rw [hF] at e2; simp at e2

set_option maxRecDepth 20000 in
/-- the caller is told that it failed, and then the method runs -/
example : (xrun exServices exReg (exFull ++ [.runFull 0 (py "t"), .ev (.write 0), .ev (.futStart 0)])).out =
    [(.task 0, ((failMsg 3 .serverException).toOption).getD [])] ∧ (failMsg 3 .serverException).toOption.isSome = true := by
  decide +kernel

set_option maxRecDepth 20000 in
/-- a request for a method that does not exist has no call, though no thread could have been started -/
example : ((xrun exServices [] (exFull ++ [.runFull 0 (py "t"), .ev (.write 0)])).tasks.map fun t => (t.fate, t.fut)) =
    [(some .notFound, none)] := by
  decide +kernel

/-- C189, the step exactly: up to `submit` a request is dealt with as ever, with the same result if it does not get there; if
it does, its call is queued as ever, and SERVER_EXCEPTION is to be written. -/
theorem C189_step (svc : Services) (s : LSt) (i : Nat) (t : Task) (r : Req) (fresh : PyStr) :
    (s.dispatchX svc i t r fresh = s.dispatch svc i t r fresh ∧ (s.dispatch svc i t r fresh).futs = s.futs) ∨
    (∃ x, (s.dispatch svc i t r fresh).futs = s.futs ++ [x]) ∧
      s.dispatchX svc i t r fresh = { s with
        heap := (s.dispatch svc i t r fresh).heap
        futs := (s.dispatch svc i t r fresh).futs
        tasks := s.tasks.set i { t with st := toWrite (failMsg r.id .serverException), fut := some s.futs.length,
                                        fate := some (.failed .other), ran := some s.reg } } := by
  unfold LSt.dispatchX LSt.dispatch
  cases serviceOf r.header with
  | none => exact .inl ⟨rfl, rfl⟩
  | some service =>
    cases methodOf r.header with
    | none => exact .inl ⟨rfl, rfl⟩
    | some method =>
      cases extract s.heap fresh r.header with
      | error e => exact .inl ⟨rfl, rfl⟩
      | ok hc =>
        obtain ⟨heap, ctx⟩ := hc
        dsimp only
        cases findMethod svc s.reg heap ctx service method with
        | error e => cases e <;> exact .inl ⟨rfl, rfl⟩
        | ok f =>
          refine .inr ⟨?_, ?_⟩
          · dsimp only
            split <;> exact ⟨_, rfl⟩
          · dsimp only
            split <;> rfl

end Bolt
