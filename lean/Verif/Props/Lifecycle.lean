import Verif.Model.Lifecycle
import Verif.Lemmas.AioClient
/-!
# C145-C147: starting and stopping the listeners
-/
namespace Bolt
open Spec

theorem aLifeRun_snoc (n : Nat) (evs : List ALifeEv) (e : ALifeEv) :
    aLifeRun n (evs ++ [e]) = aLifeStep (aLifeRun n evs) e := by
  simp [aLifeRun, List.foldl_append]

/-! ## C145 -/

/-- C145 as listed: when a call of `shutdown` has returned, no connection is accepted any more. -/
def C145_full : Prop :=
  ∀ (n : Nat) (evs evs' : List ALifeEv) (i : Nat), (aLifeRun n evs).stop[i]? = some .returned →
    (aLifeRun n (evs ++ evs')).accepted = (aLifeRun n evs).accepted

/-- `shutdown` right after `run_threading`: the server starts afterwards -/
theorem C145_violated : ¬ C145_full := by
  intro h
  have := h 1 [.run, .stop 0, .stopStep 0] [.runStep true, .runStep true, .connect] 0 (by decide)
  revert this
  decide

/-- also when the server listens already -/
example : (aLifeRun 1 [.run, .runStep true, .stop 0, .stopStep 0, .runStep true]).stop = [.returned] ∧
    (aLifeRun 1 [.run, .runStep true, .stop 0, .stopStep 0, .runStep true]).listening = true := by
  decide

/-- the server has been started; what `shutdown` number `i` has done since -/
structure AStopping (i : Nat) (s : ALife) : Prop where
  run : s.run = .loop
  known : s.known = true
  stop : s.stop[i]? = some .check ∨ s.stop[i]? = some .close ∨
    ((s.stop[i]? = some .submit ∨ s.stop[i]? = some .returned) ∧ s.listening = false)

theorem AStopping.step {i : Nat} {s : ALife} (h : AStopping i s) (e : ALifeEv) : AStopping i (aLifeStep s e) := by
  obtain ⟨h1, h2, h3⟩ := h
  cases e with
  | run => simp only [aLifeStep, h1]; exact ⟨h1, h2, h3⟩
  | runStep b => simp only [aLifeStep, h1]; exact ⟨h1, h2, h3⟩
  | stop j =>
    simp only [aLifeStep]
    split
    · next hj =>
      have : j ≠ i := by rintro rfl; rw [hj] at h3; simp at h3
      refine ⟨h1, h2, ?_⟩
      simp only [List.getElem?_set]
      rw [if_neg this]
      exact h3
    · exact ⟨h1, h2, h3⟩
  | stopStep j =>
    simp only [aLifeStep]
    by_cases hj : j = i
    · subst hj
      have hlt : j < s.stop.length := by
        apply Classical.byContradiction
        intro hn
        rw [List.getElem?_eq_none (by omega)] at h3
        simp at h3
      rcases h3 with h3 | h3 | ⟨h3 | h3, h4⟩
      · rw [h3]
        refine ⟨h1, h2, ?_⟩
        simp only [List.getElem?_set_self hlt, h2]
        simp
      · rw [h3]
        refine ⟨h1, h2, .inr (.inr ⟨.inl ?_, rfl⟩)⟩
        simp only [List.getElem?_set_self hlt]
      · rw [h3]
        refine ⟨h1, h2, .inr (.inr ⟨.inr ?_, h4⟩)⟩
        simp only [List.getElem?_set_self hlt]
      · rw [h3]
        exact ⟨h1, h2, .inr (.inr ⟨.inr h3, h4⟩)⟩
    · have hset : ∀ p, (s.stop.set j p)[i]? = s.stop[i]? := by
        intro p
        rw [List.getElem?_set, if_neg hj]
      split
      · exact ⟨h1, h2, by simp only [hset]; exact h3⟩
      · refine ⟨h1, h2, ?_⟩
        simp only [hset]
        rcases h3 with h3 | h3 | ⟨h3, h4⟩
        · exact .inl h3
        · exact .inr (.inl h3)
        · exact .inr (.inr ⟨h3, trivial⟩)
      · exact ⟨h1, h2, by simp only [hset]; exact h3⟩
      · exact ⟨h1, h2, h3⟩
  | connect =>
    simp only [aLifeStep]
    split
    · exact ⟨h1, h2, h3⟩
    · exact ⟨h1, h2, h3⟩

theorem aLife_known {n : Nat} (evs : List ALifeEv) (h : (aLifeRun n evs).run = .loop) : (aLifeRun n evs).known = true := by
  induction evs using snoc_induct with
  | nil => simp [aLifeRun] at h
  | snoc l e ih =>
    rw [aLifeRun_snoc] at h ⊢
    revert h ih
    generalize aLifeRun n l = s
    intro ih h
    cases e <;> simp only [aLifeStep] at h ⊢ <;> grind

/-- C145, what holds: a call of `shutdown` that begins when the loop is running (aio_listener.py:114) ends the accepting of
connections by the time it returns, for ever. Missing: calls that begin before. -/
theorem C145_running_partial (n : Nat) (pre post evs' : List ALifeEv) (i : Nat) (hr : (aLifeRun n pre).run = .loop)
    (hi : (aLifeRun n pre).stop[i]? = some .idle)
    (hs : (aLifeRun n (pre ++ .stop i :: post)).stop[i]? = some .returned) :
    (aLifeRun n (pre ++ .stop i :: post)).listening = false ∧
    (aLifeRun n (pre ++ .stop i :: post ++ evs')).accepted = (aLifeRun n (pre ++ .stop i :: post)).accepted := by
  have hinv : ∀ post, AStopping i (aLifeRun n (pre ++ .stop i :: post)) := by
    intro post
    induction post using snoc_induct with
    | nil =>
      rw [aLifeRun_snoc]
      have hk := aLife_known pre hr
      have hlt := (List.getElem?_eq_some_iff.1 hi).1
      simp only [aLifeStep]
      rw [if_pos hi]
      exact ⟨hr, hk, .inl (List.getElem?_set_self hlt)⟩
    | snoc l e ih =>
      rw [show pre ++ ALifeEv.stop i :: (l ++ [e]) = (pre ++ .stop i :: l) ++ [e] by simp, aLifeRun_snoc]
      exact ih.step e
  have hl : ∀ s : ALife, AStopping i s → s.stop[i]? = some .returned → s.listening = false := by
    intro s h hr
    rcases h.stop with h1 | h1 | ⟨-, h2⟩
    · rw [h1] at hr; cases hr
    · rw [h1] at hr; cases hr
    · exact h2
  refine ⟨hl _ (hinv post) hs, ?_⟩
  induction evs' using snoc_induct with
  | nil => simp
  | snoc l e ih =>
    rw [← List.append_assoc, aLifeRun_snoc, ← ih]
    have hst := hinv (post ++ l)
    have hret : (aLifeRun n (pre ++ .stop i :: post ++ l)).stop[i]? = some .returned := by
      clear ih hst
      induction l using snoc_induct with
      | nil => simpa using hs
      | snoc l e ih =>
        rw [← List.append_assoc, aLifeRun_snoc]
        revert ih
        generalize aLifeRun n (pre ++ .stop i :: post ++ l) = s
        intro ih
        cases e with
        | run => simp only [aLifeStep]; split <;> exact ih
        | runStep b =>
          simp only [aLifeStep]
          split
          · split <;> exact ih
          · exact ih
          · exact ih
        | stop j =>
          simp only [aLifeStep]
          split
          · next hj =>
            have : j ≠ i := by rintro rfl; rw [hj] at ih; cases ih
            rw [List.getElem?_set, if_neg this]
            exact ih
          · exact ih
        | stopStep j =>
          by_cases hj : j = i
          · subst hj; simp only [aLifeStep]; rw [ih]; exact ih
          · simp only [aLifeStep]
            split
            · rw [List.getElem?_set, if_neg hj]; exact ih
            · rw [List.getElem?_set, if_neg hj]; exact ih
            · rw [List.getElem?_set, if_neg hj]; exact ih
            · exact ih
        | connect => simp only [aLifeStep]; split <;> exact ih
    rw [show pre ++ ALifeEv.stop i :: (post ++ l) = pre ++ .stop i :: post ++ l by simp] at hst
    have hno := hl _ hst hret
    revert hno
    generalize aLifeRun n (pre ++ .stop i :: post ++ l) = s
    intro hno
    cases e with
    | run => simp only [aLifeStep]; split <;> rfl
    | runStep b =>
      simp only [aLifeStep]
      split
      · split <;> rfl
      · rfl
      · rfl
    | stop j => simp only [aLifeStep]; split <;> rfl
    | stopStep j => simp only [aLifeStep]; split <;> rfl
    | connect => simp [aLifeStep, hno]

/-- C145: a call of `shutdown` that looks before the server is known has no effect at all. -/
theorem C145_noop (n : Nat) (evs : List ALifeEv) (i : Nat) (hk : (aLifeRun n evs).known = false)
    (hs : (aLifeRun n evs).stop[i]? = some .check) :
    aLifeRun n (evs ++ [.stopStep i]) = { aLifeRun n evs with stop := (aLifeRun n evs).stop.set i .returned } := by
  rw [aLifeRun_snoc]
  simp only [aLifeStep]
  rw [hs, hk]
  rfl

example : (aLifeRun 1 ([.run, .runStep true, .runStep true, .connect] ++ .stop 0 :: [.stopStep 0, .connect, .stopStep 0, .stopStep 0] ++
    [.connect])).accepted = 2 := by
  decide

/-! ## C146 -/

/-- C146 as listed: when a call of `shutdown` has returned, the thread in `run_forever` can leave it. -/
def C146_full : Prop :=
  ∀ (n : Nat) (evs : List ALifeEv) (i : Nat), (aLifeRun n evs).stop[i]? = some .returned →
    (aLifeRun n evs).run ≠ .idle → ∃ evs', (aLifeRun n (evs ++ evs')).run = .idle ∨ (aLifeRun n (evs ++ evs')).run = .raised

/-- C146, what is the case: once the server has been started, `run_forever` is never left, whatever is called. -/
theorem C146_stays_partial (n : Nat) (evs evs' : List ALifeEv) (h : (aLifeRun n evs).run = .loop) :
    (aLifeRun n (evs ++ evs')).run = .loop := by
  induction evs' using snoc_induct with
  | nil => simpa using h
  | snoc l e ih =>
    rw [← List.append_assoc, aLifeRun_snoc]
    revert ih
    generalize aLifeRun n (evs ++ l) = s
    intro ih
    cases e with
    | run => simp only [aLifeStep, ih]; exact ih
    | runStep b => simp only [aLifeStep, ih]
    | stop j => simp only [aLifeStep]; split <;> exact ih
    | stopStep j => simp only [aLifeStep]; split <;> exact ih
    | connect => simp only [aLifeStep]; split <;> exact ih

theorem aLifeRun_idle (n : Nat) (evs : List ALifeEv) (h : .run ∉ evs) : (aLifeRun n evs).run = .idle := by
  induction evs using snoc_induct with
  | nil => rfl
  | snoc l e ih =>
    rw [aLifeRun_snoc]
    have ih := ih fun hm => h (List.mem_append_left _ hm)
    have he : e ≠ .run := fun hx => h (List.mem_append_right _ (hx ▸ List.mem_singleton_self _))
    revert ih
    generalize aLifeRun n l = s
    intro ih
    cases e with
    | run => exact absurd rfl he
    | runStep b => simp only [aLifeStep, ih]
    | stop j => simp only [aLifeStep]; split <;> exact ih
    | stopStep j => simp only [aLifeStep]; split <;> exact ih
    | connect => simp only [aLifeStep]; split <;> exact ih

/-- the server is being started iff `run_forever` was called and has not gone on -/
theorem aLifeRun_start (n : Nat) (evs : List ALifeEv) :
    ((aLifeRun n evs).run = .idle → .run ∉ evs) ∧
    ((aLifeRun n evs).run = .start → ∃ pre mid, evs = pre ++ .run :: mid ∧ .run ∉ pre ∧ ∀ b, .runStep b ∉ mid) ∧
    ((aLifeRun n evs).run = .raised →
      ∃ pre mid post, evs = pre ++ .run :: mid ++ .runStep false :: post ∧ .run ∉ pre ∧ ∀ b, .runStep b ∉ mid) := by
  induction evs using snoc_induct with
  | nil => exact ⟨by simp, fun h => (by cases h), fun h => (by cases h)⟩
  | snoc l e ih =>
    obtain ⟨h1, h2, h3⟩ := ih
    have same : (aLifeRun n (l ++ [e])).run = (aLifeRun n l).run → e ≠ .run ∨ (aLifeRun n l).run ≠ .idle →
        (∀ b, e ≠ .runStep b) ∨ (aLifeRun n l).run ≠ .start →
        ((aLifeRun n (l ++ [e])).run = .idle → .run ∉ l ++ [e]) ∧
        ((aLifeRun n (l ++ [e])).run = .start → ∃ pre mid, l ++ [e] = pre ++ .run :: mid ∧ .run ∉ pre ∧ ∀ b, .runStep b ∉ mid) ∧
        ((aLifeRun n (l ++ [e])).run = .raised →
          ∃ pre mid post, l ++ [e] = pre ++ .run :: mid ++ .runStep false :: post ∧ .run ∉ pre ∧ ∀ b, .runStep b ∉ mid) := by
      intro he g1 g2
      rw [he]
      refine ⟨fun h hm => ?_, fun h => ?_, fun h => ?_⟩
      · rcases List.mem_append.1 hm with hm | hm
        · exact h1 h hm
        · rcases g1 with g1 | g1
          · exact g1 (List.mem_singleton.1 hm).symm
          · exact g1 h
      · obtain ⟨pre, mid, e1, e2, e3⟩ := h2 h
        refine ⟨pre, mid ++ [e], by rw [e1]; simp, e2, fun b hb => ?_⟩
        rcases List.mem_append.1 hb with hb | hb
        · exact e3 b hb
        · rcases g2 with g2 | g2
          · exact g2 b (List.mem_singleton.1 hb).symm
          · exact g2 h
      · obtain ⟨pre, mid, post, e1, e2, e3⟩ := h3 h
        exact ⟨pre, mid, post ++ [e], by rw [e1]; simp, e2, e3⟩
    cases e with
    | run =>
      by_cases hi : (aLifeRun n l).run = .idle
      · have : (aLifeRun n (l ++ [.run])).run = .start := by rw [aLifeRun_snoc]; simp only [aLifeStep, hi, if_true]
        rw [this]
        exact ⟨fun h => (by cases h), fun _ => ⟨l, [], rfl, h1 hi, by simp⟩, fun h => (by cases h)⟩
      · exact same (by rw [aLifeRun_snoc]; simp only [aLifeStep, if_neg hi]) (.inr hi) (.inl (by simp))
    | runStep b =>
      cases hr : (aLifeRun n l).run with
      | start =>
        obtain ⟨pre, mid, e1, e2, e3⟩ := h2 hr
        cases b with
        | true =>
          have : (aLifeRun n (l ++ [.runStep true])).run = .assign := by rw [aLifeRun_snoc]; simp only [aLifeStep, hr, if_true]
          rw [this]
          exact ⟨fun h => (by cases h), fun h => (by cases h), fun h => (by cases h)⟩
        | false =>
          have : (aLifeRun n (l ++ [.runStep false])).run = .raised := by
            rw [aLifeRun_snoc]; simp only [aLifeStep, hr, Bool.false_eq_true, if_false]
          rw [this]
          exact ⟨fun h => (by cases h), fun h => (by cases h), fun _ => ⟨pre, mid, [], by rw [e1], e2, e3⟩⟩
      | assign =>
        have : (aLifeRun n (l ++ [.runStep b])).run = .loop := by rw [aLifeRun_snoc]; simp only [aLifeStep, hr]
        rw [this]
        exact ⟨fun h => (by cases h), fun h => (by cases h), fun h => (by cases h)⟩
      | idle => exact same (by rw [aLifeRun_snoc]; simp only [aLifeStep, hr]) (.inl (by simp)) (.inr (by rw [hr]; simp))
      | loop => exact same (by rw [aLifeRun_snoc]; simp only [aLifeStep, hr]) (.inl (by simp)) (.inr (by rw [hr]; simp))
      | raised => exact same (by rw [aLifeRun_snoc]; simp only [aLifeStep, hr]) (.inl (by simp)) (.inr (by rw [hr]; simp))
    | stop j =>
      exact same (by rw [aLifeRun_snoc]; simp only [aLifeStep]; split <;> rfl) (.inl (by simp)) (.inl (by simp))
    | stopStep j =>
      exact same (by rw [aLifeRun_snoc]; simp only [aLifeStep]; split <;> rfl) (.inl (by simp)) (.inl (by simp))
    | connect =>
      exact same (by rw [aLifeRun_snoc]; simp only [aLifeStep]; split <;> rfl) (.inl (by simp)) (.inl (by simp))

/-- C146, the only way out: `run_forever` is left if and only if the server could not be started, in the first step after
the call. -/
theorem C146_left_partial (n : Nat) (evs : List ALifeEv) :
    (aLifeRun n evs).run = .raised ↔
      ∃ pre mid post, evs = pre ++ .run :: mid ++ .runStep false :: post ∧ .run ∉ pre ∧ ∀ b, .runStep b ∉ mid := by
  refine ⟨(aLifeRun_start n evs).2.2, ?_⟩
  rintro ⟨pre, mid, post, rfl, h1, h2⟩
  have s1 : (aLifeRun n (pre ++ [.run])).run = .start := by
    rw [aLifeRun_snoc]
    simp only [aLifeStep, aLifeRun_idle n pre h1, if_true]
  have s2 : ∀ mid : List ALifeEv, (∀ b, .runStep b ∉ mid) → (aLifeRun n (pre ++ [.run] ++ mid)).run = .start := by
    intro mid
    induction mid using snoc_induct with
    | nil => intro _; rw [List.append_nil]; exact s1
    | snoc l e ih =>
      intro h
      have ih := ih fun b hb => h b (List.mem_append_left _ hb)
      rw [← List.append_assoc, aLifeRun_snoc]
      have he : ∀ b, e ≠ .runStep b := fun b hb => h b (List.mem_append_right _ (hb ▸ List.mem_singleton_self _))
      revert ih
      generalize aLifeRun n (pre ++ [.run] ++ l) = s
      intro ih
      cases e with
      | run => simp only [aLifeStep, ih]; exact ih
      | runStep b => exact absurd rfl (he b)
      | stop j => simp only [aLifeStep]; split <;> exact ih
      | stopStep j => simp only [aLifeStep]; split <;> exact ih
      | connect => simp only [aLifeStep]; split <;> exact ih
  have s3 : (aLifeRun n (pre ++ [.run] ++ mid ++ [.runStep false])).run = .raised := by
    rw [aLifeRun_snoc]
    simp only [aLifeStep, s2 mid h2, Bool.false_eq_true, if_false]
  have s4 : ∀ post : List ALifeEv, (aLifeRun n (pre ++ [.run] ++ mid ++ [.runStep false] ++ post)).run = .raised := by
    intro post
    induction post using snoc_induct with
    | nil => rw [List.append_nil]; exact s3
    | snoc l e ih =>
      rw [← List.append_assoc, aLifeRun_snoc]
      revert ih
      generalize aLifeRun n (pre ++ [.run] ++ mid ++ [.runStep false] ++ l) = s
      intro ih
      cases e with
      | run => simp only [aLifeStep, ih]; exact ih
      | runStep b => simp only [aLifeStep, ih]
      | stop j => simp only [aLifeStep]; split <;> exact ih
      | stopStep j => simp only [aLifeStep]; split <;> exact ih
      | connect => simp only [aLifeStep]; split <;> exact ih
  have := s4 post
  simpa using this

/-- the port is taken; `shutdown` is called meanwhile -/
example : (aLifeRun 1 [.run, .stop 0, .runStep false, .stopStep 0]).run = .raised ∧
    (aLifeRun 1 [.run, .stop 0, .runStep false, .stopStep 0]).stop = [.returned] := by
  decide

theorem C146_violated : ¬ C146_full := by
  intro h
  obtain ⟨evs', h1⟩ := h 1 [.run, .runStep true, .runStep true, .stop 0, .stopStep 0, .stopStep 0, .stopStep 0] 0
    (by decide) (by decide)
  rw [C146_stays_partial 1 _ evs' (by decide)] at h1
  rcases h1 with h1 | h1 <;> cases h1

/-! ## C147 -/

theorem sLifeRun_snoc (rc : Bool) (n : Nat) (evs : List SLifeEv) (e : SLifeEv) :
    sLifeRun rc n (evs ++ [e]) = sLifeStep rc (sLifeRun rc n evs) e := by
  simp [sLifeRun, List.foldl_append]

/-- C147 as listed: a call of `shutdown` that has begun ends if the threads go on (four steps of `run_forever` and two of its
own, in any order, with anything in between but `run_forever` being called again), and when it has returned, no connection is
accepted unless `run_forever` is called again, and a client that tries to connect is refused. -/
def C147_full : Prop :=
  ∀ (rc : Bool) (n : Nat) (pre post : List SLifeEv) (i : Nat), (sLifeRun rc n pre).stop[i]? = some .idle → .run ∉ post →
    (∀ mid, .run ∉ mid → 4 ≤ mid.count .runStep →
      (sLifeRun rc n (pre ++ .stop i :: .stopStep i :: (mid ++ [.stopStep i]))).stop[i]? = some .returned) ∧
    ((sLifeRun rc n (pre ++ .stop i :: post)).stop[i]? = some .returned → ∀ evs', .run ∉ evs' →
      (sLifeRun rc n (pre ++ .stop i :: post ++ evs')).accepted = (sLifeRun rc n (pre ++ .stop i :: post)).accepted ∧
      (sLifeRun rc n (pre ++ .stop i :: post ++ evs')).waiting ≤ (sLifeRun rc n (pre ++ .stop i :: post)).waiting)

/-- `shutdown` without `run_forever` waits for ever -/
theorem C147_violated : ¬ C147_full := by
  intro h
  have := (h true 1 [] [] 0 (by decide) (by decide)).1 (List.replicate 4 .runStep) (by decide) (by decide)
  revert this
  decide

/-- after `shutdown` clients can still connect; nobody serves them -/
theorem C147_violated_refused : ∃ (pre post evs' : List SLifeEv), SLifeEv.run ∉ post ++ evs' ∧
    (sLifeRun true 1 (pre ++ .stop 0 :: post)).stop[0]? = some .returned ∧
    (sLifeRun true 1 (pre ++ .stop 0 :: post)).waiting = 0 ∧ (sLifeRun true 1 (pre ++ .stop 0 :: post ++ evs')).waiting = 1 :=
  ⟨[.run, .runStep, .runStep], [.stopStep 0, .runStep, .runStep, .runStep, .stopStep 0], [.connect], by decide, by decide, by decide, by decide⟩

/-- the event is set only while `run_forever` is not past its beginning -/
def ShutInv (s : SLife) : Prop := s.shut = true → s.run = .idle ∨ s.run = .clear

theorem ShutInv.step {rc : Bool} {s : SLife} (h : ShutInv s) (e : SLifeEv) : ShutInv (sLifeStep rc s e) := by
  unfold ShutInv at *
  cases e with
  | run => simp only [sLifeStep]; split <;> simp_all
  | runStep =>
    simp only [sLifeStep]
    split
    · exact h
    · intro hh; cases hh
    all_goals simp_all
    repeat' split
    all_goals simp_all
  | stop j => simp only [sLifeStep]; split <;> exact h
  | stopStep j =>
    simp only [sLifeStep]
    split
    · exact h
    · split <;> exact h
    · exact h
  | connect => exact h

theorem ShutInv.run (rc : Bool) (n : Nat) (evs : List SLifeEv) : ShutInv (sLifeRun rc n evs) := by
  induction evs using snoc_induct with
  | nil => intro _; exact .inl rfl
  | snoc l e ih => rw [sLifeRun_snoc]; exact ih.step e

/-- `run_forever` is over, or will be without looking for clients more than once -/
def LoopDoomed (s : SLife) : Prop :=
  s.run = .idle ∨ s.run = .reset ∨ s.run = .set ∨ s.request = true

theorem LoopDoomed.step {rc : Bool} {s : SLife} (h : LoopDoomed s) (e : SLifeEv) (he : e ≠ .run) : LoopDoomed (sLifeStep rc s e) := by
  unfold LoopDoomed at *
  cases e with
  | run => exact absurd rfl he
  | runStep => simp only [sLifeStep]; grind
  | stop j => simp only [sLifeStep]; split <;> exact h
  | stopStep j => simp only [sLifeStep]; grind
  | connect => exact h

/-- `run_forever` is over, or will be without looking for clients -/
def LoopOver (s : SLife) : Prop :=
  s.run = .idle ∨ s.run = .reset ∨ s.run = .set ∨ ((s.run = .clear ∨ s.run = .check) ∧ s.request = true)

theorem LoopOver.step {rc : Bool} {s : SLife} (h : LoopOver s) (e : SLifeEv) (he : e ≠ .run) :
    LoopOver (sLifeStep rc s e) ∧ (sLifeStep rc s e).accepted = s.accepted := by
  unfold LoopOver at *
  cases e with
  | run => exact absurd rfl he
  | runStep => simp only [sLifeStep]; grind
  | stop j => simp only [sLifeStep]; split <;> exact ⟨h, rfl⟩
  | stopStep j => simp only [sLifeStep]; grind
  | connect => exact ⟨h, rfl⟩

/-- what is the case after `shutdown` number `i` has been called, as long as `run_forever` is not called -/
def LoopStopping (i : Nat) (s : SLife) : Prop :=
  s.stop[i]? = some .req ∨ (s.stop[i]? = some .wait ∧ LoopDoomed s) ∨ (s.stop[i]? = some .returned ∧ LoopOver s)

theorem LoopStopping.step {rc : Bool} {i : Nat} {s : SLife} (h : LoopStopping i s) (hs : ShutInv s) (e : SLifeEv) (he : e ≠ .run) :
    LoopStopping i (sLifeStep rc s e) := by
  rcases h with h | ⟨h, hd⟩ | ⟨h, ho⟩
  · unfold LoopStopping LoopDoomed
    cases e with
    | run => exact absurd rfl he
    | runStep => left; simp only [sLifeStep]; grind
    | stop j => left; simp only [sLifeStep]; grind
    | stopStep j => simp only [sLifeStep]; grind
    | connect => exact .inl h
  · have hd' := hd.step (rc := rc) e he
    unfold LoopStopping
    cases e with
    | run => exact absurd rfl he
    | runStep => right; left; refine ⟨?_, hd'⟩; simp only [sLifeStep]; grind
    | stop j => right; left; refine ⟨?_, hd'⟩; simp only [sLifeStep]; grind
    | stopStep j =>
      by_cases hj : j = i
      · subst hj
        have hlt := (List.getElem?_eq_some_iff.1 h).1
        revert hd'
        simp only [sLifeStep]
        rw [h]
        dsimp only
        split
        · next hsh =>
          intro _
          refine .inr (.inr ⟨List.getElem?_set_self hlt, ?_⟩)
          have := hs hsh
          unfold LoopDoomed at hd
          unfold LoopOver
          grind
        · exact fun hd' => .inr (.inl ⟨h, hd'⟩)
      · right; left; refine ⟨?_, hd'⟩; simp only [sLifeStep]; grind
    | connect => exact .inr (.inl ⟨h, hd'⟩)
  · refine .inr (.inr ⟨?_, (ho.step (rc := rc) e he).1⟩)
    cases e with
    | run => exact absurd rfl he
    | runStep => simp only [sLifeStep]; grind
    | stop j => simp only [sLifeStep]; grind
    | stopStep j => simp only [sLifeStep]; grind
    | connect => exact h

theorem LoopStopping.run {rc : Bool} {n : Nat} {pre : List SLifeEv} {i : Nat} (hi : (sLifeRun rc n pre).stop[i]? = some .idle)
    (post : List SLifeEv) (hp : SLifeEv.run ∉ post) : LoopStopping i (sLifeRun rc n (pre ++ .stop i :: post)) := by
  induction post using snoc_induct with
  | nil =>
    rw [sLifeRun_snoc]
    have hlt := (List.getElem?_eq_some_iff.1 hi).1
    simp only [sLifeStep]
    rw [if_pos hi]
    exact .inl (List.getElem?_set_self hlt)
  | snoc l e ih =>
    rw [show pre ++ SLifeEv.stop i :: (l ++ [e]) = (pre ++ .stop i :: l) ++ [e] by simp, sLifeRun_snoc]
    exact (ih fun h => hp (List.mem_append_left _ h)).step (ShutInv.run _ _ _) e (by rintro rfl; simp at hp)

/-- C147, what holds: when a call of `shutdown` has returned and `run_forever` has not been called since it was made, no
connection is accepted until `run_forever` is called again. Missing: clients are not refused. -/
theorem C147_stopped_partial (rc : Bool) (n : Nat) (pre post evs' : List SLifeEv) (i : Nat)
    (hi : (sLifeRun rc n pre).stop[i]? = some .idle) (hp : SLifeEv.run ∉ post)
    (hr : (sLifeRun rc n (pre ++ .stop i :: post)).stop[i]? = some .returned) (he : SLifeEv.run ∉ evs') :
    (sLifeRun rc n (pre ++ .stop i :: post ++ evs')).accepted = (sLifeRun rc n (pre ++ .stop i :: post)).accepted := by
  have hsoon : LoopOver (sLifeRun rc n (pre ++ .stop i :: post)) := by
    rcases LoopStopping.run hi post hp with h | ⟨h, -⟩ | ⟨-, h⟩
    · rw [hr] at h; cases h
    · rw [hr] at h; cases h
    · exact h
  have key : LoopOver (sLifeRun rc n (pre ++ .stop i :: post ++ evs')) ∧
      (sLifeRun rc n (pre ++ .stop i :: post ++ evs')).accepted = (sLifeRun rc n (pre ++ .stop i :: post)).accepted := by
    induction evs' using snoc_induct with
    | nil => simpa using hsoon
    | snoc l e ih =>
      obtain ⟨h1, h2⟩ := ih fun h => he (List.mem_append_left _ h)
      rw [← List.append_assoc, sLifeRun_snoc]
      obtain ⟨h3, h4⟩ := h1.step (rc := rc) e (by rintro rfl; simp at he)
      exact ⟨h3, h4.trans h2⟩
  exact key.2

/-- `run_forever` is running or has come to an end -/
def LoopHasRun (s : SLife) : Prop := s.run ≠ .idle ∨ s.shut = true

theorem LoopHasRun.run {rc : Bool} {n : Nat} (evs : List SLifeEv) (h : SLifeEv.run ∈ evs) : LoopHasRun (sLifeRun rc n evs) := by
  induction evs using snoc_induct with
  | nil => cases h
  | snoc l e ih =>
    have hstep : ∀ s : SLife, LoopHasRun s ∨ e = .run → LoopHasRun (sLifeStep rc s e) := by
      intro s hs
      unfold LoopHasRun at *
      cases e <;> simp only [sLifeStep] <;> grind
    rw [sLifeRun_snoc]
    apply hstep
    rcases List.mem_append.1 h with h | h
    · exact .inl (ih h)
    · exact .inr (List.mem_singleton.1 h).symm

/-- how many steps `run_forever` takes at most until it is left, once it has been asked to -/
def SRun.rank : SRun → Nat
  | .idle => 0
  | .set => 1
  | .reset => 2
  | .check => 3
  | .select => 4
  | .clear => 4

theorem LoopDoomed.rank {rc : Bool} {s : SLife} (h : LoopDoomed s) (e : SLifeEv) (he : e ≠ .run) :
    (sLifeStep rc s e).run.rank ≤ s.run.rank ∧ (e = .runStep → (sLifeStep rc s e).run.rank ≤ s.run.rank - 1) := by
  obtain ⟨request, shut, run, stop, waiting, accepted⟩ := s
  unfold LoopDoomed at h
  cases e with
  | run => exact absurd rfl he
  | runStep =>
    cases run with
    | select =>
      have : request = true := by simpa using h
      subst this
      cases rc <;> simp only [sLifeStep, Bool.and_true, if_true, Bool.false_eq_true, if_false]
      · split <;> simp [SRun.rank]
      · simp [SRun.rank]
    | check =>
      have : request = true := by simpa using h
      subst this
      simp [sLifeStep, SRun.rank]
    | _ => simp [sLifeStep, SRun.rank]
  | stop j => simp only [sLifeStep]; split <;> simp
  | stopStep j =>
    simp only [sLifeStep]
    split
    · simp
    · split <;> simp
    · simp
  | connect => simp [sLifeStep]

/-- C147, what holds: if `run_forever` has been called before, a call of `shutdown` returns after four more steps of
`run_forever`, whatever else happens. Missing: calls of `shutdown` when `run_forever` has never been called. -/
theorem C147_returns_partial (rc : Bool) (n : Nat) (pre mid : List SLifeEv) (i : Nat)
    (hi : (sLifeRun rc n pre).stop[i]? = some .idle) (hrun : SLifeEv.run ∈ pre) (hm : SLifeEv.run ∉ mid)
    (hc : 4 ≤ mid.count .runStep) :
    (sLifeRun rc n (pre ++ .stop i :: .stopStep i :: (mid ++ [.stopStep i]))).stop[i]? = some .returned := by
  have hst : ∀ l, SLifeEv.run ∉ l →
      LoopStopping i (sLifeRun rc n (pre ++ .stop i :: .stopStep i :: l)) := fun l hl => LoopStopping.run hi (.stopStep i :: l) (by simpa using hl)
  have hstart : (sLifeRun rc n (pre ++ .stop i :: [.stopStep i])).stop[i]? = some .wait := by
    have hlt := (List.getElem?_eq_some_iff.1 hi).1
    rw [show pre ++ SLifeEv.stop i :: [.stopStep i] = (pre ++ [.stop i]) ++ [.stopStep i] by simp, sLifeRun_snoc, sLifeRun_snoc]
    revert hi hlt
    generalize sLifeRun rc n pre = s
    intro hi hlt
    have : sLifeStep rc s (.stop i) = { s with stop := s.stop.set i .req } := by
      simp only [sLifeStep]
      rw [if_pos hi]
    rw [this]
    simp only [sLifeStep, List.getElem?_set_self hlt]
    simp [hlt]
  have key : ∀ l, SLifeEv.run ∉ l →
      (sLifeRun rc n (pre ++ .stop i :: .stopStep i :: l)).stop[i]? ≠ some .req ∧
      (sLifeRun rc n (pre ++ .stop i :: .stopStep i :: l)).run.rank + l.count .runStep ≤ 4 ∨
      (sLifeRun rc n (pre ++ .stop i :: .stopStep i :: l)).stop[i]? ≠ some .req ∧
      (sLifeRun rc n (pre ++ .stop i :: .stopStep i :: l)).run = .idle := by
    intro l
    induction l using snoc_induct with
    | nil =>
      intro _
      refine .inl ⟨by rw [hstart]; simp, ?_⟩
      generalize (sLifeRun rc n (pre ++ .stop i :: [.stopStep i])).run = r
      cases r <;> simp [SRun.rank]
    | snoc l e ih =>
      intro hl
      have hl' : SLifeEv.run ∉ l := fun h => hl (List.mem_append_left _ h)
      have he : e ≠ .run := by rintro rfl; simp at hl
      have h0 := hst l hl'
      have h1 := hst (l ++ [e]) hl
      have ih := ih hl'
      rw [show pre ++ SLifeEv.stop i :: .stopStep i :: (l ++ [e]) = (pre ++ .stop i :: .stopStep i :: l) ++ [e] by simp,
        sLifeRun_snoc] at h1 ⊢
      revert h0 h1 ih
      generalize sLifeRun rc n (pre ++ .stop i :: .stopStep i :: l) = s
      intro h0 h1 ih
      have hne : s.stop[i]? ≠ some .req := by rcases ih with ih | ih <;> exact ih.1
      have hd : LoopDoomed s := by
        rcases h0 with h | ⟨-, h⟩ | ⟨-, h⟩
        · exact absurd h hne
        · exact h
        · unfold LoopOver at h; unfold LoopDoomed; grind
      have hne' : (sLifeStep rc s e).stop[i]? ≠ some .req := by
        have hsome : ∃ p, s.stop[i]? = some p ∧ (p = .wait ∨ p = .returned) := by
          rcases h0 with h | ⟨h, -⟩ | ⟨h, -⟩
          · exact absurd h hne
          · exact ⟨_, h, .inl rfl⟩
          · exact ⟨_, h, .inr rfl⟩
        cases e <;> simp only [sLifeStep] <;> grind
      obtain ⟨hr1, hr2⟩ := hd.rank (rc := rc) e he
      rcases ih with ⟨-, hk⟩ | ⟨-, hk⟩
      · rw [List.count_append]
        by_cases her : e = .runStep
        · have := hr2 her
          subst her
          simp only [List.count_singleton_self]
          by_cases h0' : s.run.rank = 0
          · right
            refine ⟨hne', ?_⟩
            have : s.run = .idle := by revert h0'; generalize s.run = r; cases r <;> simp [SRun.rank]
            simp only [sLifeStep]
            rw [this]
            exact this
          · left; exact ⟨hne', by omega⟩
        · left
          refine ⟨hne', ?_⟩
          have : [e].count .runStep = 0 := by
            rw [List.count_eq_zero]
            intro hm
            exact her (List.mem_singleton.1 hm).symm
          omega
      · right
        refine ⟨hne', ?_⟩
        cases e <;> simp only [sLifeStep] <;> grind
  have hend : (sLifeRun rc n (pre ++ .stop i :: .stopStep i :: mid)).run = .idle := by
    rcases key mid hm with ⟨-, h⟩ | ⟨-, h⟩
    · have h0 : (sLifeRun rc n (pre ++ .stop i :: .stopStep i :: mid)).run.rank = 0 := by omega
      revert h0
      generalize (sLifeRun rc n (pre ++ .stop i :: .stopStep i :: mid)).run = r
      cases r <;> simp [SRun.rank]
    · exact h
  have hshut : (sLifeRun rc n (pre ++ .stop i :: .stopStep i :: mid)).shut = true := by
    rcases LoopHasRun.run (rc := rc) (n := n) (pre ++ .stop i :: .stopStep i :: mid) (by simp [hrun]) with h | h
    · exact absurd hend h
    · exact h
  rw [show pre ++ SLifeEv.stop i :: .stopStep i :: (mid ++ [.stopStep i]) = (pre ++ .stop i :: .stopStep i :: mid) ++ [.stopStep i] by simp,
    sLifeRun_snoc]
  have hne : (sLifeRun rc n (pre ++ .stop i :: .stopStep i :: mid)).stop[i]? ≠ some .req := by
    rcases key mid hm with h | h <;> exact h.1
  have h0 := hst mid hm
  revert hshut hne h0
  generalize sLifeRun rc n (pre ++ .stop i :: .stopStep i :: mid) = s
  intro hshut hne h0
  rcases h0 with h | ⟨h, -⟩ | ⟨h, -⟩
  · exact absurd h hne
  · simp only [sLifeStep]
    rw [h]
    dsimp only
    rw [if_pos hshut]
    exact List.getElem?_set_self (List.getElem?_eq_some_iff.1 h).1
  · simp only [sLifeStep]; rw [h]; exact h

/-- C147: as long as `run_forever` has not been called, no call of `shutdown` returns. -/
theorem C147_hangs (rc : Bool) (n : Nat) (evs : List SLifeEv) (i : Nat) (h : SLifeEv.run ∉ evs) :
    (sLifeRun rc n evs).stop[i]? ≠ some .returned := by
  have key : (sLifeRun rc n evs).run = .idle ∧ (sLifeRun rc n evs).shut = false ∧
      (sLifeRun rc n evs).stop[i]? ≠ some .returned := by
    induction evs using snoc_induct with
    | nil =>
      refine ⟨rfl, rfl, fun hh => ?_⟩
      have := List.mem_of_getElem? hh
      cases (List.mem_replicate.1 this).2
    | snoc l e ih =>
      have he : e ≠ .run := by rintro rfl; simp at h
      obtain ⟨h1, h2, h3⟩ := ih fun hh => h (List.mem_append_left _ hh)
      rw [sLifeRun_snoc]
      revert h1 h2 h3
      generalize sLifeRun rc n l = s
      intro h1 h2 h3
      cases e <;> simp only [sLifeStep] <;> grind
  exact key.2.2

/-- a client connects while the listener is being stopped: it is never accepted -/
example : (sLifeRun true 1 ([.run, .runStep, .connect, .runStep, .runStep] ++ .stop 0 :: .stopStep 0 ::
    ([.connect, .runStep, .runStep, .runStep, .runStep] ++ [.stopStep 0]))).stop[0]? = some .returned :=
  C147_returns_partial true 1 [.run, .runStep, .connect, .runStep, .runStep] [.connect, .runStep, .runStep, .runStep, .runStep] 0
    (by decide) (by decide) (by decide) (by decide)

/-! ## C148 -/

/-- no call of `shutdown` is in progress -/
def Spec.NoneStopping (s : SLife) : Prop := ∀ (i : Nat) (p : SStop), s.stop[i]? = some p → p = .idle ∨ p = .returned

/-- C148 as listed: when all calls of `shutdown` have returned, `run_forever` can be called again and then serves: a client
that is waiting is accepted within three steps. -/
def C148_full : Prop :=
  ∀ (rc : Bool) (n : Nat) (evs evs' : List SLifeEv), NoneStopping (sLifeRun rc n evs) → (sLifeRun rc n evs).run = .idle →
    (∀ i, .stop i ∉ evs') → (sLifeRun rc n evs).waiting > 0 → 3 ≤ evs'.count .runStep →
    (sLifeRun rc n (evs ++ .run :: evs')).accepted > (sLifeRun rc n evs).accepted

/-- `shutdown` of a listener that has stopped already makes the next `run_forever` return at once -/
theorem C148_violated : ¬ C148_full := by
  intro h
  have := h true 2 [.run, .runStep, .stop 0, .stopStep 0, .runStep, .runStep, .runStep, .stopStep 0, .stop 1, .stopStep 1,
    .stopStep 1, .connect] [.runStep, .runStep, .runStep, .runStep, .runStep, .runStep] (by
      intro i p hp
      revert hp
      have : (sLifeRun true 2 [.run, .runStep, .stop 0, .stopStep 0, .runStep, .runStep, .runStep, .stopStep 0, .stop 1,
        .stopStep 1, .stopStep 1, .connect]).stop = [.returned, .returned] := by decide
      rw [this]
      intro hp
      exact .inr (by have := List.mem_of_getElem? hp; simpa using this)) (by decide) (by simp) (by decide) (by decide)
  revert this
  decide

/-- `run_forever` serves, and nobody asks it to stop -/
structure LoopServing (s : SLife) : Prop where
  request : s.request = false
  run : s.run = .clear ∨ s.run = .check ∨ s.run = .select
  stop : NoneStopping s

/-- how many steps until `run_forever` looks for clients -/
def SRun.untilSelect : SRun → Nat
  | .clear => 3
  | .check => 2
  | .select => 1
  | _ => 0

theorem LoopServing.step {rc : Bool} {s : SLife} (h : LoopServing s) (e : SLifeEv) (he : ∀ i, e ≠ .stop i) :
    LoopServing (sLifeStep rc s e) ∧ s.accepted ≤ (sLifeStep rc s e).accepted ∧
      (s.waiting > 0 → (sLifeStep rc s e).accepted > s.accepted ∨ ((sLifeStep rc s e).waiting > 0 ∧
        (sLifeStep rc s e).run.untilSelect + (if e = .runStep then 1 else 0) ≤ s.run.untilSelect)) := by
  obtain ⟨h1, h2, h3⟩ := h
  cases e with
  | run =>
    have : s.run ≠ .idle := by intro hh; rw [hh] at h2; simp at h2
    simp only [sLifeStep]
    rw [if_neg this]
    exact ⟨⟨h1, h2, h3⟩, Nat.le_refl _, fun hw => .inr ⟨hw, by simp⟩⟩
  | runStep =>
    obtain ⟨request, shut, run, stop, waiting, accepted⟩ := s
    dsimp only at h1 h2 h3 ⊢
    subst h1
    rcases h2 with rfl | rfl | rfl
    · exact ⟨⟨rfl, .inr (.inl rfl), h3⟩, Nat.le_refl _, fun hw => .inr ⟨hw, by simp [sLifeStep, SRun.untilSelect]⟩⟩
    · exact ⟨⟨rfl, .inr (.inr rfl), h3⟩, Nat.le_refl _, fun hw => .inr ⟨hw, by simp [sLifeStep, SRun.untilSelect]⟩⟩
    · simp only [sLifeStep, Bool.and_false, Bool.false_eq_true, if_false]
      split
      · exact ⟨⟨rfl, .inr (.inl rfl), h3⟩, Nat.le_succ _, fun _ => .inl (Nat.lt_succ_self _)⟩
      · next hw => exact ⟨⟨rfl, .inr (.inl rfl), h3⟩, Nat.le_refl _, fun hw' => absurd hw' hw⟩
  | stop i => exact absurd rfl (he i)
  | stopStep i =>
    have : sLifeStep rc s (.stopStep i) = s := by
      simp only [sLifeStep]
      split
      · next hi => rcases h3 i _ hi with h | h <;> cases h
      · next hi => rcases h3 i _ hi with h | h <;> cases h
      · rfl
    rw [this]
    exact ⟨⟨h1, h2, h3⟩, Nat.le_refl _, fun hw => .inr ⟨hw, by simp⟩⟩
  | connect => exact ⟨⟨h1, h2, h3⟩, Nat.le_refl _, fun hw => .inr ⟨Nat.succ_pos _, by simp [sLifeStep]⟩⟩

/-- C148, what holds: if no request to stop is left over, `run_forever` serves: a client that is waiting is accepted within
three steps. Missing: `shutdown` called when the listener had stopped already. -/
theorem C148_serves_partial (rc : Bool) (n : Nat) (evs evs' : List SLifeEv) (hs : NoneStopping (sLifeRun rc n evs))
    (hi : (sLifeRun rc n evs).run = .idle) (hq : (sLifeRun rc n evs).request = false) (he : ∀ i, SLifeEv.stop i ∉ evs')
    (hw : (sLifeRun rc n evs).waiting > 0) (hc : 3 ≤ evs'.count .runStep) :
    (sLifeRun rc n (evs ++ .run :: evs')).accepted > (sLifeRun rc n evs).accepted := by
  have key : ∀ evs', (∀ i, SLifeEv.stop i ∉ evs') → LoopServing (sLifeRun rc n (evs ++ .run :: evs')) ∧
      ((sLifeRun rc n (evs ++ .run :: evs')).accepted > (sLifeRun rc n evs).accepted ∨
        ((sLifeRun rc n (evs ++ .run :: evs')).accepted ≥ (sLifeRun rc n evs).accepted ∧
          (sLifeRun rc n (evs ++ .run :: evs')).waiting > 0 ∧
          (sLifeRun rc n (evs ++ .run :: evs')).run.untilSelect + evs'.count .runStep ≤ 3)) := by
    intro evs'
    induction evs' using snoc_induct with
    | nil =>
      intro _
      rw [sLifeRun_snoc]
      simp only [sLifeStep]
      rw [if_pos hi]
      exact ⟨⟨hq, .inl rfl, hs⟩, .inr ⟨Nat.le_refl _, hw, by simp [SRun.untilSelect]⟩⟩
    | snoc l e ih =>
      intro he
      obtain ⟨h1, h2⟩ := ih fun i h => he i (List.mem_append_left _ h)
      obtain ⟨h3, h4, h5⟩ := h1.step (rc := rc) e (by rintro i rfl; exact he i (by simp))
      rw [show evs ++ SLifeEv.run :: (l ++ [e]) = (evs ++ .run :: l) ++ [e] by simp, sLifeRun_snoc]
      refine ⟨h3, ?_⟩
      rcases h2 with h2 | ⟨h2, h6, h7⟩
      · left; omega
      · rcases h5 h6 with h5 | ⟨h5, h8⟩
        · left; omega
        · right
          refine ⟨by omega, h5, ?_⟩
          rw [List.count_append, List.count_singleton]
          have : (if e == SLifeEv.runStep then 1 else 0) = if e = SLifeEv.runStep then 1 else 0 := by
            simp
          rw [this]
          omega
  obtain ⟨h1, h2⟩ := key evs' he
  rcases h2 with h2 | ⟨-, -, h2⟩
  · exact h2
  · have : (sLifeRun rc n (evs ++ .run :: evs')).run.untilSelect ≥ 1 := by
      rcases h1.run with h | h | h <;> rw [h] <;> decide
    omega

/-- C148: no request to stop is left over if `shutdown` has been called once only, and that call has returned. -/
theorem C148_once_partial (rc : Bool) (n : Nat) (evs : List SLifeEv) (i : Nat) (h1 : ∀ j, SLifeEv.stop j ∈ evs → j = i)
    (h2 : (sLifeRun rc n evs).stop[i]? = some .returned) : (sLifeRun rc n evs).request = false := by
  have key : (∀ (j : Nat) (p : SStop), j ≠ i → (sLifeRun rc n evs).stop[j]? = some p → p = .idle) ∧
      ((sLifeRun rc n evs).request = true → (sLifeRun rc n evs).stop[i]? = some .wait ∧ (sLifeRun rc n evs).shut = false ∧
        (sLifeRun rc n evs).run ≠ .set) ∧
      ((sLifeRun rc n evs).stop[i]? = some .idle ∨ (sLifeRun rc n evs).stop[i]? = some .req →
        (sLifeRun rc n evs).shut = false ∧ (sLifeRun rc n evs).run ≠ .reset ∧ (sLifeRun rc n evs).run ≠ .set) := by
    clear h2
    induction evs using snoc_induct with
    | nil =>
      refine ⟨fun j p _ h => ?_, fun h => ?_, fun _ => ⟨rfl, by simp [sLifeRun], by simp [sLifeRun]⟩⟩
      · have := List.mem_of_getElem? h
        exact (List.mem_replicate.1 this).2
      · simp [sLifeRun] at h
    | snoc l e ih =>
      have ih := ih fun j hj => h1 j (List.mem_append_left _ hj)
      have he : ∀ j, e = .stop j → j = i := fun j hj => h1 j (by rw [hj]; simp)
      rw [sLifeRun_snoc]
      revert ih
      generalize sLifeRun rc n l = s
      intro ih
      obtain ⟨ih1, ih2, ih3⟩ := ih
      cases e with
      | run => simp only [sLifeStep]; grind
      | runStep =>
        clear h1 he
        obtain ⟨request, shut, run, stop, waiting, accepted⟩ := s
        cases run <;> simp only [sLifeStep] at ih1 ih2 ih3 ⊢
        case select =>
          split
          · grind
          · split <;> grind
        all_goals grind
      | stop j =>
        have := he j rfl
        subst this
        simp only [sLifeStep]; grind
      | stopStep j =>
        by_cases hj : j = i
        · subst hj
          clear h1 he
          simp only [sLifeStep]
          split
          · grind
          · split <;> grind
          · exact ⟨ih1, ih2, ih3⟩
        · have : sLifeStep rc s (.stopStep j) = s := by
            simp only [sLifeStep]
            split
            · next hh => cases ih1 j _ hj hh
            · next hh => cases ih1 j _ hj hh
            · rfl
          rw [this]
          exact ⟨ih1, ih2, ih3⟩
      | connect => exact ⟨ih1, ih2, ih3⟩
  cases hr : (sLifeRun rc n evs).request with
  | false => rfl
  | true =>
    have := (key.2.1 hr).1
    rw [h2] at this
    cases this

example : (sLifeRun true 1 [.run, .runStep, .stop 0, .stopStep 0, .runStep, .runStep, .runStep, .stopStep 0, .connect, .run,
    .runStep, .runStep, .runStep]).accepted = 1 := by
  decide

end Bolt
