import Verif.Model.MeshSilent
import Verif.Props.Process
/-!
# C191, C192: interrupts while waiting for the mesh, and a mesh that does not answer
-/
namespace Bolt
open Spec

namespace Spec

/-- the last request sent on the way from `log` to `log'` came to `x` -/
def LastPost (mesh : MeshU) (log log' : List Post) (x : MeshAns) : Prop :=
  ∃ mid post, log' = log ++ mid ++ [post] ∧ mesh (log ++ mid) post = x

/-- the call constructs a client or a listener -/
def Constructs : POp → Bool
  | .newClient _ | .newListener _ _ => true
  | _ => false

end Spec

/-- C191 as listed: a call that is interrupted while it waits for the mesh ends with the interrupt. -/
def C191_full : Prop :=
  ∀ (mesh : MeshU) (p : Proc) (op : POp), LastPost mesh p.log (pstepU mesh p op).1.log .interrupt →
    (pstepU mesh p op).2 = .interrupted

/-- C192 as listed: every call ends, whatever the mesh does. -/
def C192_full : Prop := ∀ (mesh : MeshU) (p : Proc) (op : POp), (pstepU mesh p op).2 ≠ .hangs

/-! ## one request -/

theorem postU_log (mesh : MeshU) (log : List Post) (ep : PyStr) (json : PyDict PyStr PayVal) :
    (postU mesh log ep json).1 = log ++ [⟨ep, json⟩] := by
  unfold postU meshPost
  dsimp only
  repeat' split
  all_goals first
    | rfl
    | (next h => injection h with h1 h2; exact h1.symm)

theorem postU_ends (mesh : MeshU) (log : List Post) (ep : PyStr) (json : PyDict PyStr PayVal) :
    ((postU mesh log ep json).2 = .hangs ↔ mesh log ⟨ep, json⟩ = .silent) ∧
    ((postU mesh log ep json).2 = .interrupted ↔ mesh log ⟨ep, json⟩ = .interrupt) := by
  unfold postU
  cases mesh log ⟨ep, json⟩ with
  | silent => simp
  | interrupt => simp
  | res r =>
    dsimp only
    split <;> simp

theorem lastPost_one {mesh : MeshU} {log : List Post} {q : Post} {x : MeshAns} :
    LastPost mesh log (log ++ [q]) x ↔ mesh log q = x := by
  constructor
  · rintro ⟨mid, post, h, hx⟩
    rw [List.append_assoc] at h
    have h := List.append_cancel_left h
    cases mid with
    | nil =>
      cases h
      rw [List.append_nil] at hx
      exact hx
    | cons a mid => cases mid <;> cases h
  · intro h
    exact ⟨[], q, by simp, by rw [List.append_nil]; exact h⟩

theorem lastPost_none {mesh : MeshU} {log : List Post} {x : MeshAns} : ¬ LastPost mesh log log x := by
  rintro ⟨mid, post, h, -⟩
  have := congrArg List.length h
  simp at this

/-- after a request that came to something else the question is about the rest -/
theorem lastPost_step {mesh : MeshU} {log more : List Post} {q : Post} {x : MeshAns} (hq : mesh log q ≠ x) :
    LastPost mesh log (log ++ [q] ++ more) x ↔ LastPost mesh (log ++ [q]) (log ++ [q] ++ more) x := by
  constructor
  · rintro ⟨mid, post, h, hx⟩
    have h' := h
    rw [List.append_assoc, List.append_assoc] at h'
    have h' := List.append_cancel_left h'
    cases mid with
    | nil =>
      rw [List.append_nil] at hx
      injection h' with h1 h2
      rw [← h1] at hx
      exact absurd hx hq
    | cons a mid =>
      injection h' with h1 h2
      subst h1
      refine ⟨mid, post, ?_, ?_⟩
      · rw [h]; simp
      · rw [← hx]; simp
  · rintro ⟨mid, post, h, hx⟩
    exact ⟨q :: mid, post, by rw [h]; simp, by rw [← hx]; simp⟩

/-! ## loops -/

theorem nameLoopU_spec (mesh : MeshU) (ep : PyStr) (eff : PyDict PyStr SvcAddr → PyStr → PyDict PyStr SvcAddr)
    (infs : List PyStr) (log : List Post) (svc : PyDict PyStr SvcAddr) :
    (∃ more, (nameLoopU mesh ep eff log svc infs).1 = log ++ more) ∧
    ((nameLoopU mesh ep eff log svc infs).2.2 = .hangs ↔ LastPost mesh log (nameLoopU mesh ep eff log svc infs).1 .silent) ∧
    ((nameLoopU mesh ep eff log svc infs).2.2 = .interrupted ↔
      LastPost mesh log (nameLoopU mesh ep eff log svc infs).1 .interrupt) := by
  induction infs generalizing log svc with
  | nil =>
    refine ⟨⟨[], by simp [nameLoopU]⟩, ?_, ?_⟩
    · exact ⟨fun h => (by cases h), fun h => absurd h lastPost_none⟩
    · exact ⟨fun h => (by cases h), fun h => absurd h lastPost_none⟩
  | cons inf infs ih =>
    have hl := postU_log mesh log ep (serviceNameJson inf)
    obtain ⟨e1, e2⟩ := postU_ends mesh log ep (serviceNameJson inf)
    have go : ∀ svc', mesh log ⟨ep, serviceNameJson inf⟩ ≠ .silent → mesh log ⟨ep, serviceNameJson inf⟩ ≠ .interrupt →
        (∃ more, (nameLoopU mesh ep eff (log ++ [⟨ep, serviceNameJson inf⟩]) svc' infs).1 = log ++ more) ∧
        ((nameLoopU mesh ep eff (log ++ [⟨ep, serviceNameJson inf⟩]) svc' infs).2.2 = .hangs ↔
          LastPost mesh log (nameLoopU mesh ep eff (log ++ [⟨ep, serviceNameJson inf⟩]) svc' infs).1 .silent) ∧
        ((nameLoopU mesh ep eff (log ++ [⟨ep, serviceNameJson inf⟩]) svc' infs).2.2 = .interrupted ↔
          LastPost mesh log (nameLoopU mesh ep eff (log ++ [⟨ep, serviceNameJson inf⟩]) svc' infs).1 .interrupt) := by
      intro svc' n1 n2
      obtain ⟨⟨more, hm⟩, h1, h2⟩ := ih (log ++ [⟨ep, serviceNameJson inf⟩]) svc'
      rw [hm] at h1 h2 ⊢
      exact ⟨⟨_, List.append_assoc ..⟩, h1.trans (lastPost_step n1).symm, h2.trans (lastPost_step n2).symm⟩
    unfold nameLoopU
    generalize postU mesh log ep (serviceNameJson inf) = r at hl e1 e2
    obtain ⟨log', r⟩ := r
    dsimp only at hl e1 e2
    subst hl
    cases r with
    | val d =>
      exact go _ (fun h => by have := e1.2 h; cases this) (fun h => by have := e2.2 h; cases this)
    | exc e =>
      exact go _ (fun h => by have := e1.2 h; cases this) (fun h => by have := e2.2 h; cases this)
    | interrupted =>
      have hx := e2.1 rfl
      refine ⟨⟨_, rfl⟩, ⟨fun h => (by cases h), fun h => ?_⟩, ⟨fun _ => lastPost_one.2 hx, fun _ => rfl⟩⟩
      have := lastPost_one.1 h
      rw [hx] at this
      cases this
    | hangs =>
      have hx := e1.1 rfl
      refine ⟨⟨_, rfl⟩, ⟨fun _ => lastPost_one.2 hx, fun _ => rfl⟩, ⟨fun h => (by cases h), fun h => ?_⟩⟩
      have := lastPost_one.1 h
      rw [hx] at this
      cases this

theorem postEachU_spec (mesh : MeshU) (ep : PyStr) (json : PyStr → PyDict PyStr PayVal) (ss : List PyStr) (log : List Post) :
    (∃ more, (postEachU mesh ep json log ss).1 = log ++ more) ∧
    ((postEachU mesh ep json log ss).2 = .hangs ↔ LastPost mesh log (postEachU mesh ep json log ss).1 .silent) ∧
    ((postEachU mesh ep json log ss).2 = .interrupted ↔ LastPost mesh log (postEachU mesh ep json log ss).1 .interrupt) := by
  induction ss generalizing log with
  | nil =>
    refine ⟨⟨[], by simp [postEachU]⟩, ?_, ?_⟩
    · exact ⟨fun h => (by cases h), fun h => absurd h lastPost_none⟩
    · exact ⟨fun h => (by cases h), fun h => absurd h lastPost_none⟩
  | cons s ss ih =>
    have hl := postU_log mesh log ep (json s)
    obtain ⟨e1, e2⟩ := postU_ends mesh log ep (json s)
    unfold postEachU
    generalize postU mesh log ep (json s) = r at hl e1 e2
    obtain ⟨log', r⟩ := r
    dsimp only at hl e1 e2
    subst hl
    cases r with
    | val d =>
      have n1 : mesh log ⟨ep, json s⟩ ≠ .silent := fun h => by have := e1.2 h; cases this
      have n2 : mesh log ⟨ep, json s⟩ ≠ .interrupt := fun h => by have := e2.2 h; cases this
      dsimp only
      obtain ⟨⟨more, hm⟩, h1, h2⟩ := ih (log ++ [⟨ep, json s⟩])
      rw [hm] at h1 h2 ⊢
      exact ⟨⟨_, List.append_assoc ..⟩, h1.trans (lastPost_step n1).symm, h2.trans (lastPost_step n2).symm⟩
    | exc e =>
      refine ⟨⟨_, rfl⟩, ⟨fun h => (by cases h), fun h => ?_⟩, ⟨fun h => (by cases h), fun h => ?_⟩⟩
      · have := e1.2 (lastPost_one.1 h); cases this
      · have := e2.2 (lastPost_one.1 h); cases this
    | interrupted =>
      have hx := e2.1 rfl
      refine ⟨⟨_, rfl⟩, ⟨fun h => (by cases h), fun h => ?_⟩, ⟨fun _ => lastPost_one.2 hx, fun _ => rfl⟩⟩
      have := lastPost_one.1 h
      rw [hx] at this
      cases this
    | hangs =>
      have hx := e1.1 rfl
      refine ⟨⟨_, rfl⟩, ⟨fun _ => lastPost_one.2 hx, fun _ => rfl⟩, ⟨fun h => (by cases h), fun h => ?_⟩⟩
      have := lastPost_one.1 h
      rw [hx] at this
      cases this

/-! ## constructors -/

theorem newMeshCliU_spec (mesh : MeshU) (log : List Post) (a : AppInfo) :
    (newMeshCliU mesh log a).1 = log ++ [⟨py "configs/application", a.payload⟩] ∧
    ((newMeshCliU mesh log a).2 = .hangs ↔ mesh log ⟨py "configs/application", a.payload⟩ = .silent) ∧
    (∀ e, (newMeshCliU mesh log a).2 ≠ .exc e) ∧ (newMeshCliU mesh log a).2 ≠ .interrupted ∧
    (mesh log ⟨py "configs/application", a.payload⟩ = .interrupt → (newMeshCliU mesh log a).2 = .val none) := by
  have hl := postU_log mesh log (py "configs/application") a.payload
  obtain ⟨e1, e2⟩ := postU_ends mesh log (py "configs/application") a.payload
  unfold newMeshCliU
  generalize postU mesh log (py "configs/application") a.payload = r at hl e1 e2
  obtain ⟨log', r⟩ := r
  dsimp only at hl e1 e2
  subst hl
  refine ⟨?_, ?_, ?_, ?_, ?_⟩
  · cases r <;> rfl
  · rw [← e1]
    cases r <;> simp
  · intro e
    cases r <;> simp
  · cases r <;> simp
  · intro h
    rw [e2.2 h]

/-! ## C191 -/

/-- C191, what holds: every call but the constructions of clients and listeners ends with an interrupt exactly if it was
interrupted while it waited for the mesh. -/
theorem C191_interrupt_partial (mesh : MeshU) (p : Proc) (op : POp) (h : Constructs op = false) :
    (pstepU mesh p op).2 = .interrupted ↔ LastPost mesh p.log (pstepU mesh p op).1.log .interrupt := by
  have none : ∀ (q : Proc) (r : Ends Unit), q.log = p.log → r ≠ .interrupted →
      (r = .interrupted ↔ LastPost mesh p.log q.log .interrupt) := by
    intro q r hq hr
    rw [hq]
    exact ⟨fun h => absurd h hr, fun h => absurd h lastPost_none⟩
  cases op with
  | newClient a => cases h
  | newListener a port => cases h
  | assign k a =>
    simp only [pstepU]
    split <;> exact none _ _ rfl (by intro h; cases h)
  | subscribe i infs =>
    simp only [pstepU]
    split
    · exact (nameLoopU_spec mesh _ _ infs p.log p.svc).2.2
    · exact none _ _ rfl (by intro h; cases h)
  | unsubscribe i infs =>
    simp only [pstepU]
    split
    · exact (nameLoopU_spec mesh _ _ infs p.log p.svc).2.2
    · exact none _ _ rfl (by intro h; cases h)
  | register j r =>
    simp only [pstepU]
    split <;> exact none _ _ rfl (by intro h; cases h)
  | publish j =>
    simp only [pstepU]
    split
    · exact (postEachU_spec mesh _ _ _ p.log).2.2
    · exact none _ _ rfl (by intro h; cases h)
  | unpublish j =>
    simp only [pstepU]
    split
    · exact (postEachU_spec mesh _ _ _ p.log).2.2
    · exact none _ _ rfl (by intro h; cases h)

/-- What happens, always: a construction that is interrupted returns all the same, with a client or listener that never uses
the mesh again: its `subscribe`, `unsubscribe`, `publish` and `unpublish` do nothing. -/
theorem C191_always (mesh : MeshU) (p : Proc) (op : POp) (h : Constructs op = true)
    (hi : LastPost mesh p.log (pstepU mesh p op).1.log .interrupt) :
    (pstepU mesh p op).2 = .val () ∧
    ((pstepU mesh p op).1.clients = p.clients ++ [none] ∨
      ∃ port app, (pstepU mesh p op).1.listeners = p.listeners ++ [⟨none, port, app⟩]) := by
  have key : ∀ a : AppInfo, LastPost mesh p.log (p.log ++ [⟨py "configs/application", a.payload⟩]) .interrupt →
      newMeshCliU mesh p.log a = (p.log ++ [⟨py "configs/application", a.payload⟩], .val none) := by
    intro a ha
    obtain ⟨s1, -, -, -, s5⟩ := newMeshCliU_spec mesh p.log a
    exact Prod.ext s1 (s5 (lastPost_one.1 ha))
  have logOf : ∀ a, (newMeshCliU mesh p.log a).1 = p.log ++ [⟨py "configs/application", AppInfo.payload a⟩] :=
    fun a => (newMeshCliU_spec mesh p.log a).1
  cases op with
  | newClient a =>
    have hlog : (pstepU mesh p (.newClient a)).1.log = p.log ++ [⟨py "configs/application", a.payload⟩] := by
      rw [← logOf]
      simp only [pstepU]
      rcases newMeshCliU mesh p.log a with ⟨log', r⟩
      cases r <;> rfl
    rw [hlog] at hi
    simp only [pstepU, key a hi]
    exact ⟨trivial, .inl trivial⟩
  | newListener a port =>
    have hlog : (pstepU mesh p (.newListener a port)).1.log = p.log ++ [⟨py "configs/application", a.payload⟩] := by
      rw [← logOf]
      simp only [pstepU]
      rcases newMeshCliU mesh p.log a with ⟨log', r⟩
      cases r <;> rfl
    rw [hlog] at hi
    simp only [pstepU, key a hi]
    exact ⟨trivial, .inr ⟨_, _, rfl⟩⟩
  | _ => cases h

/-- clients and listeners without a mesh client leave the mesh alone -/
theorem C191_unused (mesh : MeshU) (p : Proc) :
    (∀ i infs, p.clients[i]? = some none → pstepU mesh p (.subscribe i infs) = (p, .val ()) ∧
      pstepU mesh p (.unsubscribe i infs) = (p, .val ())) ∧
    ∀ j l, p.listeners[j]? = some l → l.mesh = none → pstepU mesh p (.publish j) = (p, .val ()) ∧
      pstepU mesh p (.unpublish j) = (p, .val ()) := by
  refine ⟨fun i infs h => ?_, fun j l h hm => ?_⟩
  · simp only [pstepU, h]
    exact ⟨trivial, trivial⟩
  · obtain ⟨m, port, app⟩ := l
    dsimp only at hm
    subst hm
    simp only [pstepU, h]
    exact ⟨trivial, trivial⟩


/-- C191 fails: `Client(app_name)`, interrupted with Ctrl-C while the mesh does not answer, returns. -/
theorem C191_violated : ¬ C191_full := by
  intro h
  have := h (fun _ _ => .interrupt) {} (.newClient { appName := .str (py "app") }) ⟨[], _, rfl, rfl⟩
  revert this
  decide +kernel

/-! ## C192 -/

/-- C192 fails: a mesh that accepts connections and does not answer. -/
theorem C192_violated : ¬ C192_full := by
  intro h
  have := h (fun _ _ => .silent) {} (.newClient { appName := .str (py "app") })
  revert this
  decide +kernel

theorem pstepU_grows (mesh : MeshU) (p : Proc) (op : POp) : ∃ more, (pstepU mesh p op).1.log = p.log ++ more := by
  cases op with
  | newClient a =>
    refine ⟨_, Eq.trans ?_ (newMeshCliU_spec mesh p.log a).1⟩
    simp only [pstepU]
    rcases newMeshCliU mesh p.log a with ⟨log', r⟩
    cases r <;> rfl
  | newListener a port =>
    refine ⟨_, Eq.trans ?_ (newMeshCliU_spec mesh p.log a).1⟩
    simp only [pstepU]
    rcases newMeshCliU mesh p.log a with ⟨log', r⟩
    cases r <;> rfl
  | assign k a =>
    simp only [pstepU]
    split <;> exact ⟨[], (List.append_nil _).symm⟩
  | subscribe i infs =>
    simp only [pstepU]
    split
    · exact (nameLoopU_spec mesh _ _ infs p.log p.svc).1
    · exact ⟨[], (List.append_nil _).symm⟩
  | unsubscribe i infs =>
    simp only [pstepU]
    split
    · exact (nameLoopU_spec mesh _ _ infs p.log p.svc).1
    · exact ⟨[], (List.append_nil _).symm⟩
  | register j r =>
    simp only [pstepU]
    split <;> exact ⟨[], (List.append_nil _).symm⟩
  | publish j =>
    simp only [pstepU]
    split
    · exact (postEachU_spec mesh _ _ _ p.log).1
    · exact ⟨[], (List.append_nil _).symm⟩
  | unpublish j =>
    simp only [pstepU]
    split
    · exact (postEachU_spec mesh _ _ _ p.log).1
    · exact ⟨[], (List.append_nil _).symm⟩

/-- C192, exactly: a call does not end if and only if the last request it sends is never answered. There is no time limit
anywhere. -/
theorem C192_hangs_partial (mesh : MeshU) (p : Proc) (op : POp) :
    (pstepU mesh p op).2 = .hangs ↔ LastPost mesh p.log (pstepU mesh p op).1.log .silent := by
  have none : ∀ (q : Proc) (r : Ends Unit), q.log = p.log → r ≠ .hangs →
      (r = .hangs ↔ LastPost mesh p.log q.log .silent) := by
    intro q r hq hr
    rw [hq]
    exact ⟨fun h => absurd h hr, fun h => absurd h lastPost_none⟩
  cases op with
  | newClient a =>
    obtain ⟨s1, s2, s3, s4, -⟩ := newMeshCliU_spec mesh p.log a
    simp only [pstepU]
    generalize newMeshCliU mesh p.log a = r at s1 s2 s3 s4
    obtain ⟨log', r⟩ := r
    dsimp only at s1 s2 s3 s4
    subst s1
    cases r with
    | val m => exact Iff.trans (by simp) (s2.trans lastPost_one.symm)
    | exc e => exact absurd rfl (s3 e)
    | interrupted => exact absurd rfl s4
    | hangs => exact Iff.trans (by simp) (s2.trans lastPost_one.symm)
  | newListener a port =>
    obtain ⟨s1, s2, s3, s4, -⟩ := newMeshCliU_spec mesh p.log a
    simp only [pstepU]
    generalize newMeshCliU mesh p.log a = r at s1 s2 s3 s4
    obtain ⟨log', r⟩ := r
    dsimp only at s1 s2 s3 s4
    subst s1
    cases r with
    | val m => exact Iff.trans (by simp) (s2.trans lastPost_one.symm)
    | exc e => exact absurd rfl (s3 e)
    | interrupted => exact absurd rfl s4
    | hangs => exact Iff.trans (by simp) (s2.trans lastPost_one.symm)
  | assign k a =>
    simp only [pstepU]
    split <;> exact none _ _ rfl (by intro h; cases h)
  | subscribe i infs =>
    simp only [pstepU]
    split
    · exact (nameLoopU_spec mesh _ _ infs p.log p.svc).2.1
    · exact none _ _ rfl (by intro h; cases h)
  | unsubscribe i infs =>
    simp only [pstepU]
    split
    · exact (nameLoopU_spec mesh _ _ infs p.log p.svc).2.1
    · exact none _ _ rfl (by intro h; cases h)
  | register j r =>
    simp only [pstepU]
    split <;> exact none _ _ rfl (by intro h; cases h)
  | publish j =>
    simp only [pstepU]
    split
    · exact (postEachU_spec mesh _ _ _ p.log).2.1
    · exact none _ _ rfl (by intro h; cases h)
  | unpublish j =>
    simp only [pstepU]
    split
    · exact (postEachU_spec mesh _ _ _ p.log).2.1
    · exact none _ _ rfl (by intro h; cases h)

theorem prunU_snoc (mesh : MeshU) (ops : List POp) (op : POp) :
    prunU mesh (ops ++ [op]) = if (prunU mesh ops).2 then prunU mesh ops
      else ((pstepU mesh (prunU mesh ops).1 op).1, decide ((pstepU mesh (prunU mesh ops).1 op).2 = .hangs)) := by
  unfold prunU
  rw [List.foldl_append]
  rfl

/-- The last request of an extended log is a new one, or there are no new ones. -/
theorem lastPost_append {mesh : MeshU} {log more : List Post} {x : MeshAns} :
    LastPost mesh [] (log ++ more) x ↔ (more = [] ∧ LastPost mesh [] log x) ∨ LastPost mesh log (log ++ more) x := by
  constructor
  · rintro ⟨mid, post, h, hx⟩
    rcases List.eq_nil_or_concat more with hn | ⟨ms, q, hm⟩
    · subst hn
      rw [List.append_nil] at h
      exact .inl ⟨rfl, mid, post, h, hx⟩
    · right
      rw [List.concat_eq_append] at hm
      subst hm
      rw [← List.append_assoc] at h
      have h1 := (List.append_inj' h rfl)
      obtain ⟨h1, h2⟩ := h1
      cases h2
      refine ⟨ms, _, by rw [List.append_assoc], ?_⟩
      rw [h1]
      exact hx
  · rintro (⟨hn, mid, post, h, hx⟩ | ⟨mid, post, h, hx⟩)
    · subst hn
      exact ⟨mid, post, by rw [List.append_nil]; exact h, hx⟩
    · exact ⟨log ++ mid, post, by rw [h]; simp, by simpa using hx⟩

/-- A program hangs exactly if the last of all its requests was never answered. -/
theorem C192_program (mesh : MeshU) (ops : List POp) :
    (prunU mesh ops).2 = true ↔ LastPost mesh [] (prunU mesh ops).1.log .silent := by
  induction ops using snoc_induct with
  | nil => exact ⟨fun h => (by cases h), fun h => absurd h lastPost_none⟩
  | snoc ops op ih =>
    rw [prunU_snoc]
    by_cases hh : (prunU mesh ops).2 = true
    · rw [if_pos hh]
      exact ih
    · rw [if_neg hh]
      dsimp only
      rw [decide_eq_true_iff, C192_hangs_partial]
      obtain ⟨more, hm⟩ := pstepU_grows mesh (prunU mesh ops).1 op
      rw [hm, lastPost_append]
      constructor
      · exact .inr
      · rintro (⟨-, h⟩ | h)
        · exact absurd (ih.2 h) hh
        · exact h

/-- What happens, always: the rest of a program that hangs is not executed. -/
theorem C192_always (mesh : MeshU) (ops later : List POp) (h : (prunU mesh ops).2 = true) :
    prunU mesh (ops ++ later) = prunU mesh ops := by
  induction later using snoc_induct with
  | nil => rw [List.append_nil]
  | snoc later op ih => rw [← List.append_assoc, prunU_snoc, ih, if_pos h]

/-! ## a mesh that answers -/

theorem postU_same (mesh : Mesh) (log : List Post) (ep : PyStr) (json : PyDict PyStr PayVal) :
    postU (fun l q => .res (mesh l q)) log ep json =
      match meshPost mesh log ep json with
      | (log', .ok d) => (log', .val d)
      | (log', .error e) => (log', .exc e) := rfl

theorem nameLoopU_same (mesh : Mesh) (ep : PyStr) (eff : PyDict PyStr SvcAddr → PyStr → PyDict PyStr SvcAddr)
    (one : CliWorld → PyStr → CliWorld)
    (hone : ∀ w inf, one w inf = match meshPost mesh w.log ep (serviceNameJson inf) with
      | (log', .error _) => { w with log := log' }
      | (log', .ok _) => { w with log := log', svc := eff w.svc inf })
    (infs : List PyStr) (w : CliWorld) :
    nameLoopU (fun l q => .res (mesh l q)) ep eff w.log w.svc infs =
      ((infs.foldl one w).log, (infs.foldl one w).svc, .val ()) := by
  induction infs generalizing w with
  | nil => rfl
  | cons inf infs ih =>
    rw [List.foldl_cons, ← ih (one w inf)]
    have ho := hone w inf
    conv => lhs; unfold nameLoopU
    rw [postU_same]
    generalize meshPost mesh w.log ep (serviceNameJson inf) = r at ho
    obtain ⟨log', r⟩ := r
    cases r with
    | ok d => rw [ho]
    | error e => rw [ho]

theorem postEachU_same (mesh : Mesh) (ep : PyStr) (json : PyStr → PyDict PyStr PayVal) (ss : List PyStr) (log : List Post) :
    postEachU (fun l q => .res (mesh l q)) ep json log ss =
      match postEach mesh ep json log ss with
      | (log', .ok _) => (log', .val ())
      | (log', .error e) => (log', .exc e) := by
  induction ss generalizing log with
  | nil => rfl
  | cons s ss ih =>
    unfold postEachU postEach
    rw [postU_same]
    generalize meshPost mesh log ep (json s) = r
    obtain ⟨log', r⟩ := r
    cases r with
    | ok d => exact ih log'
    | error e => rfl

theorem newMeshCliU_same (mesh : Mesh) (log : List Post) (a : AppInfo) :
    newMeshCliU (fun l q => .res (mesh l q)) log a = ((newMeshCli mesh log a).1, .val (newMeshCli mesh log a).2) := by
  unfold newMeshCliU newMeshCli MeshCli.startup
  rw [postU_same]
  dsimp only
  generalize meshPost mesh log (py "configs/application") a.payload = r
  obtain ⟨log', r⟩ := r
  cases r <;> rfl

/-- With a mesh that answers every request (or fails), and without interrupts, all is as in `Model/Process.lean`. -/
theorem C192_same (mesh : Mesh) (ops : List POp) :
    prunU (fun l q => .res (mesh l q)) ops = (prun mesh ops, false) := by
  have step : ∀ p op, (pstepU (fun l q => .res (mesh l q)) p op).1 = pstep mesh p op := by
    intro p op
    cases op with
    | newClient a => simp only [pstepU, pstep, newMeshCliU_same]
    | newListener a port => simp only [pstepU, pstep, newMeshCliU_same]
    | assign k a =>
      simp only [pstepU, pstep]
      rcases svcSet p.svc k a with ⟨s, r⟩
      cases r <;> rfl
    | subscribe i infs =>
      simp only [pstepU, pstep]
      rcases p.clients[i]? with _ | _ | m
      · rfl
      · rfl
      · dsimp only
        rw [nameLoopU_same mesh (py "services/subscribe") (fun svc k => (svcSet svc k meshAddress).1) (subscribeOne mesh)
          (fun _ _ => rfl) infs ⟨some m, p.log, p.svc⟩]
        rfl
    | unsubscribe i infs =>
      simp only [pstepU, pstep]
      rcases p.clients[i]? with _ | _ | m
      · rfl
      · rfl
      · dsimp only
        rw [nameLoopU_same mesh (py "services/unsubscribe") (fun svc k => (svcPop svc k).1) (unsubscribeOne mesh)
          (fun _ _ => rfl) infs ⟨some m, p.log, p.svc⟩]
        rfl
    | register j r =>
      simp only [pstepU, pstep]
      rcases p.listeners[j]? with _ | l <;> rfl
    | publish j =>
      simp only [pstepU, pstep]
      rcases p.listeners[j]? with _ | ⟨_ | m, port, app⟩
      · rfl
      · rfl
      · simp only [postEachU_same, publish]
        rcases postEach mesh _ _ p.log _ with ⟨l, r⟩
        cases r <;> rfl
    | unpublish j =>
      simp only [pstepU, pstep]
      rcases p.listeners[j]? with _ | ⟨_ | m, port, app⟩
      · rfl
      · rfl
      · simp only [postEachU_same, unpublish]
        rcases postEach mesh _ _ p.log _ with ⟨l, r⟩
        cases r <;> rfl
  induction ops using snoc_induct with
  | nil => rfl
  | snoc ops op ih =>
    rw [prunU_snoc, ih, prun_snoc]
    dsimp only
    rw [if_neg (by simp), step]
    refine Prod.ext rfl (decide_eq_false fun h => ?_)
    obtain ⟨mid, post, -, hx⟩ := (C192_hangs_partial _ _ _).1 h
    cases hx

/-! ## concrete cases -/

/-- the mesh answers its first two requests -/
private def twoAnswers (then_ : MeshAns) : MeshU := fun log _ =>
  if log.length < 2 then .res (.resp 200 (.object [(py "success", .bool true)])) else then_

private def app : AppInfo := { appName := .str (py "app") }

/-- `subscribe("a", "b", "c")`, interrupted at "b": "a" is subscribed, the program gets the interrupt, "c" is not asked for. -/
example :
    let p := (pstepU (twoAnswers .interrupt) {} (.newClient app)).1
    let r := pstepU (twoAnswers .interrupt) p (.subscribe 0 [py "a", py "b", py "c"])
    Constructs (.subscribe 0 [py "a", py "b", py "c"]) = false ∧ r.2 = .interrupted ∧ r.1.log.length = 3 ∧
    r.1.svc = [(py "a", meshAddress)] := by decide +kernel

/-- a construction that is interrupted leaves a client without mesh client, whose `subscribe` does nothing -/
example :
    let p := (pstepU (fun _ _ => .interrupt) {} (.newClient app)).1
    p.clients = [none] ∧ pstepU (twoAnswers .silent) p (.subscribe 0 [py "a"]) = (p, .val ()) := by decide +kernel

/-- a program that hangs in its second call; the third is not made -/
example :
    let ops : List POp := [.newClient app, .subscribe 0 [py "a", py "b", py "c"], .assign (py "d") (.host (py "h"))]
    (prunU (twoAnswers .silent) ops).2 = true ∧ (prunU (twoAnswers .silent) ops).1.log.length = 3 ∧
    (prunU (twoAnswers .silent) ops).1.svc = [(py "a", meshAddress)] := by decide +kernel

end Bolt
