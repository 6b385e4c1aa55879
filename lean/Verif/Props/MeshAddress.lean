import Verif.Model.MeshAddress
import Verif.Lemmas.Dict
/-!
# C168: everything for the mesh goes to the mesh address in effect
-/
namespace Bolt
namespace Spec

/-- the address that a value of `mesh_service_address` or `SERVICE_MAP` stands for -/
def endpointOf : SvcAddr → PyStr × Int
  | .host h => (h, 12200)
  | .pair h p => (h, p)

/-- the value assigned last, or the one at first -/
def lastAssigned (a : SvcAddr) : List MaEv → SvcAddr
  | [] => a
  | .assign b :: es => lastAssigned b es
  | _ :: es => lastAssigned a es

end Spec
open Spec

theorem ma_get?_erase_ne {K V : Type} [DecidableEq K] (d : PyDict K V) {k k2 : K} (h : k ≠ k2) :
    PyDict.get? (PyDict.erase d k) k2 = PyDict.get? d k2 := by
  induction d with
  | nil => rfl
  | cons x d ih =>
    obtain ⟨a, b⟩ := x
    simp only [PyDict.erase]
    by_cases h1 : a = k
    · subst h1
      rw [if_pos rfl, PyDict.get?_cons, if_neg h]
    · rw [if_neg h1, PyDict.get?_cons, PyDict.get?_cons, ih]

theorem MaWorld.step_timer (w : MaWorld) (e : MaEv) : (w.step e).1.timer = w.timer := by
  cases e <;> simp only [MaWorld.step, MaWorld.mapSet] <;> repeat' split
  all_goals rfl

theorem MaWorld.step_mesh (w : MaWorld) (e : MaEv) : (w.step e).1.mesh = w.mesh := by
  cases e <;> simp only [MaWorld.step, MaWorld.mapSet] <;> repeat' split
  all_goals rfl

theorem maRun_timer (w : MaWorld) (evs : List MaEv) : (maRun w evs).1.timer = w.timer := by
  induction evs generalizing w with
  | nil => rfl
  | cons e es ih => simp only [maRun, ih, MaWorld.step_timer]

theorem maRun_mesh (w : MaWorld) (evs : List MaEv) : (maRun w evs).1.mesh = w.mesh := by
  induction evs generalizing w with
  | nil => rfl
  | cons e es ih => simp only [maRun, ih, MaWorld.step_mesh]

theorem maRun_attr (w : MaWorld) (evs : List MaEv) : (maRun w evs).1.attr = lastAssigned w.attr evs := by
  induction evs generalizing w with
  | nil => rfl
  | cons e es ih =>
    simp only [maRun, ih]
    cases e <;> simp only [lastAssigned, MaWorld.step, MaWorld.mapSet] <;> repeat' split
    all_goals rfl

theorem maRun_append (w : MaWorld) (xs ys : List MaEv) :
    maRun w (xs ++ ys) = ((maRun (maRun w xs).1 ys).1, (maRun w xs).2 ++ (maRun (maRun w xs).1 ys).2) := by
  induction xs generalizing w with
  | nil => rfl
  | cons e es ih => simp only [List.cons_append, maRun, ih, List.append_assoc]

theorem MaWorld.address_eq (w : MaWorld) (k : Option PyStr) :
    w.address k = endpointOf ((PyDict.get? w.svc k).getD w.attr) := by
  unfold MaWorld.address endpointOf
  cases (PyDict.get? w.svc k).getD w.attr <;> rfl

/-- C168 as listed: a heartbeat sent at any time, and a call of an interface that was subscribed through the mesh, go to the
`mesh_service_address` of that time. -/
def C168_full : Prop :=
  ∀ (w : MaWorld) (evs : List MaEv), PyDict.get? w.svc none = none →
    (∀ a, MaMsg.heartbeat a ∈ ((maRun (w.construct true) evs).1.step .beat).2 → a = endpointOf (lastAssigned w.attr evs)) ∧
    (∀ k pre post a, evs = pre ++ .subscribe k true :: post → PyDict.get? (maRun (w.construct true) pre).1.svc (some k) = none →
      (∀ ok, MaEv.unsubscribe k ok ∉ post) →
      MaMsg.call k a ∈ ((maRun (w.construct true) evs).1.step (.call k)).2 → a = endpointOf (lastAssigned w.attr evs))

/-- All heartbeats go where `_get_address(None)` was when the client was made, whatever is assigned later; without a mesh
client there are none. -/
theorem C168_heartbeat (w : MaWorld) (up : Bool) (evs : List MaEv) (a : PyStr × Int)
    (h : MaMsg.heartbeat a ∈ (maRun (w.construct up) evs).2) : up = true ∧ a = w.address none := by
  have key : ∀ (w' : MaWorld) (evs : List MaEv), MaMsg.heartbeat a ∈ (maRun w' evs).2 → w'.timer = some a := by
    intro w' evs
    induction evs generalizing w' with
    | nil => intro h; cases h
    | cons e es ih =>
      intro h
      simp only [maRun, List.mem_append] at h
      rcases h with h | h
      · cases e <;> simp only [MaWorld.step, List.not_mem_nil, List.mem_singleton] at h
        · revert h
          cases w'.timer with
          | none => intro h; cases h
          | some b => intro h; simp only [List.mem_singleton, MaMsg.heartbeat.injEq] at h; rw [h]
        · cases h
      · rw [← MaWorld.step_timer w' e]
        exact ih _ h
  have := key _ _ h
  unfold MaWorld.construct at this
  cases up
  · cases this
  · simp only [if_true, Option.some.injEq] at this
    exact ⟨rfl, this.symm⟩

/-- Every tick of the timer of a client with a mesh sends a heartbeat. -/
theorem C168_beats (w : MaWorld) (evs : List MaEv) :
    ((maRun (w.construct true) evs).1.step .beat).2 = [.heartbeat (w.address none)] := by
  simp only [MaWorld.step, maRun_timer]
  rfl

/-- A call of a subscribed interface goes where the mesh address was when it was subscribed, as long as it is not unsubscribed,
whatever is assigned later. -/
theorem C168_subscribed (w : MaWorld) (pre post : List MaEv) (k : PyStr)
    (hn : PyDict.get? (maRun (w.construct true) pre).1.svc (some k) = none)
    (hu : ∀ ok, MaEv.unsubscribe k ok ∉ post) :
    ((maRun (w.construct true) (pre ++ .subscribe k true :: post)).1.step (.call k)).2 =
      [.call k (endpointOf (lastAssigned w.attr pre))] := by
  have hm : (w.construct true).attr = w.attr := by unfold MaWorld.construct; rfl
  have keep : ∀ (w' : MaWorld) (b : SvcAddr) (post : List MaEv), PyDict.get? w'.svc (some k) = some b →
      (∀ ok, MaEv.unsubscribe k ok ∉ post) → PyDict.get? (maRun w' post).1.svc (some k) = some b := by
    intro w' b post
    induction post generalizing w' with
    | nil => intro h _; exact h
    | cons e es ih =>
      intro h hu
      simp only [maRun]
      refine ih _ ?_ (fun ok hh => hu ok (List.mem_cons_of_mem _ hh))
      have hset : ∀ (k' : Option PyStr) (c : SvcAddr), PyDict.get? (w'.mapSet k' c).svc (some k) = some b := by
        intro k' c
        unfold MaWorld.mapSet
        split
        · exact h
        · rename_i hc
          have : k' ≠ some k := by
            intro hk
            subst hk
            exact hc (by simp [PyDict.contains, h])
          simp only [PyDict.get?_set, if_neg this, h]
      cases e with
      | assign a => exact h
      | mapSet k' c => exact hset k' c
      | subscribe k' ok =>
        simp only [MaWorld.step]
        split
        · exact hset _ _
        · exact h
      | unsubscribe k' ok =>
        simp only [MaWorld.step]
        split
        · have : some k' ≠ some k := fun hk => hu ok (by cases hk; exact List.mem_cons_self ..)
          rw [ma_get?_erase_ne _ this]
          exact h
        · exact h
      | beat => exact h
      | call k' => exact h
  rw [maRun_append]
  simp only [maRun, MaWorld.step, MaWorld.address_eq, List.cons.injEq, MaMsg.call.injEq, true_and, and_true]
  rw [keep _ (lastAssigned w.attr pre) post ?_ hu]
  · rfl
  · have h1 : (maRun (w.construct true) pre).1.mesh = true := by rw [maRun_mesh]; rfl
    simp only [h1, Bool.true_and, if_true, MaWorld.mapSet, PyDict.contains, hn, Option.isSome_none, Bool.false_eq_true,
      if_false, maRun_attr, hm, PyDict.get?_set]

/-- Both heartbeats and subscribed calls go to the address in effect as long as it is not assigned after the client was made. -/
theorem C168_unassigned_partial (w : MaWorld) (evs : List MaEv) (h0 : PyDict.get? w.svc none = none)
    (ha : ∀ a, MaEv.assign a ∉ evs) :
    (∀ a, MaMsg.heartbeat a ∈ ((maRun (w.construct true) evs).1.step .beat).2 → a = endpointOf w.attr) ∧
    (∀ k pre post a, evs = pre ++ .subscribe k true :: post → PyDict.get? (maRun (w.construct true) pre).1.svc (some k) = none →
      (∀ ok, MaEv.unsubscribe k ok ∉ post) →
      MaMsg.call k a ∈ ((maRun (w.construct true) evs).1.step (.call k)).2 → a = endpointOf w.attr) := by
  have hl : ∀ (b : SvcAddr) (evs : List MaEv), (∀ a, MaEv.assign a ∉ evs) → lastAssigned b evs = b := by
    intro b evs
    induction evs with
    | nil => intro _; rfl
    | cons e es ih =>
      intro h
      have := ih (fun a hh => h a (List.mem_cons_of_mem _ hh))
      cases e <;> first
        | exact this
        | exact absurd (List.mem_cons_self ..) (h _)
  constructor
  · intro a h
    rw [C168_beats, MaWorld.address_eq, h0] at h
    simpa using h
  · intro k pre post a he hn hu h
    subst he
    rw [C168_subscribed w pre post k hn hu, hl _ pre (fun a hh => ha a (List.mem_append_left _ hh))] at h
    simpa using h

/-- performance_aio.py:100-102 with a mesh: the address is assigned after the client was made. Heartbeats go to the default
address for ever, calls to the assigned one. -/
theorem C168_violated : ¬ C168_full := by
  intro h
  have := (h {} [.assign (.pair (py "127.0.0.1") 12201)] rfl).1 (py "127.0.0.1", 12220) (by decide)
  revert this
  decide

example : (maRun (({} : MaWorld).construct true)
    [.subscribe (py "s") true, .assign (.pair (py "m") 1), .beat, .call (py "s"), .call (py "t"), .subscribe (py "t") true,
     .assign (.host (py "n")), .beat, .call (py "t"), .call (py "u")]).2 =
    [.heartbeat (py "127.0.0.1", 12220), .call (py "s") (py "127.0.0.1", 12220), .call (py "t") (py "m", 1),
     .heartbeat (py "127.0.0.1", 12220), .call (py "t") (py "m", 1), .call (py "u") (py "n", 12200)] := by decide +kernel

/-- after `unsubscribe` calls follow the attribute again, unless the mesh refused -/
example : (maRun (({} : MaWorld).construct true)
    [.subscribe (py "s") true, .subscribe (py "t") true, .assign (.pair (py "m") 1), .unsubscribe (py "s") true,
     .unsubscribe (py "t") false, .call (py "s"), .call (py "t")]).2 =
    [.call (py "s") (py "m", 1), .call (py "t") (py "127.0.0.1", 12220)] := by decide +kernel

end Bolt
