import Verif.Model.Serving
import Verif.Props.Unpublish
/-!
# C201: what is announced is served
-/
namespace Bolt
open Spec

namespace Spec

/-- According to what it has accepted, the mesh holds an announcement of the service at this port by this process: it has
accepted one, and since then no request to withdraw the service. -/
def AnnouncedAt (mesh : Mesh) (log : List Post) (s : PyStr) (port : Int) : Prop :=
  ∃ (i : Nat) (app : PyObj), log[i]? = some (publishReq port app s) ∧
    Accepts mesh (log.take i) (publishReq port app s) ∧
    ∀ k, i < k → log[k]? = some (withdrawReq s) → ¬ Accepts mesh (log.take k) (withdrawReq s)

/-- the calls of a process without those of `run_forever` and `shutdown` -/
def ordinary (ops : List ServOp) : List POp := ops.filterMap fun o => match o with | .op o => some o | _ => none

/-- The program keeps to an order of calls: it publishes only with listeners that serve, and shuts a listener down only when
nothing is announced at its port. -/
def InOrder (mesh : Mesh) (ops : List ServOp) : Prop :=
  ∀ pre o post, ops = pre ++ o :: post →
    (∀ j, o = .op (.publish j) → j ∈ (servRun mesh pre).up) ∧
    (∀ j l s, o = .shutdown j → (servRun mesh pre).proc.listeners[j]? = some l →
      ¬ AnnouncedAt mesh (servRun mesh pre).proc.log s l.port)

end Spec

/-- C201 as listed: a service the mesh holds an announcement of is served: the process has a listener with the announced port
that serves. -/
def C201_full : Prop :=
  ∀ (mesh : Mesh) (ops : List ServOp) (s : PyStr) (port : Int), AnnouncedAt mesh (servRun mesh ops).proc.log s port →
    ∃ j l, (servRun mesh ops).proc.listeners[j]? = some l ∧ l.port = port ∧ j ∈ (servRun mesh ops).up

theorem servRun_snoc (mesh : Mesh) (ops : List ServOp) (o : ServOp) : servRun mesh (ops ++ [o]) = servStep mesh (servRun mesh ops) o := by
  simp [servRun, List.foldl_append]

theorem announcedAt_iff (mesh : Mesh) (log : List Post) (s : PyStr) :
    Announced mesh log s ↔ ∃ port, AnnouncedAt mesh log s port :=
  ⟨fun ⟨i, port, app, h⟩ => ⟨port, i, app, h⟩, fun ⟨port, i, app, h⟩ => ⟨i, port, app, h⟩⟩

theorem announcedAt_new {mesh : Mesh} {log ps : List Post} {s : PyStr} {port : Int}
    (h : AnnouncedAt mesh (log ++ ps) s port) :
    AnnouncedAt mesh log s port ∨ ∃ app, publishReq port app s ∈ ps := by
  obtain ⟨i, app, h1, h2, h3⟩ := h
  by_cases hi : i < log.length
  · rw [List.getElem?_append_left hi] at h1
    rw [List.take_append_of_le_length (by omega)] at h2
    refine .inl ⟨i, app, h1, h2, fun k hk hs => ?_⟩
    have hkl : k < log.length := (List.getElem?_eq_some_iff.1 hs).1
    have := h3 k hk (by rw [List.getElem?_append_left hkl]; exact hs)
    rwa [List.take_append_of_le_length (by omega)] at this
  · rw [List.getElem?_append_right (by omega)] at h1
    exact .inr ⟨app, List.mem_of_getElem? h1⟩

/-- C201. Whatever listeners run and are shut down in between: requests, announcements, listeners and registered interfaces
are those of the other calls alone. -/
theorem C201_apart (mesh : Mesh) (ops : List ServOp) : (servRun mesh ops).proc = prun mesh (ordinary ops) := by
  induction ops using snoc_induct with
  | nil => rfl
  | snoc ops o ih =>
    rw [servRun_snoc]
    have hs : ordinary (ops ++ [o]) = ordinary ops ++ ordinary [o] := by simp [ordinary]
    rw [hs]
    cases o with
    | op o =>
      have : ordinary [ServOp.op o] = [o] := rfl
      rw [this, prun_snoc, ← ih]
      rfl
    | run j =>
      have : ordinary [ServOp.run j] = [] := rfl
      rw [this, List.append_nil, ← ih]
      unfold servStep
      dsimp only
      split <;> rfl
    | shutdown j =>
      have : ordinary [ServOp.shutdown j] = [] := rfl
      rw [this, List.append_nil, ← ih]
      rfl

/-- C201. Whatever was announced is still announced after a listener has been shut down, and that listener does not serve. -/
theorem C201_always (mesh : Mesh) (ops : List ServOp) (j : Nat) (s : PyStr) (port : Int) :
    (AnnouncedAt mesh (servRun mesh (ops ++ [.shutdown j])).proc.log s port ↔ AnnouncedAt mesh (servRun mesh ops).proc.log s port) ∧
      j ∉ (servRun mesh (ops ++ [.shutdown j])).up := by
  rw [servRun_snoc]
  simp [servStep]

theorem pstep_listeners_keep (mesh : Mesh) (p : Proc) (o : POp) (j : Nat) (l : ListenerObj)
    (h : p.listeners[j]? = some l) : (pstep mesh p o).listeners[j]? = some l := by
  cases o with
  | newListener a port =>
    simp only [pstep]
    rw [List.getElem?_append_left (List.getElem?_eq_some_iff.1 h).1]
    exact h
  | newClient a => exact h
  | assign k a => exact h
  | subscribe i infs => unfold pstep; dsimp only; split <;> exact h
  | unsubscribe i infs => unfold pstep; dsimp only; split <;> exact h
  | register i r => unfold pstep; dsimp only; split <;> exact h
  | publish i => unfold pstep; dsimp only; split <;> exact h
  | unpublish i => unfold pstep; dsimp only; split <;> exact h

/-- an announcement after a call was there before, or is one of a listener that publishes -/
theorem pstep_announcedAt {mesh : Mesh} {p : Proc} {o : POp} {s : PyStr} {port : Int}
    (h : AnnouncedAt mesh (pstep mesh p o).log s port) :
    AnnouncedAt mesh p.log s port ∨ ∃ j l, o = .publish j ∧ p.listeners[j]? = some l ∧ l.port = port := by
  by_cases hu : ∃ j, o = .unpublish j
  · obtain ⟨j, rfl⟩ := hu
    refine .inl ?_
    unfold pstep at h
    dsimp only at h
    split at h
    · exact h
    · next l hl =>
      cases hm : l.mesh with
      | none => rw [hm] at h; exact h
      | some m =>
        rw [hm] at h
        obtain ⟨k, -, h1, -⟩ := (C48_unpublish mesh p.log (some m) (p.reg.map Prod.fst)).2 (by simp)
        dsimp only at h
        rw [h1] at h
        rcases announcedAt_new h with h | ⟨app, hp⟩
        · exact h
        · obtain ⟨t, -, ht⟩ := List.mem_map.1 hp
          exact absurd ht.symm (publish_ne_withdraw port app s t)
  · obtain ⟨ps, h1, -, h3⟩ := pstep_posts mesh p o (fun j e => hu ⟨j, e⟩)
    rw [h1] at h
    rcases announcedAt_new h with h | ⟨app, hp⟩
    · exact .inl h
    · exact .inr (h3 port app s hp).2

/-- C201, what holds: in a program that publishes only with listeners that serve and shuts a listener down only when nothing
is announced at its port, every announced service is served. Missing: that the library keeps this order by itself. -/
theorem C201_served_partial (mesh : Mesh) (ops : List ServOp) (ho : InOrder mesh ops) (s : PyStr) (port : Int)
    (h : AnnouncedAt mesh (servRun mesh ops).proc.log s port) :
    ∃ j l, (servRun mesh ops).proc.listeners[j]? = some l ∧ l.port = port ∧ j ∈ (servRun mesh ops).up := by
  induction ops using snoc_induct with
  | nil =>
    obtain ⟨i, app, h1, -⟩ := h
    cases h1
  | snoc ops o ih =>
    have ho' : InOrder mesh ops := fun pre o' post e => ho pre o' (post ++ [o]) (by rw [e]; simp)
    have hlast := ho ops o [] rfl
    rw [servRun_snoc] at h ⊢
    cases o with
    | op o =>
      rcases pstep_announcedAt h with h | ⟨j, l, rfl, hl, hp⟩
      · obtain ⟨j, l, h1, h2, h3⟩ := ih ho' h
        exact ⟨j, l, pstep_listeners_keep mesh _ o j l h1, h2, h3⟩
      · exact ⟨j, l, pstep_listeners_keep mesh _ _ j l hl, hp, hlast.1 j rfl⟩
    | run i =>
      have e : (servStep mesh (servRun mesh ops) (.run i)).proc = (servRun mesh ops).proc := by
        unfold servStep; dsimp only; split <;> rfl
      rw [e] at h
      obtain ⟨j, l, h1, h2, h3⟩ := ih ho' h
      refine ⟨j, l, by rw [e]; exact h1, h2, ?_⟩
      unfold servStep
      dsimp only
      split
      · exact h3
      · exact List.mem_cons_of_mem _ h3
    | shutdown i =>
      obtain ⟨j, l, h1, h2, h3⟩ := ih ho' h
      refine ⟨j, l, h1, h2, List.mem_filter.2 ⟨h3, ?_⟩⟩
      have : j ≠ i := by
        rintro rfl
        exact hlast.2 j l s rfl h1 (h2 ▸ h)
      simpa using this

/-! ## concrete cases -/

/-- a listener announces two services, and only afterwards, if at all, serves -/
def exServeOps : List ServOp := exAnnounceOps.map .op

theorem exServe_announced : AnnouncedAt yesMesh (servRun yesMesh exServeOps).proc.log (py "b") 1 := by
  refine ⟨2, .none, by decide, ⟨_, rfl, rfl⟩, fun k hk hs => ?_⟩
  have h1 := (List.getElem?_eq_some_iff.1 hs).1
  have h2 : (servRun yesMesh exServeOps).proc.log.length = 3 := by decide
  omega

/-- C201 is violated: a listener can announce its services before it serves. -/
theorem C201_violated : ¬ C201_full := by
  intro h
  obtain ⟨j, l, -, -, h3⟩ := h yesMesh exServeOps (py "b") 1 exServe_announced
  have : (servRun yesMesh exServeOps).up = [] := by decide
  rw [this] at h3
  cases h3

/-- C201. And in a process that begins to serve before it publishes, the services stay announced after `shutdown`. -/
theorem C201_left : ∃ (ops : List ServOp) (s : PyStr) (port : Int),
    (∀ pre j post, ops = pre ++ ServOp.op (.publish j) :: post → j ∈ (servRun yesMesh pre).up) ∧
    AnnouncedAt yesMesh (servRun yesMesh ops).proc.log s port ∧ (servRun yesMesh ops).up = [] := by
  refine ⟨[.op (.newListener { appName := .none } 1), .op (.register 0 { interface := py "a", cls := 0 }), .run 0,
    .op (.publish 0), .shutdown 0], py "a", 1, ?_, ?_, by decide⟩
  · intro pre j post e
    rcases pre with _ | ⟨a, _ | ⟨b, _ | ⟨c, _ | ⟨d, _ | ⟨f, pre⟩⟩⟩⟩⟩
    · simp at e
    · simp at e
    · simp at e
    · simp only [List.cons_append, List.nil_append, List.cons.injEq] at e
      obtain ⟨rfl, rfl, rfl, e, -⟩ := e
      cases e
      decide
    · simp at e
    · simp at e
  · refine ⟨1, .none, by decide, ⟨_, rfl, rfl⟩, fun k hk hs => ?_⟩
    have h1 := (List.getElem?_eq_some_iff.1 hs).1
    have h2 : (servRun yesMesh [.op (.newListener { appName := .none } 1), .op (.register 0 { interface := py "a", cls := 0 }),
      .run 0, .op (.publish 0), .shutdown 0]).proc.log.length = 2 := by decide
    rw [h2] at h1
    omega

/-- non-vacuity of `C201_served_partial`: run, then publish -/
example : InOrder yesMesh [.op (.newListener { appName := .none } 1), .op (.register 0 { interface := py "a", cls := 0 }),
    .run 0, .op (.publish 0)] ∧
    (servRun yesMesh [.op (.newListener { appName := .none } 1), .op (.register 0 { interface := py "a", cls := 0 }),
      .run 0, .op (.publish 0)]).proc.log[1]? = some (publishReq 1 .none (py "a")) := by
  refine ⟨fun pre o post e => ?_, by decide⟩
  rcases pre with _ | ⟨a, _ | ⟨b, _ | ⟨c, _ | ⟨d, pre⟩⟩⟩⟩
  · simp only [List.nil_append, List.cons.injEq] at e
    obtain ⟨rfl, -⟩ := e
    exact ⟨fun j h => (by cases h), fun j l s h => (by cases h)⟩
  · simp only [List.cons_append, List.nil_append, List.cons.injEq] at e
    obtain ⟨-, rfl, -⟩ := e
    exact ⟨fun j h => (by cases h), fun j l s h => (by cases h)⟩
  · simp only [List.cons_append, List.nil_append, List.cons.injEq] at e
    obtain ⟨-, -, rfl, -⟩ := e
    exact ⟨fun j h => (by cases h), fun j l s h => (by cases h)⟩
  · simp only [List.cons_append, List.nil_append, List.cons.injEq] at e
    obtain ⟨rfl, rfl, rfl, rfl, -⟩ := e
    exact ⟨fun j h => (by cases h; decide), fun j l s h => (by cases h)⟩
  · simp at e

end Bolt
