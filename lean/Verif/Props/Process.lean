import Verif.Model.Process
import Verif.Props.Mesh
import Verif.Lemmas.AioClient
/-!
# C115-C117: several clients and listeners in one process
-/
namespace Bolt
open Spec

theorem prun_snoc (mesh : Mesh) (ops : List POp) (op : POp) : prun mesh (ops ++ [op]) = pstep mesh (prun mesh ops) op := by
  simp [prun, List.foldl_append]

/-- a mesh that accepts everything -/
def yesMesh : Mesh := fun _ _ => .resp 200 (.object [(py "success", .bool true)])

/-! ## C115 -/

/-- the registration of an application -/
def Spec.appReq (a : AppInfo) : Post := ⟨py "configs/application", a.payload⟩

/-- the registrations among the requests posted -/
def Spec.appPosts (log : List Post) : List Post := log.filter fun r => r.endpoint = py "configs/application"

/-- the applications named in constructor calls -/
def Spec.constructed : List POp → List AppInfo
  | [] => []
  | .newClient a :: ops => a :: constructed ops
  | .newListener a _ :: ops => a :: constructed ops
  | _ :: ops => constructed ops

/-- C115 as listed: if the mesh accepts all requests, a process registers its application once, however many clients and
listeners it has. -/
def C115_full : Prop :=
  ∀ (mesh : Mesh), (∀ log r, Accepts mesh log r) → ∀ ops, (appPosts (prun mesh ops).log).length ≤ 1

theorem C115_violated : ¬ C115_full := by
  intro h
  have := h yesMesh (fun _ _ => ⟨_, rfl, rfl⟩) [.newClient { appName := .none }, .newClient { appName := .none }]
  revert this
  decide

theorem appPosts_append (l m : List Post) : appPosts (l ++ m) = appPosts l ++ appPosts m := List.filter_append ..

theorem appPosts_map {f : PyStr → Post} (hf : ∀ s, (f s).endpoint ≠ py "configs/application") (ss : List PyStr) :
    appPosts (ss.map f) = [] := by
  unfold appPosts
  rw [List.filter_eq_nil_iff]
  intro r hr
  obtain ⟨s, -, rfl⟩ := List.mem_map.1 hr
  simpa using hf s

theorem newMeshCli_log (mesh : Mesh) (log : List Post) (a : AppInfo) :
    (newMeshCli mesh log a).1 = log ++ [appReq a] := by
  rcases meshPost_accepts mesh log (py "configs/application") a.payload with ⟨d, h1, -⟩ | ⟨e, h1, -⟩ <;>
    simp [newMeshCli, MeshCli.startup, h1, appReq]

/-- what one call posts -/
theorem pstep_log (mesh : Mesh) (p : Proc) (op : POp) : ∃ ps, (pstep mesh p op).log = p.log ++ ps ∧
    appPosts ps = (constructed [op]).map appReq := by
  cases op with
  | newClient a =>
    refine ⟨[appReq a], ?_, by simp [constructed, appPosts, appReq]⟩
    simp [pstep, newMeshCli_log]
  | newListener a port =>
    refine ⟨[appReq a], ?_, by simp [constructed, appPosts, appReq]⟩
    simp [pstep, newMeshCli_log]
  | assign k a => exact ⟨[], by simp [pstep], rfl⟩
  | subscribe i infs =>
    unfold pstep
    dsimp only
    split
    · exact ⟨[], by simp, rfl⟩
    · next m hm =>
      by_cases hn : m = none
      · subst hn
        exact ⟨[], by rw [(C44_subscribe mesh _ infs).1 rfl]; simp, rfl⟩
      · refine ⟨_, ((C44_subscribe mesh _ infs).2 hn).1, ?_⟩
        rw [appPosts_map (fun s => by simp only [serviceReq]; decide)]
        rfl
  | unsubscribe i infs =>
    unfold pstep
    dsimp only
    split
    · exact ⟨[], by simp, rfl⟩
    · next m hm =>
      unfold unsubscribe
      split
      · exact ⟨[], by simp, rfl⟩
      · refine ⟨infs.map (serviceReq (py "services/unsubscribe")), ?_, ?_⟩
        · have : ∀ (infs : List PyStr) (w : CliWorld), (infs.foldl (unsubscribeOne mesh) w).log =
              w.log ++ infs.map (serviceReq (py "services/unsubscribe")) := by
            intro infs
            induction infs with
            | nil => intro w; simp
            | cons k infs ih =>
              intro w
              rw [List.foldl_cons, ih]
              have : (unsubscribeOne mesh w k).log = w.log ++ [serviceReq (py "services/unsubscribe") k] := by
                rcases meshPost_accepts mesh w.log (py "services/unsubscribe") (serviceNameJson k) with ⟨d, h1, -⟩ | ⟨e, h1, -⟩ <;>
                  (unfold unsubscribeOne; rw [h1]; rfl)
              rw [this]
              simp
          exact this infs _
        · rw [appPosts_map (fun s => by simp only [serviceReq]; decide)]
          rfl
  | register j r =>
    unfold pstep
    dsimp only
    split <;> exact ⟨[], by simp, rfl⟩
  | publish j =>
    unfold pstep
    dsimp only
    split
    · exact ⟨[], by simp, rfl⟩
    · next l hl =>
      cases hm : l.mesh with
      | none => exact ⟨[], by simp [publish], rfl⟩
      | some m =>
        obtain ⟨n, -, h2, -⟩ := (C48_publish mesh p.log (some m) (p.reg.map Prod.fst) l.port l.app).2 (by simp)
        refine ⟨_, h2, ?_⟩
        rw [appPosts_map (fun s => by simp only [publishReq]; decide)]
        rfl
  | unpublish j =>
    unfold pstep
    dsimp only
    split
    · exact ⟨[], by simp, rfl⟩
    · next l hl =>
      cases hm : l.mesh with
      | none => exact ⟨[], by simp [unpublish], rfl⟩
      | some m =>
        obtain ⟨n, -, h2, -⟩ := (C48_unpublish mesh p.log (some m) (p.reg.map Prod.fst)).2 (by simp)
        refine ⟨_, h2, ?_⟩
        rw [appPosts_map (fun s => by simp only [serviceReq]; decide)]
        rfl

theorem constructed_append (a b : List POp) : constructed (a ++ b) = constructed a ++ constructed b := by
  induction a with
  | nil => rfl
  | cons op a ih => cases op <;> simp [constructed, ih]

/-- C115, what holds: whatever a process does and whatever the mesh answers, the registrations posted are exactly one per
client and listener constructed, in this order, each with its own application. Missing for C115: that later ones find
the first one registered (the metaclass `Singleton` is never applied). -/
theorem C115_one_each_partial (mesh : Mesh) (ops : List POp) :
    appPosts (prun mesh ops).log = (constructed ops).map appReq := by
  induction ops using snoc_induct with
  | nil => rfl
  | snoc ops op ih =>
    obtain ⟨ps, h1, h2⟩ := pstep_log mesh (prun mesh ops) op
    rw [prun_snoc, h1, appPosts_append, ih, h2, constructed_append, List.map_append]

example : appPosts (prun yesMesh [.newClient { appName := .str (py "a") }, .subscribe 0 [py "i"],
    .newListener { appName := .str (py "b") } 12200, .publish 0]).log =
    [⟨py "configs/application", [(py "appName", .v (.str (py "a")))]⟩,
     ⟨py "configs/application", [(py "appName", .v (.str (py "b")))]⟩] := by decide

/-! ## C116 -/

/-- the call removes the entry of `k`: a client with a mesh unsubscribes it and the mesh agrees -/
def Spec.Removes (mesh : Mesh) (p : Proc) (op : POp) (k : PyStr) : Prop :=
  ∃ i infs m, op = .unsubscribe i infs ∧ p.clients[i]? = some (some m) ∧
    AcceptedFor mesh p.log (py "services/unsubscribe") infs k

/-- the call gives `k` the address `a` if it has none -/
def Spec.Gives (mesh : Mesh) (p : Proc) (op : POp) (k : PyStr) (a : SvcAddr) : Prop :=
  op = .assign k a ∨ a = meshAddress ∧ ∃ i infs m, op = .subscribe i infs ∧ p.clients[i]? = some (some m) ∧
    AcceptedFor mesh p.log (py "services/subscribe") infs k

/-- C116 as listed: calls to an interface whose address the program has set go there, whatever clients subscribe and
unsubscribe afterwards. -/
def C116_full : Prop :=
  ∀ (mesh : Mesh) (ops later : List POp) (k : PyStr) (a : SvcAddr), PyDict.get? (prun mesh ops).svc k = none →
    getAddress (prun mesh (ops ++ .assign k a :: later)).svc k = (match a with | .host h => (h, 12200) | .pair h p => (h, p))

theorem C116_violated : ¬ C116_full := by
  intro h
  have := h yesMesh [.newClient { appName := .none }] [.subscribe 0 [py "i"], .unsubscribe 0 [py "i"]] (py "i")
    (.pair (py "10.0.0.1") 12200) (by decide)
  revert this
  decide

theorem prun_nodup (mesh : Mesh) (ops : List POp) : PyDict.NodupKeys (prun mesh ops).svc := by
  induction ops using snoc_induct with
  | nil => exact List.nodup_nil
  | snoc ops op ih =>
    rw [prun_snoc]
    cases op with
    | assign k a => exact svcSet_nodup ih k a
    | subscribe i infs =>
      unfold pstep
      dsimp only
      split
      · exact ih
      · exact svcStep_nodup mesh _ (.subscribe infs) ih
    | unsubscribe i infs =>
      unfold pstep
      dsimp only
      split
      · exact ih
      · exact svcStep_nodup mesh _ (.unsubscribe infs) ih
    | newClient a => exact ih
    | newListener a port => exact ih
    | register j r => unfold pstep; dsimp only; split <;> exact ih
    | publish j => unfold pstep; dsimp only; split <;> exact ih
    | unpublish j => unfold pstep; dsimp only; split <;> exact ih

theorem entry_step (mesh : Mesh) (p : Proc) (op : POp) (k : PyStr) (hnd : PyDict.NodupKeys p.svc)
    (before after : Option SvcAddr) (hb : before = PyDict.get? p.svc k)
    (he : after = PyDict.get? (pstep mesh p op).svc k) :
    (Removes mesh p op k → after = none) ∧ (¬ Removes mesh p op k → ∀ a, before = some a → after = some a) ∧
    (∀ a, before = none → (after = some a ↔ Gives mesh p op k a)) := by
  -- calls that leave the map alone
  have same : (pstep mesh p op).svc = p.svc → (¬ Removes mesh p op k ∨ before = none) → (∀ a, ¬ Gives mesh p op k a) →
      (Removes mesh p op k → after = none) ∧ (¬ Removes mesh p op k → ∀ a, before = some a → after = some a) ∧
      (∀ a, before = none → (after = some a ↔ Gives mesh p op k a)) := by
    intro hs hr hg
    rw [hs, ← hb] at he
    subst he
    refine ⟨fun h => hr.elim (fun hn => absurd h hn) id, fun _ a h => h, fun a h => ?_⟩
    rw [h]
    exact ⟨fun h => (by cases h), fun h => absurd h (hg a)⟩
  cases op with
  | assign k' a' =>
    have e : after = before.or (if k' = k then some a' else none) := by
      rw [he, hb]
      exact svcSet_get? p.svc k' a' k
    refine ⟨fun ⟨_, _, _, h, _⟩ => (by cases h), fun _ a h => (by rw [e, h]; rfl), fun a h => ?_⟩
    rw [e, h]
    constructor
    · intro h
      by_cases hk : k' = k
      · subst hk
        rw [if_pos rfl] at h
        cases h
        exact .inl rfl
      · rw [if_neg hk] at h
        cases h
    · rintro (h | ⟨-, _, _, _, h, -⟩)
      · cases h
        simp
      · cases h
  | subscribe i infs =>
    have hr : ¬ Removes mesh p (.subscribe i infs) k := fun ⟨_, _, _, h, _⟩ => by cases h
    cases hc : p.clients[i]? with
    | none =>
      refine same (by simp [pstep, hc]) (.inl hr) ?_
      rintro a (h | ⟨-, i', infs', m, h, h2, -⟩)
      · cases h
      · cases h
        rw [hc] at h2
        cases h2
    | some m =>
      cases m with
      | none =>
        refine same (by simp [pstep, hc, subscribe]) (.inl hr) ?_
        rintro a (h | ⟨-, i', infs', m, h, h2, -⟩)
        · cases h
        · cases h
          rw [hc] at h2
          cases h2
      | some m =>
        obtain ⟨-, h2, h3⟩ := (C44_subscribe mesh { mesh := some m, log := p.log, svc := p.svc } infs).2 (by simp)
        have e : after = PyDict.get? (subscribe mesh { mesh := some m, log := p.log, svc := p.svc } infs).svc k := by
          rw [he]
          simp only [pstep, hc]
        refine ⟨fun h => absurd h hr, fun _ a h => by rw [e]; exact h2 k a (by rw [← hb]; exact h), fun a h => ?_⟩
        obtain ⟨h4, h5⟩ := h3 k (by rw [← hb]; exact h)
        rw [e]
        constructor
        · intro ha
          by_cases hacc : AcceptedFor mesh p.log (py "services/subscribe") infs k
          · rw [h4.2 hacc] at ha
            cases ha
            exact .inr ⟨rfl, i, infs, m, rfl, hc, hacc⟩
          · rw [h5.2 hacc] at ha
            cases ha
        · rintro (h | ⟨rfl, i', infs', m', h, -, hacc⟩)
          · cases h
          · cases h
            exact h4.2 hacc
  | unsubscribe i infs =>
    have hg : ∀ a, ¬ Gives mesh p (.unsubscribe i infs) k a := by
      rintro a (h | ⟨-, _, _, _, h, -⟩) <;> cases h
    cases hc : p.clients[i]? with
    | none =>
      refine same (by simp [pstep, hc]) (.inl ?_) hg
      rintro ⟨i', infs', m, h, h2, -⟩
      cases h
      rw [hc] at h2
      cases h2
    | some m =>
      cases m with
      | none =>
        refine same (by simp [pstep, hc, unsubscribe]) (.inl ?_) hg
        rintro ⟨i', infs', m, h, h2, -⟩
        cases h
        rw [hc] at h2
        cases h2
      | some m =>
        obtain ⟨-, h2, h3⟩ := (C44_unsubscribe mesh { mesh := some m, log := p.log, svc := p.svc } infs hnd).2 (by simp)
        have e : after = PyDict.get? (unsubscribe mesh { mesh := some m, log := p.log, svc := p.svc } infs).svc k := by
          rw [he]
          simp only [pstep, hc]
        rw [e]
        refine ⟨?_, ?_, ?_⟩
        · rintro ⟨i', infs', m', h, -, hacc⟩
          cases h
          exact h2 k hacc
        · intro hn a h
          rw [h3 k (fun hacc => hn ⟨i, infs, m, rfl, hc, hacc⟩)]
          rw [← hb]
          exact h
        · intro a h
          refine ⟨fun ha => ?_, fun ha => absurd ha (hg a)⟩
          by_cases hacc : AcceptedFor mesh p.log (py "services/unsubscribe") infs k
          · rw [h2 k hacc] at ha
            cases ha
          · rw [h3 k hacc, ← hb, h] at ha
            cases ha
  | newClient a =>
    exact same rfl (.inl fun ⟨_, _, _, h, _⟩ => by cases h) fun a => by rintro (h | ⟨-, _, _, _, h, -⟩) <;> cases h
  | newListener a port =>
    exact same rfl (.inl fun ⟨_, _, _, h, _⟩ => by cases h) fun a => by rintro (h | ⟨-, _, _, _, h, -⟩) <;> cases h
  | register j r =>
    exact same (by unfold pstep; dsimp only; split <;> rfl) (.inl fun ⟨_, _, _, h, _⟩ => by cases h)
      fun a => by rintro (h | ⟨-, _, _, _, h, -⟩) <;> cases h
  | publish j =>
    exact same (by unfold pstep; dsimp only; split <;> rfl) (.inl fun ⟨_, _, _, h, _⟩ => by cases h)
      fun a => by rintro (h | ⟨-, _, _, _, h, -⟩) <;> cases h
  | unpublish j =>
    exact same (by unfold pstep; dsimp only; split <;> rfl) (.inl fun ⟨_, _, _, h, _⟩ => by cases h)
      fun a => by rintro (h | ⟨-, _, _, _, h, -⟩) <;> cases h

/-- C116, what holds, step by step: in every history of a process, an entry of the service map is removed exactly by an
accepted unsubscription, appears exactly by an assignment or an accepted subscription while there is none, and otherwise
stays as it is. -/
theorem C116_entry_partial (mesh : Mesh) (ops : List POp) (op : POp) (k : PyStr) :
    let before := PyDict.get? (prun mesh ops).svc k
    let after := PyDict.get? (prun mesh (ops ++ [op])).svc k
    (Removes mesh (prun mesh ops) op k → after = none) ∧
    (¬ Removes mesh (prun mesh ops) op k → ∀ a, before = some a → after = some a) ∧
    (∀ a, before = none → (after = some a ↔ Gives mesh (prun mesh ops) op k a)) :=
  entry_step mesh (prun mesh ops) op k (prun_nodup mesh ops) _ _ rfl (by rw [prun_snoc])

/-- C116, consequences for where calls go. An address set stays in effect until an unsubscription of the interface, by any
client of the process, is accepted. -/
theorem C116_kept_partial (mesh : Mesh) (ops later : List POp) (k : PyStr) (a : SvcAddr)
    (h : PyDict.get? (prun mesh ops).svc k = some a)
    (hn : ∀ l1 op l2, later = l1 ++ op :: l2 → ¬ Removes mesh (prun mesh (ops ++ l1)) op k) :
    PyDict.get? (prun mesh (ops ++ later)).svc k = some a := by
  induction later using snoc_induct with
  | nil => simpa using h
  | snoc later op ih =>
    rw [← List.append_assoc]
    refine (C116_entry_partial mesh (ops ++ later) op k).2.1 (hn later op [] rfl) a (ih ?_)
    rintro l1 op' l2 rfl
    exact hn l1 op' (l2 ++ [op]) (by simp)

/-- C116: calls to an interface that the program never assigns an address to go to the mesh, whoever subscribes to it or
not. -/
theorem C116_unassigned (mesh : Mesh) (ops : List POp) (k : PyStr) (h : ∀ a, .assign k a ∉ ops) :
    getAddress (prun mesh ops).svc k = (py "127.0.0.1", 12220) := by
  have key : PyDict.get? (prun mesh ops).svc k = none ∨ PyDict.get? (prun mesh ops).svc k = some meshAddress := by
    induction ops using snoc_induct with
    | nil => exact .inl rfl
    | snoc ops op ih =>
      have ih := ih fun a hm => h a (by simp [hm])
      obtain ⟨h1, h2, h3⟩ := C116_entry_partial mesh ops op k
      by_cases hr : Removes mesh (prun mesh ops) op k
      · exact .inl (h1 hr)
      · rcases ih with ih | ih
        · cases ha : PyDict.get? (prun mesh (ops ++ [op])).svc k with
          | none => exact .inl rfl
          | some a =>
            rcases (h3 a ih).1 ha with e | ⟨rfl, -⟩
            · exact absurd (by simp [e]) (h a)
            · exact .inr rfl
        · exact .inr (h2 hr _ ih)
  unfold getAddress
  rcases key with e | e <;> rw [e] <;> rfl

/-- Two clients: one unsubscribes what the other has subscribed and what the program has assigned. -/
example :
    let ops : List POp := [.newClient { appName := .none }, .newClient { appName := .none },
      .assign (py "x") (.host (py "h")), .subscribe 0 [py "x", py "y"]]
    getAddress (prun yesMesh ops).svc (py "x") = (py "h", 12200) ∧
    getAddress (prun yesMesh (ops ++ [.unsubscribe 1 [py "x", py "y"]])).svc (py "x") = (py "127.0.0.1", 12220) ∧
    getAddress (prun yesMesh (ops ++ [.unsubscribe 1 [py "x", py "y"]])).svc (py "y") = (py "127.0.0.1", 12220) := by
  decide

/-! ## C117 -/

/-- C117 as listed: a listener announces the interfaces registered on it, and no others. -/
def C117_full : Prop :=
  ∀ (mesh : Mesh) (ops : List POp) (j : Nat) (l : ListenerObj), (prun mesh ops).listeners[j]? = some l →
    ∀ r ∈ (prun mesh (ops ++ [.publish j])).log.drop (prun mesh ops).log.length,
      ∃ g, .register j g ∈ ops ∧ r = publishReq l.port l.app g.interface

/-- two listeners; the second one announces the interface of the first one, at its own port -/
theorem C117_violated : ¬ C117_full := by
  intro h
  obtain ⟨g, hg, -⟩ := h yesMesh [.newListener { appName := .none } 1, .newListener { appName := .none } 2,
    .register 0 { interface := py "i", cls := 0 }] 1 _ rfl (publishReq 2 .none (py "i")) (by decide)
  simp at hg

/-- the interfaces registered so far in the process, in the order of their first registration; the number of listeners -/
def Spec.registered : List POp → Nat × List PyStr :=
  List.foldl (fun s op => match op with
    | .newListener _ _ => (s.1 + 1, s.2)
    | .register j r => if j < s.1 then (s.1, if r.interface ∈ s.2 then s.2 else s.2 ++ [r.interface]) else s
    | _ => s) (0, [])

theorem keys_set {V : Type} (d : PyDict PyStr V) (k : PyStr) (v : V) :
    (PyDict.set d k v).map Prod.fst = if k ∈ d.map Prod.fst then d.map Prod.fst else d.map Prod.fst ++ [k] := by
  induction d with
  | nil => rfl
  | cons a d ih =>
    obtain ⟨k', v'⟩ := a
    by_cases h : k' = k
    · subst h; simp [PyDict.set]
    · simp only [PyDict.set, h, if_false, List.map_cons, ih]
      have h' : ¬ k = k' := fun e => h e.symm
      by_cases hm : k ∈ d.map Prod.fst
      · rw [if_pos hm, if_pos (by simp [hm])]
      · rw [if_neg hm, if_neg (by rw [List.mem_cons]; exact fun e => e.elim h' hm)]
        rfl

theorem prun_reg (mesh : Mesh) (ops : List POp) :
    ((prun mesh ops).listeners.length, (prun mesh ops).reg.map Prod.fst) = registered ops := by
  induction ops using snoc_induct with
  | nil => rfl
  | snoc ops op ih =>
    have e : registered (ops ++ [op]) = _ := List.foldl_append
    rw [prun_snoc, e]
    change _ = List.foldl _ (registered ops) [op]
    rw [← ih]
    simp only [List.foldl_cons, List.foldl_nil]
    cases op with
    | newClient a => rfl
    | newListener a port => simp [pstep]
    | assign k a => rfl
    | subscribe i infs => unfold pstep; dsimp only; split <;> rfl
    | unsubscribe i infs => unfold pstep; dsimp only; split <;> rfl
    | register j r =>
      unfold pstep
      dsimp only
      by_cases hj : j < (prun mesh ops).listeners.length
      · rw [if_pos hj, List.getElem?_eq_getElem hj]
        dsimp only
        rw [registerInterface, keys_set]
      · rw [if_neg hj, List.getElem?_eq_none (by omega)]
    | publish j => unfold pstep; dsimp only; split <;> rfl
    | unpublish j => unfold pstep; dsimp only; split <;> rfl

/-- C117, what holds: in every history of a process, `publish` of a listener with a mesh client posts announcements, with
the port and application of this listener, for the interfaces registered on any listener of the process, each once, in
the order of their first registration: for all of them if the mesh accepts each, and otherwise up to the first refusal.
Missing for C117: the restriction to its own interfaces. -/
theorem C117_all_partial (mesh : Mesh) (ops : List POp) (j : Nat) (l : ListenerObj) (m : MeshCli)
    (hl : (prun mesh ops).listeners[j]? = some l) (hm : l.mesh = some m) :
    let names := (registered ops).2
    let log := (prun mesh ops).log
    names.Nodup ∧ ∃ n, n ≤ names.length ∧
      (prun mesh (ops ++ [.publish j])).log = log ++ (names.take n).map (publishReq l.port l.app) ∧
      (n = names.length ∨ 0 < n ∧ ¬ AcceptsNth mesh log (names.map (publishReq l.port l.app)) (n - 1)) ∧
      (∀ i, i + 1 < n → AcceptsNth mesh log (names.map (publishReq l.port l.app)) i) := by
  have e := congrArg Prod.snd (prun_reg mesh ops)
  dsimp only at e
  intro names log
  have hn : names = (prun mesh ops).reg.map Prod.fst := e.symm
  refine ⟨?_, ?_⟩
  · clear hn
    show (registered ops).2.Nodup
    clear names log hl hm e
    induction ops using snoc_induct with
    | nil => exact List.nodup_nil
    | snoc ops op ih =>
      have e : registered (ops ++ [op]) = List.foldl _ (registered ops) [op] := List.foldl_append
      rw [e]
      simp only [List.foldl_cons, List.foldl_nil]
      split
      · exact ih
      · split
        · dsimp only
          split
          · exact ih
          · next hx => exact List.nodup_append.2 ⟨ih, by simp, by
              intro a ha b hb
              simp only [List.mem_singleton] at hb
              subst hb
              exact fun e => hx (e ▸ ha)⟩
        · exact ih
      · exact ih
  · obtain ⟨n, h1, h2, h3⟩ := (C48_publish mesh log l.mesh names l.port l.app).2 (by rw [hm]; simp)
    refine ⟨n, h1, ?_, ?_, ?_⟩
    · rw [prun_snoc]
      simp only [pstep, hl]
      rw [← h2, hn]
    · rcases h3 with ⟨-, h4, -⟩ | ⟨-, h4, -, h5⟩
      · exact .inl h4
      · exact .inr ⟨h4, h5⟩
    · intro i hi
      rcases h3 with ⟨-, -, h4⟩ | ⟨-, -, h4, -⟩
      · exact h4 i (by omega)
      · exact h4 i hi

example :
    let ops : List POp := [.newListener { appName := .str (py "a") } 1, .newListener { appName := .str (py "b") } 2,
      .register 0 { interface := py "i", cls := 0 }, .register 1 { interface := py "j", cls := 0 },
      .register 1 { interface := py "i", cls := 1 }]
    (registered ops).2 = [py "i", py "j"] ∧
    (prun yesMesh (ops ++ [.publish 1])).log.drop 2 =
      [publishReq 2 (.str (py "b")) (py "i"), publishReq 2 (.str (py "b")) (py "j")] := by decide

end Bolt
