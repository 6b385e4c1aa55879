import Verif.Props.Process
/-! C175: a client or listener that is made while the mesh cannot be reached. -/
namespace Bolt
open Spec

/-- C175 as listed: what a client subscribes is posted, and mapped to the address of the mesh if the mesh accepts it and it
has no entry; what listeners publish is posted, from the first service on. -/
def C175_full : Prop :=
  ∀ (mesh : Mesh) (ops : List POp),
    (∀ i k, i < (prun mesh ops).clients.length →
      (prun mesh (ops ++ [.subscribe i [k]])).log = (prun mesh ops).log ++ [serviceReq (py "services/subscribe") k] ∧
      (PyDict.get? (prun mesh ops).svc k = none →
        Accepts mesh (prun mesh ops).log (serviceReq (py "services/subscribe") k) →
        PyDict.get? (prun mesh (ops ++ [.subscribe i [k]])).svc k = some meshAddress)) ∧
    (∀ j l s, (prun mesh ops).listeners[j]? = some l → (prun mesh ops).reg.map Prod.fst = [s] →
      (prun mesh (ops ++ [.publish j])).log = (prun mesh ops).log ++ [publishReq l.port l.app s])

/-- a mesh that is down for the first request and accepts all others -/
def lateMesh : Mesh := fun log _ => if log = [] then .raise .connectionError else .resp 200 (.object [(py "success", .bool true)])

/-- the first request finds no mesh: nothing is ever posted, by clients and by listeners -/
theorem C175_violated : ¬ C175_full ∧
    ¬ (∀ (mesh : Mesh) (ops : List POp) j l s, (prun mesh ops).listeners[j]? = some l →
      (prun mesh ops).reg.map Prod.fst = [s] →
      (prun mesh (ops ++ [.publish j])).log = (prun mesh ops).log ++ [publishReq l.port l.app s]) := by
  constructor
  · intro h
    have := ((h lateMesh [.newClient { appName := .none }]).1 0 (py "i") (by decide)).1
    revert this
    decide
  · intro h
    have := h lateMesh [.newListener { appName := .none } 1, .register 0 ⟨py "s", 0, [], []⟩] 0 _ (py "s") rfl (by decide)
    revert this
    decide

/-- clients and listeners stay what they were made -/
theorem pstep_made (mesh : Mesh) (p : Proc) (op : POp) :
    (∃ cs, (pstep mesh p op).clients = p.clients ++ cs) ∧ ∃ ls, (pstep mesh p op).listeners = p.listeners ++ ls := by
  cases op with
  | newClient a => exact ⟨⟨_, rfl⟩, [], (List.append_nil _).symm⟩
  | newListener a port => exact ⟨⟨[], (List.append_nil _).symm⟩, _, rfl⟩
  | assign k a => exact ⟨⟨[], (List.append_nil _).symm⟩, [], (List.append_nil _).symm⟩
  | _ =>
    unfold pstep
    dsimp only
    split <;> exact ⟨⟨[], (List.append_nil _).symm⟩, [], (List.append_nil _).symm⟩

theorem prun_made (mesh : Mesh) (ops post : List POp) :
    (∃ cs, (prun mesh (ops ++ post)).clients = (prun mesh ops).clients ++ cs) ∧
      ∃ ls, (prun mesh (ops ++ post)).listeners = (prun mesh ops).listeners ++ ls := by
  induction post using snoc_induct with
  | nil => rw [List.append_nil]; exact ⟨⟨[], (List.append_nil _).symm⟩, [], (List.append_nil _).symm⟩
  | snoc post op ih =>
    obtain ⟨⟨cs, h1⟩, ls, h2⟩ := ih
    obtain ⟨⟨cs', h3⟩, ls', h4⟩ := pstep_made mesh (prun mesh (ops ++ post)) op
    rw [← List.append_assoc, prun_snoc]
    exact ⟨⟨cs ++ cs', by rw [h3, h1, List.append_assoc]⟩, ls ++ ls', by rw [h4, h2, List.append_assoc]⟩

theorem newMeshCli_iff (mesh : Mesh) (log : List Post) (a : AppInfo) :
    (newMeshCli mesh log a).2 = none ↔ ¬ Accepts mesh log (appReq a) := by
  rcases meshPost_accepts mesh log (py "configs/application") a.payload with ⟨d, h1, h2⟩ | ⟨e, h1, h2⟩
  · simp only [newMeshCli, MeshCli.startup, h1, appReq, Bool.false_eq_true, if_false]
    simp [h2]
  · simp only [newMeshCli, MeshCli.startup, h1, appReq, Bool.false_eq_true, if_false]
    simp [h2]

theorem client_made (mesh : Mesh) (pre : List POp) (a : AppInfo) (post : List POp) :
    (prun mesh (pre ++ .newClient a :: post)).clients[(prun mesh pre).clients.length]? =
      some (newMeshCli mesh (prun mesh pre).log a).2 := by
  obtain ⟨⟨cs, h⟩, -⟩ := prun_made mesh (pre ++ [.newClient a]) post
  rw [List.append_assoc, List.singleton_append] at h
  rw [h, prun_snoc]
  simp [pstep]

theorem listener_made (mesh : Mesh) (pre : List POp) (a : AppInfo) (port : Int) (post : List POp) :
    (prun mesh (pre ++ .newListener a port :: post)).listeners[(prun mesh pre).listeners.length]? =
      some ⟨(newMeshCli mesh (prun mesh pre).log a).2, port, a.appName⟩ := by
  obtain ⟨-, ls, h⟩ := prun_made mesh (pre ++ [.newListener a port]) post
  rw [List.append_assoc, List.singleton_append] at h
  rw [h, prun_snoc]
  simp [pstep]

/-- C175, clients, exactly: the answer of the mesh to the registration in the constructor decides, once and for all. If it
accepted, every later `subscribe` and `unsubscribe` posts its interfaces, and what has no entry and is accepted is mapped
to the address of the mesh. If it did not, they change nothing, whatever the mesh would answer by then. Missing: that the
registration is tried again. -/
theorem C175_client_partial (mesh : Mesh) (pre : List POp) (a : AppInfo) (post : List POp) :
    let p := prun mesh (pre ++ .newClient a :: post)
    let i := (prun mesh pre).clients.length
    (Accepts mesh (prun mesh pre).log (appReq a) → ∀ infs,
      (pstep mesh p (.subscribe i infs)).log = p.log ++ infs.map (serviceReq (py "services/subscribe")) ∧
      (∀ k, PyDict.get? p.svc k = none → (PyDict.get? (pstep mesh p (.subscribe i infs)).svc k = some meshAddress ↔
        AcceptedFor mesh p.log (py "services/subscribe") infs k)) ∧
      (pstep mesh p (.unsubscribe i infs)).log = p.log ++ infs.map (serviceReq (py "services/unsubscribe")) ∧
      ∀ k, AcceptedFor mesh p.log (py "services/unsubscribe") infs k →
        PyDict.get? (pstep mesh p (.unsubscribe i infs)).svc k = none) ∧
    (¬ Accepts mesh (prun mesh pre).log (appReq a) → ∀ infs,
      pstep mesh p (.subscribe i infs) = p ∧ pstep mesh p (.unsubscribe i infs) = p) := by
  dsimp only
  have hm := client_made mesh pre a post
  have hnd := prun_nodup mesh (pre ++ .newClient a :: post)
  generalize prun mesh (pre ++ .newClient a :: post) = p at *
  constructor
  · intro ha infs
    have hne : (newMeshCli mesh (prun mesh pre).log a).2 ≠ none := fun h => (newMeshCli_iff ..).1 h ha
    generalize (newMeshCli mesh (prun mesh pre).log a).2 = m at hm hne
    simp only [pstep, hm]
    obtain ⟨h1, -, h2⟩ := (C44_subscribe mesh { mesh := m, log := p.log, svc := p.svc } infs).2 hne
    obtain ⟨h3, h4, -⟩ := (C44_unsubscribe mesh { mesh := m, log := p.log, svc := p.svc } infs hnd).2 hne
    exact ⟨h1, fun k hk => (h2 k hk).1, h3, h4⟩
  · intro ha infs
    rw [(newMeshCli_iff ..).2 ha] at hm
    simp only [pstep, hm]
    rw [(C44_subscribe mesh { mesh := none, log := p.log, svc := p.svc } infs).1 rfl,
      (C44_unsubscribe mesh { mesh := none, log := p.log, svc := p.svc } infs hnd).1 rfl]
    exact ⟨rfl, rfl⟩

/-- C175, listeners: likewise. If the registration was accepted, `publish` posts the services that are registered by then, in
order, up to the first that is refused; otherwise neither `publish` nor `unpublish` ever posts anything. -/
theorem C175_listener_partial (mesh : Mesh) (pre : List POp) (a : AppInfo) (port : Int) (post : List POp) :
    let p := prun mesh (pre ++ .newListener a port :: post)
    let j := (prun mesh pre).listeners.length
    (Accepts mesh (prun mesh pre).log (appReq a) →
      ∃ n, n ≤ p.reg.length ∧ (pstep mesh p (.publish j)).log =
          p.log ++ ((p.reg.map Prod.fst).take n).map (publishReq port a.appName) ∧
        (n < p.reg.length → 0 < n ∧
          ¬ AcceptsNth mesh p.log ((p.reg.map Prod.fst).map (publishReq port a.appName)) (n - 1))) ∧
    (¬ Accepts mesh (prun mesh pre).log (appReq a) → pstep mesh p (.publish j) = p ∧ pstep mesh p (.unpublish j) = p) := by
  dsimp only
  have hm := listener_made mesh pre a port post
  generalize prun mesh (pre ++ .newListener a port :: post) = p at *
  constructor
  · intro ha
    have hne : (newMeshCli mesh (prun mesh pre).log a).2 ≠ none := fun h => (newMeshCli_iff ..).1 h ha
    generalize (newMeshCli mesh (prun mesh pre).log a).2 = m at hm hne
    simp only [pstep, hm]
    obtain ⟨n, h1, h2, h3⟩ := (C48_publish mesh p.log m (p.reg.map Prod.fst) port a.appName).2 hne
    rw [List.length_map] at h1 h3
    refine ⟨n, h1, h2, fun hn => ?_⟩
    rcases h3 with ⟨-, h, -⟩ | ⟨-, h4, -, h5⟩
    · omega
    · exact ⟨h4, h5⟩
  · intro ha
    rw [(newMeshCli_iff ..).2 ha] at hm
    simp only [pstep, hm, publish, unpublish, and_self]

/-- two clients, the first made while the mesh was down: the same subscription is posted by the second only -/
example : ¬ Accepts lateMesh (prun lateMesh []).log (appReq { appName := .none }) ∧
    Accepts lateMesh (prun lateMesh [.newClient { appName := .none }]).log (appReq { appName := .none }) ∧
    (prun lateMesh [.newClient { appName := .none }, .newClient { appName := .none }, .subscribe 0 [py "i"]]).svc = [] ∧
    (prun lateMesh [.newClient { appName := .none }, .newClient { appName := .none }, .subscribe 1 [py "i"]]).svc =
      [(py "i", meshAddress)] :=
  ⟨(fun ⟨_, h, _⟩ => nomatch h), ⟨_, rfl, rfl⟩, by decide, by decide⟩

end Bolt
