import Verif.Spec.Mesh
import Verif.Lemmas.Dict
/-! C42-C48: addresses, the service map, the mesh client, publishing. -/
namespace Bolt
open Spec

/-! ## C46: `_post` -/

theorem meshPost_log (mesh : Mesh) (log : List Post) (ep : PyStr) (j : PyDict PyStr PayVal) :
    (meshPost mesh log ep j).1 = log ++ [⟨ep, j⟩] := rfl

theorem meshPost_ok_iff (mesh : Mesh) (log : List Post) (ep : PyStr) (d : PyDict PyStr JVal)
    (p : PyDict PyStr PayVal) :
    (meshPost mesh log ep p).2 = .ok d ↔ mesh log ⟨ep, p⟩ = .resp 200 (.object d) ∧
      PyDict.get? d (py "success") = some (.bool true) := by
  unfold meshPost
  simp only
  cases h : mesh log ⟨ep, p⟩ with
  | raise e => simp
  | resp st b =>
    simp only [HttpRes.resp.injEq]
    by_cases hs : st = 200
    · subst hs
      cases b with
      | invalid => simp
      | nonObject => simp
      | object d' =>
        simp only [ne_eq, not_true_eq_false, if_false, true_and, HttpBody.object.injEq]
        by_cases hd : PyDict.get? d' (py "success") = some (.bool true)
        · rw [if_neg (by simpa using hd)]
          constructor
          · intro e; cases e; exact ⟨rfl, hd⟩
          · rintro ⟨e, _⟩; rw [e]
        · rw [if_pos hd]
          constructor
          · intro e; cases e
          · rintro ⟨e, h2⟩; rw [e] at hd; exact absurd h2 hd
    · rw [if_pos hs]
      constructor
      · intro e; cases e
      · rintro ⟨⟨e, _⟩, _⟩; exact absurd e hs

theorem meshPost_accepts (mesh : Mesh) (log : List Post) (ep : PyStr) (p : PyDict PyStr PayVal) :
    (∃ d, meshPost mesh log ep p = (log ++ [⟨ep, p⟩], .ok d) ∧ Accepts mesh log ⟨ep, p⟩) ∨
    (∃ e, meshPost mesh log ep p = (log ++ [⟨ep, p⟩], .error e) ∧ ¬ Accepts mesh log ⟨ep, p⟩) := by
  cases h : (meshPost mesh log ep p).2 with
  | ok d =>
    left
    exact ⟨d, Prod.ext rfl h, d, (meshPost_ok_iff mesh log ep d p).1 h⟩
  | error e =>
    right
    refine ⟨e, Prod.ext rfl h, ?_⟩
    rintro ⟨d, hd⟩
    rw [(meshPost_ok_iff mesh log ep d p).2 hd] at h
    cases h

/-- C46 as listed: for every answer the result is returned iff it is accepted, and otherwise the error is
`ConnectionError`. -/
def C46_full : Prop :=
  ∀ (mesh : Mesh) (log : List Post) (ep : PyStr) (p : PyDict PyStr PayVal),
    (∀ d, (meshPost mesh log ep p).2 = .ok d ↔ mesh log ⟨ep, p⟩ = .resp 200 (.object d) ∧
      PyDict.get? d (py "success") = some (.bool true)) ∧
    (∀ e, (meshPost mesh log ep p).2 = .error e → e = .connectionError)

/-- C46 fails: an answer 200 with a JSON array (or no JSON at all) escapes as another exception. -/
theorem C46_violated : ¬ C46_full := by
  intro h
  have := (h (fun _ _ => .resp 200 .nonObject) [] [] []).2 .attributeError (by decide)
  cases this

/-- C46, what holds: the result is returned iff the answer is 200 with `success` the boolean true (for *every*
answer), the request is always sent exactly once, and the error is `ConnectionError` whenever an HTTP answer
with another status, or with a JSON object, came back. Missing for the full claim: bodies that are not JSON
objects, and failures of the HTTP library, keep their own exception. -/
theorem C46_post_partial (mesh : Mesh) (log : List Post) (ep : PyStr) (p : PyDict PyStr PayVal) :
    (∀ d, (meshPost mesh log ep p).2 = .ok d ↔ mesh log ⟨ep, p⟩ = .resp 200 (.object d) ∧
      PyDict.get? d (py "success") = some (.bool true)) ∧
    (meshPost mesh log ep p).1 = log ++ [⟨ep, p⟩] ∧
    (∀ e st b, (meshPost mesh log ep p).2 = .error e → mesh log ⟨ep, p⟩ = .resp st b →
      (st ≠ 200 ∨ ∃ d, b = .object d) → e = .connectionError) ∧
    (∀ e, mesh log ⟨ep, p⟩ = .raise e → (meshPost mesh log ep p).2 = .error e) := by
  refine ⟨fun d => meshPost_ok_iff mesh log ep d p, rfl, ?_, ?_⟩
  · intro e st b h hm hc
    unfold meshPost at h
    simp only [hm] at h
    by_cases hs : st = 200
    · rw [if_neg (by simpa using hs)] at h
      rcases hc with hc | ⟨d, rfl⟩
      · exact absurd hs hc
      · simp only at h
        split at h
        · cases h; rfl
        · cases h
    · rw [if_pos hs] at h
      cases h; rfl
  · intro e hm
    simp [meshPost, hm]

/-- what the caller of `_post` is to get for each answer, with the exceptions that other bodies than objects lead to -/
def Spec.postOutcome : HttpRes → Except PyExc (PyDict PyStr JVal)
  | .raise e => .error e
  | .resp 200 .invalid => .error .valueError
  | .resp 200 .nonObject => .error .attributeError
  | .resp 200 (.object d) => if PyDict.get? d (py "success") = some (.bool true) then .ok d else .error .connectionError
  | .resp _ _ => .error .connectionError

/-- The outcome of `_post` for every answer: besides the result and `ConnectionError` there are exactly the exceptions of the
HTTP library, `ValueError` for a body that is not JSON, and `AttributeError` for one that is not an object. -/
theorem C46_exact (mesh : Mesh) (log : List Post) (ep : PyStr) (p : PyDict PyStr PayVal) :
    meshPost mesh log ep p = (log ++ [⟨ep, p⟩], Spec.postOutcome (mesh log ⟨ep, p⟩)) := by
  unfold meshPost Spec.postOutcome
  cases h : mesh log ⟨ep, p⟩ with
  | raise e => simp [h]
  | resp st b =>
    simp only [h]
    by_cases hs : st = 200
    · subst hs
      cases b with
      | invalid => rfl
      | nonObject => rfl
      | object d =>
        by_cases hd : PyDict.get? d (py "success") = some (.bool true) <;> simp [hd]
    · rw [if_pos hs]
      split
      · next e => cases e
      · next e => cases e; exact absurd rfl hs
      · next e => cases e; exact absurd rfl hs
      · next e => cases e; exact absurd rfl hs
      · rfl

/-- A string "true" is not accepted: `is not True`. -/
example : (meshPost (fun _ _ => .resp 200 (.object [(py "success", .str (py "true"))])) [] (py "x") []).2
    = .error .connectionError := by decide
example : (meshPost (fun _ _ => .resp 200 (.object [(py "a", .null), (py "success", .bool true)])) [] (py "x") []).2
    = .ok [(py "a", .null), (py "success", .bool true)] := by decide

/-! ## C47 -/

/-- C47: the registration payload holds exactly the attributes with a truthy value, with that value, each name
once. -/
theorem C47_payload (a : AppInfo) :
    (∀ k v, (k, v) ∈ a.payload ↔ ∃ o : PyObj, v = .v o ∧ o.truthy = true ∧
      ((k = py "appName" ∧ o = a.appName) ∨ (k = py "dataCenter" ∧ o = a.dataCenter) ∨
       (k = py "zone" ∧ o = a.zone) ∨ (k = py "registryEndPoint" ∧ o = a.registryEndPoint) ∨
       (k = py "accessKey" ∧ o = a.accessKey) ∨ (k = py "secretKey" ∧ o = a.secretKey) ∨
       (k = py "antShareCloud" ∧ o = a.antShareCloud))) ∧
    PyDict.NodupKeys a.payload := by
  constructor
  · intro k v
    simp only [AppInfo.payload, AppInfo.attrs, List.mem_map, List.mem_filter, List.mem_cons, List.not_mem_nil,
      or_false, Prod.mk.injEq, Prod.exists]
    constructor
    · rintro ⟨k', o, ⟨h1, h2⟩, rfl, rfl⟩
      exact ⟨o, rfl, h2, h1⟩
    · rintro ⟨o, rfl, h2, h1⟩
      exact ⟨k, o, ⟨h1, h2⟩, rfl, rfl⟩
  · have h1 : (a.payload.map Prod.fst).Sublist (a.attrs.map Prod.fst) := by
      have : a.payload.map Prod.fst = (a.attrs.filter fun kv => kv.2.truthy).map Prod.fst := by
        simp [AppInfo.payload, List.map_map, Function.comp_def]
      rw [this]
      exact List.Sublist.map _ List.filter_sublist
    have h2 : (a.attrs.map Prod.fst).Nodup := by
      show [py "appName", py "dataCenter", py "zone", py "registryEndPoint", py "accessKey", py "secretKey",
        py "antShareCloud"].Nodup
      decide
    exact h1.nodup h2

example : AppInfo.payload { appName := .str (py "app"), zone := .none, antShareCloud := .int 1 }
    = [(py "appName", .v (.str (py "app"))), (py "antShareCloud", .v (.int 1))] := by decide

/-! ## C45 -/

/-- `n` calls of `startup`, the outcomes in order -/
def startups (mesh : Mesh) : Nat → List Post × MeshCli → List (Except PyExc Bool) × (List Post × MeshCli)
  | 0, s => ([], s)
  | n + 1, (log, m) =>
    let r := m.startup mesh log
    let rest := startups mesh n (r.1, r.2.1)
    (r.2.2 :: rest.1, rest.2)

theorem startups_started (mesh : Mesh) (n : Nat) (log : List Post) (m : MeshCli) (hm : m.started = true) :
    startups mesh n (log, m) = (List.replicate n (.ok true), (log, m)) := by
  induction n with
  | zero => rfl
  | succ n ih => simp [startups, MeshCli.startup, hm, ih, List.replicate_succ]

/-- C45. Let `r` be the registration request of a fresh mesh client and call `startup` any number of times. Either
every call was refused (each posted `r` once and raised), or there is a first accepted one: before it each call
posted `r` once, was refused and raised; it posted `r` and returned `True`; all later calls return `True` and post
nothing. -/
theorem C45_startup (mesh : Mesh) (log : List Post) (a : AppInfo) (n : Nat) :
    let r : Post := ⟨py "configs/application", a.payload⟩
    let out := startups mesh n (log, { appinfo := a })
    ((∀ i, i < n → ¬ Accepts mesh (log ++ List.replicate i r) r) ∧
      (∀ i, i < n → ∃ e, out.1[i]? = some (.error e)) ∧
      out.2 = (log ++ List.replicate n r, { appinfo := a })) ∨
    (∃ k, k < n ∧ (∀ i, i < k → ¬ Accepts mesh (log ++ List.replicate i r) r) ∧
      Accepts mesh (log ++ List.replicate k r) r ∧
      (∀ i, i < k → ∃ e, out.1[i]? = some (.error e)) ∧
      (∀ i, k ≤ i → i < n → out.1[i]? = some (.ok true)) ∧
      out.2 = (log ++ List.replicate (k + 1) r, { appinfo := a, started := true })) := by
  intro r
  induction n generalizing log with
  | zero => left; simp [startups]
  | succ n ih =>
    have rep : ∀ i, log ++ [r] ++ List.replicate i r = log ++ List.replicate (i + 1) r := by
      intro i; simp [List.replicate_succ]
    rcases meshPost_accepts mesh log (py "configs/application") a.payload with ⟨d, h1, h2⟩ | ⟨e, h1, h2⟩
    · right
      have hs : MeshCli.startup mesh log { appinfo := a } =
          (log ++ [r], { appinfo := a, started := true }, .ok true) := by simp [MeshCli.startup, h1, r]
      refine ⟨0, by omega, fun i hi => absurd hi (by omega), by simpa using h2, fun i hi => absurd hi (by omega), ?_, ?_⟩
      · intro i _ hi
        simp only [startups, hs, startups_started]
        rw [← List.replicate_succ]
        rw [List.getElem?_replicate]; simp [hi]
      · simp [startups, hs, startups_started]
    · have hs : MeshCli.startup mesh log { appinfo := a } = (log ++ [r], { appinfo := a }, .error e) := by
        simp [MeshCli.startup, h1, r]
      have hout : startups mesh (n + 1) (log, { appinfo := a }) =
          (.error e :: (startups mesh n (log ++ [r], { appinfo := a })).1,
            (startups mesh n (log ++ [r], { appinfo := a })).2) := by simp [startups, hs]
      have h0 : ¬ Accepts mesh (log ++ List.replicate 0 r) r := by simpa using h2
      rcases ih (log ++ [r]) with ⟨i1, i2, i3⟩ | ⟨k, hk, i1, i2, i3, i4, i5⟩
      · left
        simp only [hout]
        refine ⟨?_, ?_, by rw [i3, rep]⟩
        · intro i hi
          cases i with
          | zero => exact h0
          | succ i => rw [← rep]; exact i1 i (by omega)
        · intro i hi
          cases i with
          | zero => exact ⟨e, rfl⟩
          | succ i => simpa using i2 i (by omega)
      · right
        simp only [hout]
        refine ⟨k + 1, by omega, ?_, by rw [← rep]; exact i2, ?_, ?_, by rw [i5, rep]⟩
        · intro i hi
          cases i with
          | zero => exact h0
          | succ i => rw [← rep]; exact i1 i (by omega)
        · intro i hi
          cases i with
          | zero => exact ⟨e, rfl⟩
          | succ i => simpa using i3 i (by omega)
        · intro i hi hn
          cases i with
          | zero => omega
          | succ i => simpa using i4 i (by omega) (by omega)

/-- a mesh that refuses the first registration and accepts the second; four calls -/
example :
    let mesh : Mesh := fun log _ => if log.length = 0 then .resp 503 .invalid
      else .resp 200 (.object [(py "success", .bool true)])
    let out := startups mesh 4 ([], { appinfo := { appName := .str (py "a") } })
    out.1 = [.error .connectionError, .ok true, .ok true, .ok true] ∧ out.2.1.length = 2 := by decide

/-! ## C42 -/

/-- C42: the entry decides; a bare host gets port 12200; without an entry the mesh at 127.0.0.1:12220 is called. -/
theorem C42_address (m : PyDict PyStr SvcAddr) (i : PyStr) :
    (∀ h p, PyDict.get? m i = some (.pair h p) → getAddress m i = (h, p)) ∧
    (∀ h, PyDict.get? m i = some (.host h) → getAddress m i = (h, 12200)) ∧
    (i ∉ m.map Prod.fst → getAddress m i = (py "127.0.0.1", 12220)) := by
  refine ⟨?_, ?_, ?_⟩
  · intro h p hg; simp [getAddress, hg]
  · intro h hg; simp [getAddress, hg]
  · intro hn; simp [getAddress, (PyDict.get?_eq_none_iff m i).2 hn, meshAddress]

example : let m : PyDict PyStr SvcAddr := [(py "a", .host (py "h1")), (py "b", .pair (py "h2") 99)]
    getAddress m (py "a") = (py "h1", 12200) ∧ getAddress m (py "b") = (py "h2", 99) ∧
    getAddress m (py "c") = (py "127.0.0.1", 12220) := by decide

/-! ## C44 -/

theorem svcSet_get? (m : PyDict PyStr SvcAddr) (k : PyStr) (a : SvcAddr) (q : PyStr) :
    PyDict.get? (svcSet m k a).1 q = (PyDict.get? m q).or (if k = q then some a else none) := by
  unfold svcSet
  by_cases h : PyDict.contains m k = true
  · rw [if_pos h]
    by_cases hk : k = q
    · subst hk
      unfold PyDict.contains at h
      cases hg : PyDict.get? m k with
      | none => rw [hg] at h; cases h
      | some v => simp
    · simp [hk]
  · rw [if_neg h]
    simp only [PyDict.get?_set]
    by_cases hk : k = q
    · subst hk
      have : PyDict.get? m k = none := by
        cases hg : PyDict.get? m k with
        | none => rfl
        | some v => exact absurd (by simp [PyDict.contains, hg]) h
      simp [this]
    · simp [hk]

theorem svcSet_nodup {m : PyDict PyStr SvcAddr} (hm : PyDict.NodupKeys m) (k : PyStr) (a : SvcAddr) :
    PyDict.NodupKeys (svcSet m k a).1 := by
  unfold svcSet
  split
  · exact hm
  · exact PyDict.nodup_set hm k a

theorem svcPop_eq (m : PyDict PyStr SvcAddr) (k : PyStr) : (svcPop m k).1 = PyDict.erase m k := by
  unfold svcPop
  split
  · rfl
  · rename_i h
    rw [PyDict.erase_of_not_mem]
    intro hm
    exact h ((PyDict.contains_iff m k).2 hm)

theorem acceptsNth_cons_zero (mesh : Mesh) (log : List Post) (r : Post) (rs : List Post) :
    AcceptsNth mesh log (r :: rs) 0 ↔ Accepts mesh log r := by
  simp [AcceptsNth]

theorem acceptsNth_cons_succ (mesh : Mesh) (log : List Post) (r : Post) (rs : List Post) (i : Nat) :
    AcceptsNth mesh log (r :: rs) (i + 1) ↔ AcceptsNth mesh (log ++ [r]) rs i := by
  simp [AcceptsNth]

/-- some occurrence of `q` in `infs` is accepted -/
def AcceptedFor (mesh : Mesh) (log : List Post) (ep : PyStr) (infs : List PyStr) (q : PyStr) : Prop :=
  ∃ i, infs[i]? = some q ∧ AcceptsNth mesh log (infs.map (serviceReq ep)) i

theorem acceptedFor_nil (mesh : Mesh) (log : List Post) (ep q : PyStr) : ¬ AcceptedFor mesh log ep [] q := by
  rintro ⟨i, h, _⟩; simp at h

theorem acceptedFor_cons (mesh : Mesh) (log : List Post) (ep k q : PyStr) (infs : List PyStr) :
    AcceptedFor mesh log ep (k :: infs) q ↔
      (k = q ∧ Accepts mesh log (serviceReq ep k)) ∨ AcceptedFor mesh (log ++ [serviceReq ep k]) ep infs q := by
  constructor
  · rintro ⟨i, h1, h2⟩
    cases i with
    | zero =>
      left
      exact ⟨by simpa using h1, (acceptsNth_cons_zero _ _ _ _).1 h2⟩
    | succ i =>
      right
      exact ⟨i, by simpa using h1, (acceptsNth_cons_succ _ _ _ _ _).1 h2⟩
  · rintro (⟨h1, h2⟩ | ⟨i, h1, h2⟩)
    · exact ⟨0, by simp [h1], (acceptsNth_cons_zero _ _ _ _).2 h2⟩
    · exact ⟨i + 1, by simpa using h1, (acceptsNth_cons_succ _ _ _ _ _).2 h2⟩

theorem subscribe_fold (mesh : Mesh) (infs : List PyStr) (w : CliWorld) :
    let w' := infs.foldl (subscribeOne mesh) w
    w'.mesh = w.mesh ∧
    w'.log = w.log ++ infs.map (serviceReq (py "services/subscribe")) ∧
    (∀ q a, PyDict.get? w.svc q = some a → PyDict.get? w'.svc q = some a) ∧
    (∀ q, PyDict.get? w.svc q = none →
      (AcceptedFor mesh w.log (py "services/subscribe") infs q → PyDict.get? w'.svc q = some meshAddress) ∧
      (¬ AcceptedFor mesh w.log (py "services/subscribe") infs q → PyDict.get? w'.svc q = none)) := by
  induction infs generalizing w with
  | nil =>
    refine ⟨rfl, by simp, fun q a h => h, fun q h => ⟨fun h2 => absurd h2 (acceptedFor_nil _ _ _ _), fun _ => h⟩⟩
  | cons k infs ih =>
    simp only [List.foldl_cons]
    obtain ⟨i0, i1, i2, i3⟩ := ih (subscribeOne mesh w k)
    rcases meshPost_accepts mesh w.log (py "services/subscribe") (serviceNameJson k) with ⟨d, h1, h2⟩ | ⟨e, h1, h2⟩
    · have hw : subscribeOne mesh w k = ⟨w.mesh, w.log ++ [serviceReq (py "services/subscribe") k],
          (svcSet w.svc k meshAddress).1⟩ := by
        simp only [subscribeOne, h1]; rfl
      rw [hw] at i0 i1 i2 i3 ⊢
      simp only at i0 i1 i2 i3
      refine ⟨i0, by rw [i1]; simp, ?_, ?_⟩
      · intro q a hq
        exact i2 q a (by rw [svcSet_get?, hq]; rfl)
      · intro q hq
        by_cases hk : k = q
        · have : PyDict.get? (svcSet w.svc k meshAddress).1 q = some meshAddress := by
            rw [svcSet_get?, hq]; simp [hk]
          exact ⟨fun _ => i2 q _ this, fun hn => absurd ((acceptedFor_cons ..).2 (.inl ⟨hk, h2⟩)) hn⟩
        · have : PyDict.get? (svcSet w.svc k meshAddress).1 q = none := by
            rw [svcSet_get?, hq]; simp [hk]
          obtain ⟨j1, j2⟩ := i3 q this
          refine ⟨fun ha => j1 ?_, fun ha => j2 fun hb => ha ((acceptedFor_cons ..).2 (.inr hb))⟩
          rcases (acceptedFor_cons ..).1 ha with hb | hb
          · exact absurd hb.1 hk
          · exact hb
    · have hw : subscribeOne mesh w k = { w with log := w.log ++ [serviceReq (py "services/subscribe") k] } := by
        simp only [subscribeOne, h1]; rfl
      rw [hw] at i0 i1 i2 i3 ⊢
      simp only at i0 i1 i2 i3
      refine ⟨i0, by rw [i1]; simp, i2, ?_⟩
      intro q hq
      obtain ⟨j1, j2⟩ := i3 q hq
      refine ⟨fun ha => j1 ?_, fun ha => j2 fun hb => ha ((acceptedFor_cons ..).2 (.inr hb))⟩
      rcases (acceptedFor_cons ..).1 ha with hb | hb
      · exact absurd hb.2 h2
      · exact hb

theorem unsubscribe_fold (mesh : Mesh) (infs : List PyStr) (w : CliWorld) (hw : PyDict.NodupKeys w.svc) :
    let w' := infs.foldl (unsubscribeOne mesh) w
    w'.mesh = w.mesh ∧ PyDict.NodupKeys w'.svc ∧
    w'.log = w.log ++ infs.map (serviceReq (py "services/unsubscribe")) ∧
    (∀ q, AcceptedFor mesh w.log (py "services/unsubscribe") infs q → PyDict.get? w'.svc q = none) ∧
    (∀ q, ¬ AcceptedFor mesh w.log (py "services/unsubscribe") infs q →
      PyDict.get? w'.svc q = PyDict.get? w.svc q) := by
  induction infs generalizing w with
  | nil =>
    refine ⟨rfl, hw, by simp, fun q h => absurd h (acceptedFor_nil _ _ _ _), fun q _ => rfl⟩
  | cons k infs ih =>
    simp only [List.foldl_cons]
    rcases meshPost_accepts mesh w.log (py "services/unsubscribe") (serviceNameJson k) with ⟨d, h1, h2⟩ | ⟨e, h1, h2⟩
    · have hs : unsubscribeOne mesh w k = ⟨w.mesh, w.log ++ [serviceReq (py "services/unsubscribe") k],
          PyDict.erase w.svc k⟩ := by
        simp only [unsubscribeOne, h1, svcPop_eq]; rfl
      obtain ⟨i0, i1, i2, i3, i4⟩ := ih (unsubscribeOne mesh w k) (by rw [hs]; exact PyDict.nodup_erase hw k)
      rw [hs] at i0 i1 i2 i3 i4 ⊢
      simp only at i0 i1 i2 i3 i4
      refine ⟨i0, i1, by rw [i2]; simp, ?_, ?_⟩
      · intro q hq
        by_cases hb : AcceptedFor mesh (w.log ++ [serviceReq (py "services/unsubscribe") k])
            (py "services/unsubscribe") infs q
        · exact i3 q hb
        · rw [i4 q hb, PyDict.get?_erase hw]
          rcases (acceptedFor_cons ..).1 hq with hc | hc
          · simp [hc.1]
          · exact absurd hc hb
      · intro q hq
        rw [i4 q fun hb => hq ((acceptedFor_cons ..).2 (.inr hb)), PyDict.get?_erase hw]
        have : ¬ k = q := fun hk => hq ((acceptedFor_cons ..).2 (.inl ⟨hk, h2⟩))
        simp [this]
    · have hs : unsubscribeOne mesh w k = { w with log := w.log ++ [serviceReq (py "services/unsubscribe") k] } := by
        simp only [unsubscribeOne, h1]; rfl
      obtain ⟨i0, i1, i2, i3, i4⟩ := ih (unsubscribeOne mesh w k) (by rw [hs]; exact hw)
      rw [hs] at i0 i1 i2 i3 i4 ⊢
      simp only at i0 i1 i2 i3 i4
      refine ⟨i0, i1, by rw [i2]; simp, ?_, ?_⟩
      · intro q hq
        rcases (acceptedFor_cons ..).1 hq with hc | hc
        · exact absurd hc.2 h2
        · exact i3 q hc
      · intro q hq
        exact i4 q fun hb => hq ((acceptedFor_cons ..).2 (.inr hb))

theorem subscribe_nodup (mesh : Mesh) (infs : List PyStr) (w : CliWorld) (hw : PyDict.NodupKeys w.svc) :
    PyDict.NodupKeys (infs.foldl (subscribeOne mesh) w).svc := by
  induction infs generalizing w with
  | nil => exact hw
  | cons k infs ih =>
    simp only [List.foldl_cons]
    apply ih
    rcases meshPost_accepts mesh w.log (py "services/subscribe") (serviceNameJson k) with ⟨d, h1, h2⟩ | ⟨e, h1, h2⟩
    · simp only [subscribeOne, h1]; exact svcSet_nodup hw k _
    · simp only [subscribeOne, h1]; exact hw

/-- C44, subscribe. With a mesh client: one request per interface, in order, whatever the answers; existing entries
are untouched; an interface without entry gets the mesh address iff one of its requests was accepted, where the
`i`-th request is judged by the mesh's answer to it alone. Without one: nothing changes. -/
theorem C44_subscribe (mesh : Mesh) (w : CliWorld) (infs : List PyStr) :
    (w.mesh = none → subscribe mesh w infs = w) ∧
    (w.mesh ≠ none →
      (subscribe mesh w infs).log = w.log ++ infs.map (serviceReq (py "services/subscribe")) ∧
      (∀ q a, PyDict.get? w.svc q = some a → PyDict.get? (subscribe mesh w infs).svc q = some a) ∧
      (∀ q, PyDict.get? w.svc q = none →
        (PyDict.get? (subscribe mesh w infs).svc q = some meshAddress ↔
          AcceptedFor mesh w.log (py "services/subscribe") infs q) ∧
        (PyDict.get? (subscribe mesh w infs).svc q = none ↔
          ¬ AcceptedFor mesh w.log (py "services/subscribe") infs q))) := by
  constructor
  · intro h; simp [subscribe, h]
  · intro h
    have e : subscribe mesh w infs = infs.foldl (subscribeOne mesh) w := by
      unfold subscribe; rw [if_neg (by simpa using h)]
    rw [e]
    obtain ⟨_, h1, h2, h3⟩ := subscribe_fold mesh infs w
    refine ⟨h1, h2, fun q hq => ?_⟩
    obtain ⟨h4, h5⟩ := h3 q hq
    refine ⟨⟨fun hs => Classical.byContradiction fun hn => ?_, h4⟩, ⟨fun hs hn => ?_, h5⟩⟩
    · rw [h5 hn] at hs; cases hs
    · rw [h4 hn] at hs; cases hs

/-- C44, unsubscribe: one request per interface, in order; the entry disappears iff one of its requests was
accepted; all other entries are untouched. -/
theorem C44_unsubscribe (mesh : Mesh) (w : CliWorld) (infs : List PyStr) (hw : PyDict.NodupKeys w.svc) :
    (w.mesh = none → unsubscribe mesh w infs = w) ∧
    (w.mesh ≠ none →
      (unsubscribe mesh w infs).log = w.log ++ infs.map (serviceReq (py "services/unsubscribe")) ∧
      (∀ q, AcceptedFor mesh w.log (py "services/unsubscribe") infs q →
        PyDict.get? (unsubscribe mesh w infs).svc q = none) ∧
      (∀ q, ¬ AcceptedFor mesh w.log (py "services/unsubscribe") infs q →
        PyDict.get? (unsubscribe mesh w infs).svc q = PyDict.get? w.svc q)) := by
  constructor
  · intro h; simp [unsubscribe, h]
  · intro h
    have e : unsubscribe mesh w infs = infs.foldl (unsubscribeOne mesh) w := by
      unfold unsubscribe; rw [if_neg (by simpa using h)]
    rw [e]
    obtain ⟨_, _, h1, h2, h3⟩ := unsubscribe_fold mesh infs w hw
    exact ⟨h1, h2, h3⟩

/-- A mesh that accepts everything except interface `b`. -/
def exMesh : Mesh := fun _ r =>
  if PyDict.get? r.json (py "serviceName") = some (.v (.str (py "b"))) then .resp 500 .invalid
  else .resp 200 (.object [(py "success", .bool true)])

example :
    let w : CliWorld := { mesh := some { appinfo := { appName := .none } }, svc := [(py "a", .host (py "h"))] }
    let w1 := subscribe exMesh w [py "a", py "b", py "c"]
    w1.svc = [(py "a", .host (py "h")), (py "c", meshAddress)] ∧ w1.log.length = 3 ∧
    (unsubscribe exMesh w1 [py "b", py "a"]).svc = [(py "c", meshAddress)] := by decide

/-! ## C43 -/

/-- what a program can do with the service map through this library -/
inductive SvcOp where
  | assign (k : PyStr) (a : SvcAddr)
  | subscribe (infs : List PyStr)
  | unsubscribe (infs : List PyStr)

def svcStep (mesh : Mesh) (w : CliWorld) : SvcOp → CliWorld
  | .assign k a => { w with svc := (svcSet w.svc k a).1 }
  | .subscribe infs => subscribe mesh w infs
  | .unsubscribe infs => unsubscribe mesh w infs

def svcRun (mesh : Mesh) (w : CliWorld) (ops : List SvcOp) : CliWorld := ops.foldl (svcStep mesh) w

/-- the operation asks to remove `k` -/
def SvcOp.removes (k : PyStr) : SvcOp → Prop
  | .unsubscribe infs => k ∈ infs
  | _ => False

theorem svcStep_nodup (mesh : Mesh) (w : CliWorld) (op : SvcOp) (hw : PyDict.NodupKeys w.svc) :
    PyDict.NodupKeys (svcStep mesh w op).svc := by
  cases op with
  | assign k a => exact svcSet_nodup hw k a
  | subscribe infs =>
    simp only [svcStep, subscribe]
    split
    · exact hw
    · exact subscribe_nodup mesh infs w hw
  | unsubscribe infs =>
    simp only [svcStep, unsubscribe]
    split
    · exact hw
    · exact (unsubscribe_fold mesh infs w hw).2.1

theorem svcStep_keeps (mesh : Mesh) (w : CliWorld) (op : SvcOp) (hw : PyDict.NodupKeys w.svc) (k : PyStr)
    (a : SvcAddr) (h : PyDict.get? w.svc k = some a) (hn : ¬ op.removes k) :
    PyDict.get? (svcStep mesh w op).svc k = some a := by
  cases op with
  | assign k' a' => simp only [svcStep, svcSet_get?, h]; rfl
  | subscribe infs =>
    simp only [svcStep, subscribe]
    split
    · exact h
    · exact (subscribe_fold mesh infs w).2.2.1 k a h
  | unsubscribe infs =>
    simp only [svcStep, unsubscribe]
    split
    · exact h
    · rw [(unsubscribe_fold mesh infs w hw).2.2.2.2 k, h]
      rintro ⟨i, hi, _⟩
      exact hn (List.mem_of_getElem? hi)

/-- C43. In any history of assignments, subscriptions and unsubscriptions, starting from any service map: an
interface that has an address keeps exactly this address as long as no unsubscription of it is requested; an
assignment to an existing key raises `KeyError` and changes nothing; and an assignment to a missing key stores the
value. -/
theorem C43_first_assignment_wins (mesh : Mesh) (w : CliWorld) (hw : PyDict.NodupKeys w.svc) (ops later : List SvcOp)
    (k : PyStr) (a : SvcAddr) :
    (PyDict.get? (svcRun mesh w ops).svc k = some a → (∀ op ∈ later, ¬ op.removes k) →
      PyDict.get? (svcRun mesh w (ops ++ later)).svc k = some a) ∧
    (∀ b, PyDict.get? (svcRun mesh w ops).svc k = some a →
      svcSet (svcRun mesh w ops).svc k b = ((svcRun mesh w ops).svc, .error .keyError)) ∧
    (∀ b, PyDict.get? (svcRun mesh w ops).svc k = none →
      (svcSet (svcRun mesh w ops).svc k b).2 = .ok () ∧
      PyDict.get? (svcSet (svcRun mesh w ops).svc k b).1 k = some b) := by
  have nd : ∀ (ops : List SvcOp) (w : CliWorld), PyDict.NodupKeys w.svc → PyDict.NodupKeys (svcRun mesh w ops).svc := by
    intro ops
    induction ops with
    | nil => exact fun w h => h
    | cons op ops ih => exact fun w h => ih _ (svcStep_nodup mesh w op h)
  refine ⟨?_, ?_, ?_⟩
  · intro h hl
    have e : svcRun mesh w (ops ++ later) = svcRun mesh (svcRun mesh w ops) later := by
      simp [svcRun, List.foldl_append]
    rw [e]
    clear e
    have hn := nd ops w hw
    revert h hn
    generalize svcRun mesh w ops = w1
    induction later generalizing w1 with
    | nil => exact fun h _ => h
    | cons op later ih =>
      intro h hn
      exact ih (fun o ho => hl o (List.mem_cons_of_mem _ ho)) _
        (svcStep_keeps mesh w1 op hn k a h (hl op List.mem_cons_self)) (svcStep_nodup mesh w1 op hn)
  · intro b h
    simp [svcSet, PyDict.contains, h]
  · intro b h
    have : PyDict.contains (svcRun mesh w ops).svc k = false := by simp [PyDict.contains, h]
    refine ⟨by simp [svcSet, this], ?_⟩
    rw [svcSet_get?, h]; simp

example :
    let w : CliWorld := { mesh := some { appinfo := { appName := .none } } }
    let ops := [SvcOp.assign (py "a") (.host (py "h1")), .subscribe [py "a", py "c"], .assign (py "a") (.host (py "h2"))]
    PyDict.get? (svcRun exMesh w ops).svc (py "a") = some (.host (py "h1")) ∧
    PyDict.get? (svcRun exMesh w (ops ++ [.unsubscribe [py "a"], .assign (py "a") (.host (py "h2"))])).svc (py "a")
      = some (.host (py "h2")) := by decide

/-! ## C48 -/

theorem postEach_spec (mesh : Mesh) (ep : PyStr) (json : PyStr → PyDict PyStr PayVal) (names : List PyStr)
    (log : List Post) :
    ∃ m, m ≤ names.length ∧
      (postEach mesh ep json log names).1 = log ++ (names.take m).map (fun s => ⟨ep, json s⟩) ∧
      ((postEach mesh ep json log names).2 = .ok () ∧ m = names.length ∧
        (∀ i, i < m → AcceptsNth mesh log (names.map fun s => ⟨ep, json s⟩) i) ∨
       (∃ e, (postEach mesh ep json log names).2 = .error e) ∧ 0 < m ∧
        (∀ i, i + 1 < m → AcceptsNth mesh log (names.map fun s => ⟨ep, json s⟩) i) ∧
        ¬ AcceptsNth mesh log (names.map fun s => ⟨ep, json s⟩) (m - 1)) := by
  induction names generalizing log with
  | nil => exact ⟨0, Nat.le_refl _, by simp [postEach], .inl ⟨rfl, rfl, fun i hi => absurd hi (by omega)⟩⟩
  | cons s names ih =>
    rcases meshPost_accepts mesh log ep (json s) with ⟨d, h1, h2⟩ | ⟨e, h1, h2⟩
    · obtain ⟨m, hm, i1, i2⟩ := ih (log ++ [⟨ep, json s⟩])
      have hp : postEach mesh ep json log (s :: names) = postEach mesh ep json (log ++ [⟨ep, json s⟩]) names := by
        simp [postEach, h1]
      rw [hp]
      refine ⟨m + 1, by simpa using hm, by rw [i1]; simp, ?_⟩
      simp only [List.map_cons]
      rcases i2 with ⟨j1, j2, j3⟩ | ⟨j1, j2, j3, j4⟩
      · left
        refine ⟨j1, by simp [j2], fun i hi => ?_⟩
        cases i with
        | zero => exact (acceptsNth_cons_zero ..).2 h2
        | succ i => exact (acceptsNth_cons_succ ..).2 (j3 i (by omega))
      · right
        refine ⟨j1, by omega, fun i hi => ?_, ?_⟩
        · cases i with
          | zero => exact (acceptsNth_cons_zero ..).2 h2
          | succ i => exact (acceptsNth_cons_succ ..).2 (j3 i (by omega))
        · have : m + 1 - 1 = (m - 1) + 1 := by omega
          rw [this]
          exact fun hb => j4 ((acceptsNth_cons_succ ..).1 hb)
    · refine ⟨1, by simp, by simp [postEach, h1], .inr ⟨⟨e, by simp [postEach, h1]⟩, by omega,
        fun i hi => absurd hi (by omega), ?_⟩⟩
      exact fun hb => h2 ((acceptsNth_cons_zero ..).1 hb)

/-- C48: with a mesh client, `publish` posts the announcements of the first `m` registered interfaces in
registration order, one each, carrying the listening port; it returns normally iff all were accepted (then `m` is
their number), and otherwise raises, the last posted one being the first that was refused. Without a mesh client
nothing is posted. -/
theorem C48_publish (mesh : Mesh) (log : List Post) (cli : Option MeshCli) (names : List PyStr) (port : Int)
    (app : PyObj) :
    (cli = none → publish mesh log cli names port app = (log, .ok ())) ∧
    (cli ≠ none → ∃ m, m ≤ names.length ∧
      (publish mesh log cli names port app).1 = log ++ (names.take m).map (publishReq port app) ∧
      ((publish mesh log cli names port app).2 = .ok () ∧ m = names.length ∧
        (∀ i, i < m → AcceptsNth mesh log (names.map (publishReq port app)) i) ∨
       (∃ e, (publish mesh log cli names port app).2 = .error e) ∧ 0 < m ∧
        (∀ i, i + 1 < m → AcceptsNth mesh log (names.map (publishReq port app)) i) ∧
        ¬ AcceptsNth mesh log (names.map (publishReq port app)) (m - 1))) := by
  constructor
  · rintro rfl; rfl
  · intro h
    cases cli with
    | none => exact absurd rfl h
    | some c => exact postEach_spec mesh (py "services/publish") (fun s => publishJson s port app) names log

/-- C48, `unpublish` likewise. -/
theorem C48_unpublish (mesh : Mesh) (log : List Post) (cli : Option MeshCli) (names : List PyStr) :
    (cli = none → unpublish mesh log cli names = (log, .ok ())) ∧
    (cli ≠ none → ∃ m, m ≤ names.length ∧
      (unpublish mesh log cli names).1 = log ++ (names.take m).map (serviceReq (py "services/unpublish")) ∧
      ((unpublish mesh log cli names).2 = .ok () ∧ m = names.length ∧
        (∀ i, i < m → AcceptsNth mesh log (names.map (serviceReq (py "services/unpublish"))) i) ∨
       (∃ e, (unpublish mesh log cli names).2 = .error e) ∧ 0 < m ∧
        (∀ i, i + 1 < m → AcceptsNth mesh log (names.map (serviceReq (py "services/unpublish"))) i) ∧
        ¬ AcceptsNth mesh log (names.map (serviceReq (py "services/unpublish"))) (m - 1))) := by
  constructor
  · rintro rfl; rfl
  · intro h
    cases cli with
    | none => exact absurd rfl h
    | some c => exact postEach_spec mesh (py "services/unpublish") serviceNameJson names log

example :
    let out := publish exMesh [] (some { appinfo := { appName := .none } }) [py "a", py "b", py "c"] 12200 (.str (py "app"))
    out.1 = [publishReq 12200 (.str (py "app")) (py "a"), publishReq 12200 (.str (py "app")) (py "b")] ∧
    out.2 = .error .connectionError := by decide

end Bolt
