import Verif.Props.Process
/-!
# C198: the service map and the subscriptions the mesh holds
-/
namespace Bolt
open Spec

namespace Spec

def subscribeReq (k : PyStr) : Post := serviceReq (py "services/subscribe") k

def unsubscribeReq (k : PyStr) : Post := serviceReq (py "services/unsubscribe") k

/-- According to what it has accepted, the mesh holds a subscription of this process: it has accepted one, and since then no
request to end it. -/
def Subscribed (mesh : Mesh) (log : List Post) (k : PyStr) : Prop :=
  ∃ i, log[i]? = some (subscribeReq k) ∧ Accepts mesh (log.take i) (subscribeReq k) ∧
    ∀ n, i < n → log[n]? = some (unsubscribeReq k) → ¬ Accepts mesh (log.take n) (unsubscribeReq k)

end Spec

theorem subscribed_snoc (mesh : Mesh) (log : List Post) (p : Post) (k : PyStr) :
    Subscribed mesh (log ++ [p]) k ↔ (p = subscribeReq k ∧ Accepts mesh log p) ∨
      (Subscribed mesh log k ∧ ¬ (p = unsubscribeReq k ∧ Accepts mesh log p)) := by
  have hlast : (log ++ [p])[log.length]? = some p := by simp
  have htake : ∀ i, i ≤ log.length → (log ++ [p]).take i = log.take i := fun i hi => List.take_append_of_le_length hi
  constructor
  · rintro ⟨i, h1, h2, h3⟩
    have hlt : i < (log ++ [p]).length := (List.getElem?_eq_some_iff.1 h1).1
    rw [List.length_append, List.length_singleton] at hlt
    by_cases hi : i = log.length
    · subst hi
      rw [hlast] at h1
      cases h1
      rw [htake _ (Nat.le_refl _), List.take_length] at h2
      exact .inl ⟨rfl, h2⟩
    · have hi' : i < log.length := by omega
      rw [List.getElem?_append_left hi'] at h1
      rw [htake i (by omega)] at h2
      refine .inr ⟨⟨i, h1, h2, fun n hn hs => ?_⟩, fun ⟨he, ha⟩ => ?_⟩
      · have hnl : n < log.length := (List.getElem?_eq_some_iff.1 hs).1
        have := h3 n hn (by rw [List.getElem?_append_left hnl]; exact hs)
        rwa [htake n (by omega)] at this
      · refine h3 log.length hi' (by rw [hlast, he]) ?_
        rw [htake _ (Nat.le_refl _), List.take_length, ← he]
        exact ha
  · rintro (⟨rfl, ha⟩ | ⟨⟨i, h1, h2, h3⟩, hn⟩)
    · refine ⟨log.length, hlast, ?_, fun n hn hs => ?_⟩
      · rw [htake _ (Nat.le_refl _), List.take_length]; exact ha
      · have := (List.getElem?_eq_some_iff.1 hs).1
        rw [List.length_append, List.length_singleton] at this
        omega
    · have hi : i < log.length := (List.getElem?_eq_some_iff.1 h1).1
      refine ⟨i, by rw [List.getElem?_append_left hi]; exact h1, by rw [htake i (by omega)]; exact h2, fun n hkn hs => ?_⟩
      have hnl := (List.getElem?_eq_some_iff.1 hs).1
      rw [List.length_append, List.length_singleton] at hnl
      by_cases hnn : n = log.length
      · subst hnn
        rw [hlast] at hs
        cases hs
        rw [htake _ (Nat.le_refl _), List.take_length]
        exact fun ha => hn ⟨rfl, ha⟩
      · have hn' : n < log.length := by omega
        rw [List.getElem?_append_left hn'] at hs
        rw [htake n (by omega)]
        exact h3 n hkn hs

theorem sub_ne_unsub (k k' : PyStr) : subscribeReq k ≠ unsubscribeReq k' := by
  intro h
  have := congrArg Post.endpoint h
  revert this
  simp only [subscribeReq, unsubscribeReq, serviceReq]
  decide

theorem serviceReq_inj {ep k k' : PyStr} (h : serviceReq ep k = serviceReq ep k') : k = k' := by
  simp only [serviceReq, Post.mk.injEq, List.cons.injEq, Prod.mk.injEq, true_and, and_true] at h
  injection h with h; injection h

/-- posts with another purpose -/
theorem subscribed_other {mesh : Mesh} {log ps : List Post} {k : PyStr}
    (h : ∀ r ∈ ps, r.endpoint ≠ py "services/subscribe" ∧ r.endpoint ≠ py "services/unsubscribe") :
    Subscribed mesh (log ++ ps) k ↔ Subscribed mesh log k := by
  induction ps using snoc_induct with
  | nil => rw [List.append_nil]
  | snoc ps p ih =>
    obtain ⟨h1, h2⟩ := h p (List.mem_append_right _ (List.mem_singleton.2 rfl))
    rw [← List.append_assoc, subscribed_snoc, ih fun r hr => h r (List.mem_append_left _ hr)]
    constructor
    · rintro (⟨rfl, -⟩ | ⟨h, -⟩)
      · exact absurd rfl h1
      · exact h
    · intro h
      exact .inr ⟨h, fun ⟨e, _⟩ => h2 (by rw [e]; rfl)⟩

/-- what is to be shown of a log and a service map: `a` says that an address was assigned to `k` -/
def Agree (mesh : Mesh) (k : PyStr) (a : Prop) (log : List Post) (svc : PyDict PyStr SvcAddr) : Prop :=
  PyDict.NodupKeys svc ∧ (Subscribed mesh log k → PyDict.contains svc k = true) ∧
    (PyDict.contains svc k = true → Subscribed mesh log k ∨ a)

theorem mem_svcSet (m : PyDict PyStr SvcAddr) (k k' : PyStr) (a : SvcAddr) :
    PyDict.contains (svcSet m k a).1 k' = true ↔ PyDict.contains m k' = true ∨ k' = k := by
  unfold svcSet
  split
  · next h =>
    refine ⟨.inl, fun h' => h'.elim id fun e => ?_⟩
    rw [e]; exact h
  · next h =>
    simp only [PyDict.contains_iff] at h ⊢
    rw [keys_set, if_neg h, List.mem_append, List.mem_singleton]

theorem mem_svcPop {m : PyDict PyStr SvcAddr} (hm : PyDict.NodupKeys m) (k k' : PyStr) :
    PyDict.contains (svcPop m k).1 k' = true ↔ PyDict.contains m k' = true ∧ k' ≠ k := by
  unfold svcPop
  split
  · simp only [PyDict.contains, PyDict.get?_erase hm]
    by_cases e : k' = k
    · subst e; simp
    · have e' : k ≠ k' := fun h => e h.symm
      simp [e, e']
  · next h =>
    exact ⟨fun h' => ⟨h', fun e => h (e ▸ h')⟩, fun h' => h'.1⟩

theorem agree_subscribeOne {mesh : Mesh} {k : PyStr} {a : Prop} {w : CliWorld} (inf : PyStr) (h : Agree mesh k a w.log w.svc) :
    Agree mesh k a (subscribeOne mesh w inf).log (subscribeOne mesh w inf).svc := by
  obtain ⟨h0, h1, h2⟩ := h
  rcases meshPost_accepts mesh w.log (py "services/subscribe") (serviceNameJson inf) with ⟨d, h3, h4⟩ | ⟨e, h3, h4⟩
  · have e : subscribeOne mesh w inf = { w with log := w.log ++ [subscribeReq inf], svc := (svcSet w.svc inf meshAddress).1 } := by
      unfold subscribeOne; rw [h3]; rfl
    rw [e]
    refine ⟨svcSet_nodup h0 inf meshAddress, ?_⟩
    rw [subscribed_snoc, mem_svcSet]
    constructor
    · rintro (⟨h5, -⟩ | ⟨h5, -⟩)
      · exact .inr (serviceReq_inj h5).symm
      · exact .inl (h1 h5)
    · rintro (h5 | rfl)
      · exact (h2 h5).imp (fun h6 => .inr ⟨h6, fun h7 => sub_ne_unsub _ _ h7.1⟩) id
      · exact .inl (.inl ⟨rfl, h4⟩)
  · have e : subscribeOne mesh w inf = { w with log := w.log ++ [subscribeReq inf] } := by
      unfold subscribeOne; rw [h3]; rfl
    rw [e]
    refine ⟨h0, ?_⟩
    rw [subscribed_snoc]
    constructor
    · rintro (⟨-, h5⟩ | ⟨h5, -⟩)
      · exact absurd h5 h4
      · exact h1 h5
    · intro h5
      exact (h2 h5).imp (fun h6 => .inr ⟨h6, fun h7 => sub_ne_unsub _ _ h7.1⟩) id

theorem agree_unsubscribeOne {mesh : Mesh} {k : PyStr} {a : Prop} {w : CliWorld} (inf : PyStr)
    (h : Agree mesh k a w.log w.svc) :
    Agree mesh k a (unsubscribeOne mesh w inf).log (unsubscribeOne mesh w inf).svc := by
  obtain ⟨h0, h1, h2⟩ := h
  rcases meshPost_accepts mesh w.log (py "services/unsubscribe") (serviceNameJson inf) with ⟨d, h3, h4⟩ | ⟨e, h3, h4⟩
  · have e : unsubscribeOne mesh w inf = { w with log := w.log ++ [unsubscribeReq inf], svc := (svcPop w.svc inf).1 } := by
      unfold unsubscribeOne; rw [h3]; rfl
    rw [e]
    refine ⟨?_, ?_⟩
    · show PyDict.NodupKeys (svcPop w.svc inf).1
      unfold svcPop
      split
      · exact PyDict.nodup_erase h0 inf
      · exact h0
    rw [subscribed_snoc, mem_svcPop h0]
    constructor
    · rintro (⟨h5, -⟩ | ⟨h5, h6⟩)
      · exact absurd h5.symm (sub_ne_unsub _ _)
      · exact ⟨h1 h5, fun e => h6 ⟨by rw [e], h4⟩⟩
    · rintro ⟨h5, h6⟩
      exact (h2 h5).imp (fun h7 => .inr ⟨h7, fun h8 => h6 (serviceReq_inj h8.1).symm⟩) id
  · have e : unsubscribeOne mesh w inf = { w with log := w.log ++ [unsubscribeReq inf] } := by
      unfold unsubscribeOne; rw [h3]; rfl
    rw [e]
    refine ⟨h0, ?_⟩
    rw [subscribed_snoc]
    constructor
    · rintro (⟨h5, -⟩ | ⟨h5, -⟩)
      · exact absurd h5.symm (sub_ne_unsub _ _)
      · exact h1 h5
    · intro h5
      exact (h2 h5).imp (fun h6 => .inr ⟨h6, fun h7 => h4 h7.2⟩) id

theorem agree_fold {mesh : Mesh} {k : PyStr} {a : Prop} (f : CliWorld → PyStr → CliWorld)
    (hf : ∀ (w : CliWorld) (inf : PyStr), Agree mesh k a w.log w.svc → Agree mesh k a (f w inf).log (f w inf).svc)
    (infs : List PyStr) (w : CliWorld) (h : Agree mesh k a w.log w.svc) :
    Agree mesh k a (infs.foldl f w).log (infs.foldl f w).svc := by
  induction infs generalizing w with
  | nil => exact h
  | cons i infs ih => exact ih _ (hf w i h)

theorem Agree.other {mesh : Mesh} {k : PyStr} {a : Prop} {log ps : List Post} {svc : PyDict PyStr SvcAddr}
    (h : Agree mesh k a log svc)
    (hp : ∀ r ∈ ps, r.endpoint ≠ py "services/subscribe" ∧ r.endpoint ≠ py "services/unsubscribe") :
    Agree mesh k a (log ++ ps) svc := by
  unfold Agree
  rw [subscribed_other hp]
  exact h

theorem Agree.mono {mesh : Mesh} {k : PyStr} {a b : Prop} {log : List Post} {svc : PyDict PyStr SvcAddr}
    (h : Agree mesh k a log svc) (hab : a → b) : Agree mesh k b log svc :=
  ⟨h.1, h.2.1, fun hc => (h.2.2 hc).imp id hab⟩

theorem agree_run (mesh : Mesh) (ops : List POp) (k : PyStr) :
    Agree mesh k (∃ a, .assign k a ∈ ops) (prun mesh ops).log (prun mesh ops).svc := by
  induction ops using snoc_induct with
  | nil =>
    refine ⟨List.nodup_nil, ?_, ?_⟩
    · rintro ⟨i, h, -⟩; cases h
    · intro h; cases h
  | snoc ops op ih =>
    rw [prun_snoc]
    have ih := ih.mono (b := ∃ a, .assign k a ∈ ops ++ [op]) fun ⟨a, h⟩ => ⟨a, List.mem_append_left _ h⟩
    generalize prun mesh ops = p at ih
    have app : ∀ (a : AppInfo), ∀ r ∈ [appReq a],
        r.endpoint ≠ py "services/subscribe" ∧ r.endpoint ≠ py "services/unsubscribe" := by
      intro a r hr
      rw [List.mem_singleton.1 hr]
      exact ⟨by simp only [appReq]; decide, by simp only [appReq]; decide⟩
    cases op with
    | newClient a =>
      simp only [pstep, newMeshCli_log]
      exact ih.other (app a)
    | newListener a port =>
      simp only [pstep, newMeshCli_log]
      exact ih.other (app a)
    | assign k' a =>
      simp only [pstep]
      refine ⟨svcSet_nodup ih.1 k' a, fun h => (mem_svcSet ..).2 (.inl (ih.2.1 h)), fun h => ?_⟩
      rcases (mem_svcSet ..).1 h with h | rfl
      · exact ih.2.2 h
      · exact .inr ⟨a, List.mem_append_right _ (List.mem_singleton.2 rfl)⟩
    | subscribe i infs =>
      unfold pstep
      dsimp only
      split
      · exact ih
      · next m hm =>
        unfold subscribe
        split
        · exact ih
        · exact agree_fold (subscribeOne mesh) (fun w inf h => agree_subscribeOne inf h) infs { mesh := m, log := p.log, svc := p.svc } ih
    | unsubscribe i infs =>
      unfold pstep
      dsimp only
      split
      · exact ih
      · next m hm =>
        unfold unsubscribe
        split
        · exact ih
        · exact agree_fold (unsubscribeOne mesh) (fun w inf h => agree_unsubscribeOne inf h) infs { mesh := m, log := p.log, svc := p.svc } ih
    | register j r =>
      unfold pstep
      dsimp only
      split <;> exact ih
    | publish j =>
      unfold pstep
      dsimp only
      split
      · exact ih
      · next l hl =>
        cases hm : l.mesh with
        | none => exact ih
        | some m =>
          obtain ⟨n, -, h2, -⟩ := (C48_publish mesh p.log (some m) (p.reg.map Prod.fst) l.port l.app).2 (by simp)
          rw [h2]
          refine ih.other fun r hr => ?_
          obtain ⟨t, -, rfl⟩ := List.mem_map.1 hr
          exact ⟨by simp only [publishReq]; decide, by simp only [publishReq]; decide⟩
    | unpublish j =>
      unfold pstep
      dsimp only
      split
      · exact ih
      · next l hl =>
        cases hm : l.mesh with
        | none => exact ih
        | some m =>
          obtain ⟨n, -, h2, -⟩ := (C48_unpublish mesh p.log (some m) (p.reg.map Prod.fst)).2 (by simp)
          rw [h2]
          refine ih.other fun r hr => ?_
          obtain ⟨t, -, rfl⟩ := List.mem_map.1 hr
          exact ⟨by simp only [serviceReq]; decide, by simp only [serviceReq]; decide⟩

/-- C198. In every history of a process, and whatever the mesh answers: an interface to which the program has assigned no
address is in the service map exactly if the mesh holds a subscription of it. -/
theorem C198_agree (mesh : Mesh) (ops : List POp) (k : PyStr) (h : ∀ a, .assign k a ∉ ops) :
    PyDict.contains (prun mesh ops).svc k = true ↔ Subscribed mesh (prun mesh ops).log k :=
  ⟨fun hc => ((agree_run mesh ops k).2.2 hc).resolve_right fun ⟨a, ha⟩ => h a ha, (agree_run mesh ops k).2.1⟩

/-- C198. An interface that the mesh holds a subscription of is in the service map in any case. -/
theorem C198_subscribed (mesh : Mesh) (ops : List POp) (k : PyStr) (h : Subscribed mesh (prun mesh ops).log k) :
    PyDict.contains (prun mesh ops).svc k = true := (agree_run mesh ops k).2.1 h

/-! ## concrete cases -/

/-- two clients subscribe; one of them unsubscribes -/
def exSubOps : List POp :=
  [.newClient { appName := .none }, .newClient { appName := .none }, .subscribe 0 [py "i", py "j"], .subscribe 1 [py "i"],
   .unsubscribe 0 [py "i"]]

example : (∀ k a, POp.assign k a ∉ exSubOps) ∧ PyDict.contains (prun yesMesh exSubOps).svc (py "j") = true ∧
    PyDict.contains (prun yesMesh exSubOps).svc (py "i") = false :=
  ⟨fun k a h => by simp [exSubOps] at h, by decide, by decide⟩

/-- with an assigned address the map has an entry that the mesh knows nothing of -/
example : PyDict.contains (prun yesMesh [.assign (py "i") (.host (py "h"))]).svc (py "i") = true ∧
    ¬ Subscribed yesMesh (prun yesMesh [.assign (py "i") (.host (py "h"))]).log (py "i") :=
  ⟨by decide, fun ⟨_, h, _⟩ => by cases h⟩

end Bolt
