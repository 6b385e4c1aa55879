import Verif.Props.Process
import Verif.Lemmas.Text
/-!
# C197: what a process has announced is withdrawn by `unpublish`
-/
namespace Bolt
open Spec

namespace Spec

/-- the request that withdraws one service -/
def withdrawReq (s : PyStr) : Post := serviceReq (py "services/unpublish") s

/-- According to what it has accepted, the mesh holds an announcement of the service by this process: it has accepted one, and
since then no request to withdraw it. -/
def Announced (mesh : Mesh) (log : List Post) (s : PyStr) : Prop :=
  ∃ (i : Nat) (port : Int) (app : PyObj), log[i]? = some (publishReq port app s) ∧
    Accepts mesh (log.take i) (publishReq port app s) ∧
    ∀ k, i < k → log[k]? = some (withdrawReq s) → ¬ Accepts mesh (log.take k) (withdrawReq s)

end Spec

/-- C197 as listed: after a listener of the process has called `unpublish`, the mesh holds no announcement of it. -/
def C197_full : Prop :=
  ∀ (mesh : Mesh) (ops : List POp) (j : Nat) (l : ListenerObj) (m : MeshCli) (s : PyStr),
    (prun mesh ops).listeners[j]? = some l → l.mesh = some m → ¬ Announced mesh (prun mesh (ops ++ [.unpublish j])).log s

/-! ## announcements and posts -/

theorem announced_snoc (mesh : Mesh) (log : List Post) (p : Post) (s : PyStr) :
    Announced mesh (log ++ [p]) s ↔ (∃ port app, p = publishReq port app s ∧ Accepts mesh log p) ∨
      (Announced mesh log s ∧ ¬ (p = withdrawReq s ∧ Accepts mesh log p)) := by
  have hlast : (log ++ [p])[log.length]? = some p := by simp
  have htake : ∀ i, i ≤ log.length → (log ++ [p]).take i = log.take i := fun i hi => List.take_append_of_le_length hi
  constructor
  · rintro ⟨i, port, app, h1, h2, h3⟩
    have hlt : i < (log ++ [p]).length := (List.getElem?_eq_some_iff.1 h1).1
    rw [List.length_append, List.length_singleton] at hlt
    by_cases hi : i = log.length
    · subst hi
      rw [hlast] at h1
      cases h1
      rw [htake _ (Nat.le_refl _), List.take_length] at h2
      exact .inl ⟨port, app, rfl, h2⟩
    · have hi' : i < log.length := by omega
      rw [List.getElem?_append_left hi'] at h1
      rw [htake i (by omega)] at h2
      refine .inr ⟨⟨i, port, app, h1, h2, fun k hk hs => ?_⟩, fun ⟨he, ha⟩ => ?_⟩
      · have hkl : k < log.length := (List.getElem?_eq_some_iff.1 hs).1
        have := h3 k hk (by rw [List.getElem?_append_left hkl]; exact hs)
        rwa [htake k (by omega)] at this
      · refine h3 log.length hi' (by rw [hlast, he]) ?_
        rw [htake _ (Nat.le_refl _), List.take_length, ← he]
        exact ha
  · rintro (⟨port, app, rfl, ha⟩ | ⟨⟨i, port, app, h1, h2, h3⟩, hn⟩)
    · refine ⟨log.length, port, app, hlast, ?_, fun k hk hs => ?_⟩
      · rw [htake _ (Nat.le_refl _), List.take_length]; exact ha
      · have := (List.getElem?_eq_some_iff.1 hs).1
        rw [List.length_append, List.length_singleton] at this
        omega
    · have hi : i < log.length := (List.getElem?_eq_some_iff.1 h1).1
      refine ⟨i, port, app, by rw [List.getElem?_append_left hi]; exact h1, by rw [htake i (by omega)]; exact h2,
        fun k hk hs => ?_⟩
      have hkl := (List.getElem?_eq_some_iff.1 hs).1
      rw [List.length_append, List.length_singleton] at hkl
      by_cases hkk : k = log.length
      · subst hkk
        rw [hlast] at hs
        cases hs
        rw [htake _ (Nat.le_refl _), List.take_length]
        exact fun ha => hn ⟨rfl, ha⟩
      · have hk' : k < log.length := by omega
        rw [List.getElem?_append_left hk'] at hs
        rw [htake k (by omega)]
        exact h3 k hk hs

theorem announced_nil (mesh : Mesh) (s : PyStr) : ¬ Announced mesh [] s := by
  rintro ⟨i, port, app, h, -⟩
  cases h

theorem announced_keep {mesh : Mesh} {log ps : List Post} {s : PyStr} (hp : withdrawReq s ∉ ps) (h : Announced mesh log s) :
    Announced mesh (log ++ ps) s := by
  induction ps using snoc_induct with
  | nil => rw [List.append_nil]; exact h
  | snoc ps p ih =>
    rw [← List.append_assoc, announced_snoc]
    exact .inr ⟨ih fun hm => hp (List.mem_append_left _ hm),
      fun ⟨e, _⟩ => hp (List.mem_append_right _ (List.mem_singleton.2 e.symm))⟩

theorem announced_new {mesh : Mesh} {log ps : List Post} {s : PyStr} (h : Announced mesh (log ++ ps) s) :
    Announced mesh log s ∨ ∃ port app, publishReq port app s ∈ ps := by
  induction ps using snoc_induct with
  | nil => rw [List.append_nil] at h; exact .inl h
  | snoc ps p ih =>
    rw [← List.append_assoc, announced_snoc] at h
    rcases h with ⟨port, app, rfl, -⟩ | ⟨h, -⟩
    · exact .inr ⟨port, app, List.mem_append_right _ (List.mem_singleton.2 rfl)⟩
    · exact (ih h).imp id fun ⟨port, app, hm⟩ => ⟨port, app, List.mem_append_left _ hm⟩

theorem withdrawReq_inj {s t : PyStr} (h : withdrawReq s = withdrawReq t) : s = t := by
  simp only [withdrawReq, serviceReq, Post.mk.injEq, List.cons.injEq, Prod.mk.injEq, true_and, and_true] at h
  injection h with h; injection h

theorem publish_ne_withdraw (port : Int) (app : PyObj) (s t : PyStr) : publishReq port app s ≠ withdrawReq t := by
  intro h
  have := congrArg Post.endpoint h
  revert this
  simp only [publishReq, withdrawReq, serviceReq]
  decide

/-- requests to withdraw services, one after the other -/
theorem announced_withdraw (mesh : Mesh) (log : List Post) (ns : List PyStr) (s : PyStr) :
    Announced mesh (log ++ ns.map withdrawReq) s ↔
      Announced mesh log s ∧ ∀ i, ns[i]? = some s → ¬ AcceptsNth mesh log (ns.map withdrawReq) i := by
  induction ns using snoc_induct with
  | nil => simp
  | snoc ns n ih =>
    rw [List.map_append, ← List.append_assoc, List.map_cons, List.map_nil, announced_snoc, ih]
    have hacc : ∀ i, i < ns.length → (AcceptsNth mesh log (ns.map withdrawReq ++ [withdrawReq n]) i ↔
        AcceptsNth mesh log (ns.map withdrawReq) i) := by
      intro i hi
      unfold AcceptsNth
      rw [List.getElem?_append_left (by simpa using hi), List.take_append_of_le_length (by simp; omega)]
    have hend : AcceptsNth mesh log (ns.map withdrawReq ++ [withdrawReq n]) ns.length ↔
        Accepts mesh (log ++ ns.map withdrawReq) (withdrawReq n) := by
      unfold AcceptsNth
      have e1 : (ns.map withdrawReq ++ [withdrawReq n])[ns.length]? = some (withdrawReq n) := by simp
      have e2 : (ns.map withdrawReq ++ [withdrawReq n]).take ns.length = ns.map withdrawReq := by
        rw [List.take_append_of_le_length (by simp), List.take_of_length_le (by simp)]
      rw [e1, e2]
      constructor
      · rintro ⟨r, hr, ha⟩; cases hr; exact ha
      · intro ha; exact ⟨_, rfl, ha⟩
    constructor
    · rintro (⟨port, app, he, -⟩ | ⟨⟨h1, h2⟩, h3⟩)
      · exact absurd he.symm (publish_ne_withdraw port app s n)
      · refine ⟨h1, fun i hi => ?_⟩
        by_cases hl : i < ns.length
        · rw [List.getElem?_append_left hl] at hi
          rw [hacc i hl]
          exact h2 i hi
        · have hi' : i = ns.length := by
            have := (List.getElem?_eq_some_iff.1 hi).1
            rw [List.length_append, List.length_singleton] at this
            omega
          subst hi'
          rw [List.getElem?_append_right (Nat.le_refl _), Nat.sub_self] at hi
          cases hi
          rw [hend]
          exact fun ha => h3 ⟨rfl, ha⟩
    · rintro ⟨h1, h2⟩
      refine .inr ⟨⟨h1, fun i hi => ?_⟩, fun ⟨he, ha⟩ => ?_⟩
      · have hl := (List.getElem?_eq_some_iff.1 hi).1
        have := h2 i (by rw [List.getElem?_append_left hl]; exact hi)
        rwa [hacc i hl] at this
      · have hs := withdrawReq_inj he
        subst hs
        exact h2 ns.length (by simp) (hend.2 ha)

/-- what calls other than `unpublish` post -/
theorem pstep_posts (mesh : Mesh) (p : Proc) (op : POp) (h : ∀ j, op ≠ .unpublish j) :
    ∃ ps, (pstep mesh p op).log = p.log ++ ps ∧ (∀ s, withdrawReq s ∉ ps) ∧
      ∀ port app s, publishReq port app s ∈ ps → s ∈ p.reg.map Prod.fst ∧
        ∃ j l, op = .publish j ∧ p.listeners[j]? = some l ∧ l.port = port := by
  have none' : ∀ {q : Proc}, q.log = p.log → ∃ ps, q.log = p.log ++ ps ∧ (∀ s, withdrawReq s ∉ ps) ∧
      ∀ port app s, publishReq port app s ∈ ps → s ∈ p.reg.map Prod.fst ∧
        ∃ j l, op = .publish j ∧ p.listeners[j]? = some l ∧ l.port = port := fun {q} e =>
    ⟨[], (by rw [e, List.append_nil]), (by simp), (by simp)⟩
  have other : ∀ (ps : List Post), (∀ r ∈ ps, r.endpoint ≠ py "services/publish" ∧ r.endpoint ≠ py "services/unpublish") →
      (∀ s, withdrawReq s ∉ ps) ∧ ∀ port app s, publishReq port app s ∈ ps → s ∈ p.reg.map Prod.fst ∧
        ∃ j l, op = .publish j ∧ p.listeners[j]? = some l ∧ l.port = port := fun ps hps =>
    ⟨fun s hm => (hps _ hm).2 rfl, fun port app s hm => absurd rfl (hps _ hm).1⟩
  cases op with
  | newClient a =>
    refine ⟨[appReq a], by simp [pstep, newMeshCli_log], other _ fun r hr => ?_⟩
    rw [List.mem_singleton.1 hr]
    exact ⟨by simp only [appReq]; decide, by simp only [appReq]; decide⟩
  | newListener a port =>
    refine ⟨[appReq a], by simp [pstep, newMeshCli_log], other _ fun r hr => ?_⟩
    rw [List.mem_singleton.1 hr]
    exact ⟨by simp only [appReq]; decide, by simp only [appReq]; decide⟩
  | assign k a => exact none' rfl
  | subscribe i infs =>
    unfold pstep
    dsimp only
    split
    · exact none' rfl
    · next m hm =>
      by_cases hn : m = none
      · subst hn
        exact none' (by rw [(C44_subscribe mesh _ infs).1 rfl])
      · refine ⟨_, ((C44_subscribe mesh _ infs).2 hn).1, other _ fun r hr => ?_⟩
        obtain ⟨s, -, rfl⟩ := List.mem_map.1 hr
        exact ⟨by simp only [serviceReq]; decide, by simp only [serviceReq]; decide⟩
  | unsubscribe i infs =>
    unfold pstep
    dsimp only
    split
    · exact none' rfl
    · next m hm =>
      unfold unsubscribe
      split
      · exact none' rfl
      · refine ⟨infs.map (serviceReq (py "services/unsubscribe")), ?_, other _ fun r hr => ?_⟩
        · have : ∀ (infs : List PyStr) (w : CliWorld), (infs.foldl (unsubscribeOne mesh) w).log =
              w.log ++ infs.map (serviceReq (py "services/unsubscribe")) := by
            intro infs
            induction infs with
            | nil => intro w; simp
            | cons k infs ih =>
              intro w
              rw [List.foldl_cons, ih]
              have : (unsubscribeOne mesh w k).log = w.log ++ [serviceReq (py "services/unsubscribe") k] := by
                rcases meshPost_accepts mesh w.log (py "services/unsubscribe") (serviceNameJson k) with ⟨d, h1, -⟩ | ⟨e, h1, -⟩ <;>
                  (unfold unsubscribeOne; rw [h1]; rfl)
              rw [this]
              simp
          exact this infs _
        · obtain ⟨s, -, rfl⟩ := List.mem_map.1 hr
          exact ⟨by simp only [serviceReq]; decide, by simp only [serviceReq]; decide⟩
  | register j r =>
    unfold pstep
    dsimp only
    split <;> exact none' rfl
  | publish j =>
    unfold pstep
    dsimp only
    split
    · exact none' rfl
    · next l hl =>
      cases hm : l.mesh with
      | none => exact none' (by simp [publish])
      | some m =>
        obtain ⟨n, -, h2, -⟩ := (C48_publish mesh p.log (some m) (p.reg.map Prod.fst) l.port l.app).2 (by simp)
        refine ⟨_, h2, fun s hs => ?_, fun port app s hs => ?_⟩
        · obtain ⟨t, -, ht⟩ := List.mem_map.1 hs
          exact publish_ne_withdraw _ _ _ _ ht
        · obtain ⟨t, ht, he⟩ := List.mem_map.1 hs
          simp only [publishReq, Post.mk.injEq, List.cons.injEq, Prod.mk.injEq, true_and, and_true] at he
          have : t = s := by
            have := he.1
            injection this with this; injection this
          have hp : l.port = port := by
            have := he.2.2
            injection this with this; injection this with this
            have := congrArg pyInt this
            rwa [pyInt_intStr, pyInt_intStr, Option.some.injEq] at this
          exact ⟨this ▸ List.mem_of_mem_take ht, j, l, rfl, hl, hp⟩
  | unpublish j => exact absurd rfl (h j)

theorem registered_eq (mesh : Mesh) (ops : List POp) : (prun mesh ops).reg.map Prod.fst = (registered ops).2 :=
  congrArg Prod.snd (prun_reg mesh ops)

theorem registered_snoc (ops : List POp) (op : POp) :
    ∃ more, (registered (ops ++ [op])).2 = (registered ops).2 ++ more := by
  have e : registered (ops ++ [op]) = _ := List.foldl_append
  rw [e]
  change ∃ more, (List.foldl _ (registered ops) [op]).2 = _
  simp only [List.foldl_cons, List.foldl_nil]
  cases op with
  | register j r =>
    dsimp only
    split
    · split
      · exact ⟨[], (List.append_nil _).symm⟩
      · exact ⟨_, rfl⟩
    · exact ⟨[], (List.append_nil _).symm⟩
  | _ => exact ⟨[], (List.append_nil _).symm⟩

/-- C197, what holds: `unpublish` of a listener with a mesh client withdraws the registered interfaces in the order of their
first registration, whoever has announced them, up to the first one the mesh refuses: exactly these are not announced
afterwards. Missing: the ones from the first refusal on. -/
theorem C197_exact_partial (mesh : Mesh) (ops : List POp) (j : Nat) (l : ListenerObj) (m : MeshCli)
    (hl : (prun mesh ops).listeners[j]? = some l) (hm : l.mesh = some m) :
    let names := (registered ops).2
    let log := (prun mesh ops).log
    ∃ n, n ≤ names.length ∧ (∀ i, i < n → AcceptsNth mesh log (names.map withdrawReq) i) ∧
      (n = names.length ∨ ¬ AcceptsNth mesh log (names.map withdrawReq) n) ∧
      ∀ s, Announced mesh (prun mesh (ops ++ [.unpublish j])).log s ↔ Announced mesh log s ∧ s ∉ names.take n := by
  intro names log
  have hlog : (prun mesh (ops ++ [.unpublish j])).log = (unpublish mesh log (some m) names).1 := by
    rw [prun_snoc]
    simp only [pstep, hl, hm]
    rw [registered_eq]
  rw [hlog]
  obtain ⟨k, hk, h1, h2⟩ := (C48_unpublish mesh log (some m) names).2 (by simp)
  change (unpublish mesh log (some m) names).1 = log ++ (names.take k).map withdrawReq at h1
  rw [h1]
  have htake : ∀ i, i < k → (AcceptsNth mesh log ((names.take k).map withdrawReq) i ↔ AcceptsNth mesh log (names.map withdrawReq) i) := by
    intro i hi
    unfold AcceptsNth
    rw [List.map_take, List.getElem?_take_of_lt hi, List.take_take, Nat.min_eq_left (by omega)]
  rcases h2 with ⟨-, rfl, h3⟩ | ⟨-, h0, h3, h4⟩
  · refine ⟨names.length, Nat.le_refl _, h3, .inl rfl, fun s => ?_⟩
    rw [announced_withdraw]
    refine and_congr_right fun _ => ⟨fun h hs => ?_, fun h i hi => absurd (List.mem_of_getElem? hi) h⟩
    obtain ⟨i, hi⟩ := List.getElem?_of_mem hs
    have hlt : i < names.length := by
      have := (List.getElem?_eq_some_iff.1 hi).1
      rw [List.length_take] at this
      omega
    exact h i hi ((htake i hlt).2 (h3 i hlt))
  · refine ⟨k - 1, by omega, fun i hi => h3 i (by omega), .inr h4, fun s => ?_⟩
    rw [announced_withdraw]
    refine and_congr_right fun _ => ⟨fun h hs => ?_, fun h i hi hacc => ?_⟩
    · obtain ⟨i, hi⟩ := List.getElem?_of_mem hs
      have hlt := (List.getElem?_eq_some_iff.1 hi).1
      rw [List.length_take] at hlt
      rw [List.getElem?_take_of_lt (by omega)] at hi
      exact h i (by rw [List.getElem?_take_of_lt (by omega)]; exact hi) ((htake i (by omega)).2 (h3 i (by omega)))
    · have hlt := (List.getElem?_eq_some_iff.1 hi).1
      rw [List.length_take] at hlt
      have hik : i < k := by omega
      have hacc' := (htake i hik).1 hacc
      by_cases he : i = k - 1
      · rw [he] at hacc'; exact h4 hacc'
      · refine h (List.mem_of_getElem? (i := i) ?_)
        rw [List.getElem?_take_of_lt hik] at hi
        rw [List.getElem?_take_of_lt (by omega)]
        exact hi

/-- C197. Only registered interfaces are ever announced. -/
theorem C197_registered (mesh : Mesh) (ops : List POp) (s : PyStr) (h : Announced mesh (prun mesh ops).log s) :
    s ∈ (registered ops).2 := by
  induction ops using snoc_induct with
  | nil => exact absurd h (announced_nil mesh s)
  | snoc ops op ih =>
    obtain ⟨more, hmore⟩ := registered_snoc ops op
    rw [hmore]
    refine List.mem_append_left _ ?_
    by_cases hu : ∃ j, op = .unpublish j
    · obtain ⟨j, rfl⟩ := hu
      cases hl : (prun mesh ops).listeners[j]? with
      | none => rw [prun_snoc] at h; simp only [pstep, hl] at h; exact ih h
      | some l =>
        cases hm : l.mesh with
        | none => rw [prun_snoc] at h; simp only [pstep, hl, hm, unpublish] at h; exact ih h
        | some m =>
          obtain ⟨n, -, -, -, he⟩ := C197_exact_partial mesh ops j l m hl hm
          exact ih ((he s).1 h).1
    · rw [prun_snoc] at h
      obtain ⟨ps, h1, -, h3⟩ := pstep_posts mesh (prun mesh ops) op (fun j e => hu ⟨j, e⟩)
      rw [h1] at h
      rcases announced_new h with h | ⟨port, app, hp⟩
      · exact ih h
      · rw [← registered_eq mesh]; exact (h3 port app s hp).1

/-- C197. If the mesh accepts the requests of `unpublish`, no service is announced any more, whichever listener announced it. -/
theorem C197_withdrawn_partial (mesh : Mesh) (ops : List POp) (j : Nat) (l : ListenerObj) (m : MeshCli) (s : PyStr)
    (hl : (prun mesh ops).listeners[j]? = some l) (hm : l.mesh = some m)
    (ha : ∀ i, i < (registered ops).2.length → AcceptsNth mesh (prun mesh ops).log ((registered ops).2.map withdrawReq) i) :
    ¬ Announced mesh (prun mesh (ops ++ [.unpublish j])).log s := by
  obtain ⟨n, hn, -, h2, h3⟩ := C197_exact_partial mesh ops j l m hl hm
  intro h
  obtain ⟨h4, h5⟩ := (h3 s).1 h
  have he : n = (registered ops).2.length := by
    rcases h2 with h2 | h2
    · exact h2
    · by_cases hlt : n < (registered ops).2.length
      · exact absurd (ha n hlt) h2
      · omega
  rw [he, List.take_length] at h5
  exact h5 (C197_registered mesh ops s h4)

theorem registered_head (ops more : List POp) (first : PyStr) (h : (registered ops).2.head? = some first) :
    (registered (ops ++ more)).2.head? = some first := by
  induction more using snoc_induct with
  | nil => rw [List.append_nil]; exact h
  | snoc more op ih =>
    obtain ⟨ext, he⟩ := registered_snoc (ops ++ more) op
    rw [← List.append_assoc, he, List.head?_append, ih]
    rfl

/-- C197. As long as the mesh refuses to withdraw the interface that was registered first, no other one is withdrawn either,
however often any listener calls `unpublish`. -/
theorem C197_stuck (mesh : Mesh) (ops more : List POp) (first s : PyStr) (hf : (registered ops).2.head? = some first)
    (hr : ∀ log, ¬ Accepts mesh log (withdrawReq first)) (h : Announced mesh (prun mesh ops).log s) :
    Announced mesh (prun mesh (ops ++ more)).log s := by
  induction more using snoc_induct with
  | nil => rw [List.append_nil]; exact h
  | snoc more op ih =>
    rw [← List.append_assoc]
    by_cases hu : ∃ j, op = .unpublish j
    · obtain ⟨j, rfl⟩ := hu
      cases hl : (prun mesh (ops ++ more)).listeners[j]? with
      | none => rw [prun_snoc]; simp only [pstep, hl]; exact ih
      | some l =>
        cases hm : l.mesh with
        | none => rw [prun_snoc]; simp only [pstep, hl, hm, unpublish]; exact ih
        | some m =>
          obtain ⟨n, hn, h1, -, he⟩ := C197_exact_partial mesh (ops ++ more) j l m hl hm
          have hhead := registered_head ops more first hf
          have h0 : n = 0 := by
            cases n with
            | zero => rfl
            | succ n =>
              obtain ⟨r, hr1, hr2⟩ := h1 0 (Nat.succ_pos _)
              cases hreg : (registered (ops ++ more)).2 with
              | nil => rw [hreg] at hhead; cases hhead
              | cons a as =>
                rw [hreg] at hhead hr1
                cases hhead
                simp only [List.map_cons, List.getElem?_cons_zero, Option.some.injEq] at hr1
                rw [← hr1] at hr2
                exact absurd hr2 (hr _)
          exact (he s).2 ⟨ih, by rw [h0]; simp⟩
    · rw [prun_snoc]
      obtain ⟨ps, h1, h2, -⟩ := pstep_posts mesh (prun mesh (ops ++ more)) op (fun j e => hu ⟨j, e⟩)
      rw [h1]
      exact announced_keep (h2 s) ih

/-! ## concrete cases -/

/-- a mesh that does not withdraw the service `a` -/
def exKeepMesh : Mesh := fun _ r =>
  if r = withdrawReq (py "a") then .resp 500 (.object []) else .resp 200 (.object [(py "success", .bool true)])

/-- a listener announces two services -/
def exAnnounceOps : List POp :=
  [.newListener { appName := .none } 1, .register 0 { interface := py "a", cls := 0 }, .register 0 { interface := py "b", cls := 0 },
   .publish 0]

theorem exAnnounce_run : (prun exKeepMesh exAnnounceOps).log[2]? = some (publishReq 1 .none (py "b")) ∧
    (prun exKeepMesh exAnnounceOps).log.length = 3 ∧ (registered exAnnounceOps).2 = [py "a", py "b"] ∧
    (prun exKeepMesh exAnnounceOps).listeners = [⟨some { appinfo := { appName := .none }, started := true }, 1, .none⟩] := by decide

theorem exKeep_refuses (log : List Post) : ¬ Accepts exKeepMesh log (withdrawReq (py "a")) := by
  rintro ⟨d, h, -⟩
  simp only [exKeepMesh] at h
  cases h

/-- non-vacuity of `C197_stuck`, `C197_registered`: `b` is announced -/
theorem exAnnounce_b : Announced exKeepMesh (prun exKeepMesh exAnnounceOps).log (py "b") := by
  refine ⟨2, 1, .none, exAnnounce_run.1, ⟨_, rfl, rfl⟩, fun k hk hs => ?_⟩
  have := (List.getElem?_eq_some_iff.1 hs).1
  rw [exAnnounce_run.2.1] at this
  omega

/-- C197 is violated: a mesh that refuses to withdraw one service is not asked about the others, and they stay announced. -/
theorem C197_violated : ¬ C197_full := by
  intro h
  obtain ⟨-, -, h3, h4⟩ := exAnnounce_run
  exact h exKeepMesh exAnnounceOps 0 _ _ (py "b") (by rw [h4]; rfl) rfl
    (C197_stuck exKeepMesh exAnnounceOps [.unpublish 0] (py "a") (py "b") (by rw [h3]; rfl) exKeep_refuses exAnnounce_b)

/-- non-vacuity of `C197_withdrawn_partial`: with a mesh that accepts everything -/
example : (prun yesMesh exAnnounceOps).listeners[0]? = some ⟨some { appinfo := { appName := .none }, started := true }, 1, .none⟩ ∧
    (∀ i, i < (registered exAnnounceOps).2.length →
      AcceptsNth yesMesh (prun yesMesh exAnnounceOps).log ((registered exAnnounceOps).2.map withdrawReq) i) :=
  ⟨by decide, fun i hi => ⟨((registered exAnnounceOps).2.map withdrawReq)[i]'(by simpa using hi), List.getElem?_eq_getElem _,
    ⟨_, rfl, rfl⟩⟩⟩

end Bolt
