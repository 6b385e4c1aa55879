import Verif.Props.EndToEndAio
import Verif.Props.RequestId
/-!
# C99: the ids of the calls of the asyncio client are distinct
-/
namespace Bolt
open Spec

/-- The requests of the schedule are made by the client, by `invoke_oneway`, `invoke_sync`, `invoke_async` or
`invoke_heartbeat`, and the one at position `i` takes the id that `next(RequestId)` returned on draw number `pos[i]`.
Other parts of the process may draw ids in between, and the draws need not be in the order of the calls. -/
structure Spec.Drawn (start : Nat) (pos : List Nat) (evs : List AEv) : Prop where
  length : pos.length = (requests evs).length
  made : ∀ (i n : Nat) (p : Pkg), pos[i]? = some n → (requests evs)[i]? = some p →
    (∃ a kd, a.id = ((requestIdAt start n : Nat) : Int) ∧ aioRequest a kd = .ok p) ∨ heartbeatRequest (requestIdAt start n) = .ok p

theorem Spec.Drawn.ids {start : Nat} {pos : List Nat} {evs : List AEv} (h : Drawn start pos evs) :
    (requests evs).map Pkg.requestId = pos.map fun n => PyObj.int (requestIdAt start n : Nat) := by
  apply List.ext_getElem?
  intro i
  rw [List.getElem?_map, List.getElem?_map]
  cases hp : (requests evs)[i]? with
  | none =>
    rw [List.getElem?_eq_none_iff] at hp
    rw [List.getElem?_eq_none (by rw [h.length]; exact hp)]
    rfl
  | some p =>
    have hi := (List.getElem?_eq_some_iff.1 hp).1
    rw [← h.length] at hi
    have hn := List.getElem?_eq_getElem hi
    rw [hn]
    simp only [Option.map_some, Option.some.injEq]
    rcases h.made i _ p hn hp with ⟨a, kd, e, ha⟩ | ha
    · obtain ⟨b, hd, t, -, -, hn⟩ := aioRequest_parts ha
      rw [← e]
      exact ((mkPkg_ok_iff _ _ _ _ _).1 hn).2.2.2.2.2.2.2.2.1
    · exact ((mkPkg_ok_iff _ _ _ _ _).1 ha).2.2.2.2.2.2.2.2.1

/-- C99 (ids of calls are distinct): as long as all the ids of a client's calls, heartbeats included, were drawn within a
window of 2^31 draws of the process-wide generator, no two calls have the same id, from whatever id the generator
started and however the calls are interleaved. So every response with which a call ends is the answer to that call (the
hypothesis of C55 holds). The window is sharp: with two calls drawn 2^31 apart the ids are not distinct. -/
theorem C99_ids_distinct (start : Nat) (hs : start ≤ 2 ^ 31 - 1) (pos : List Nat) (evs : List AEv)
    (h : Drawn start pos evs) (hn : pos.Nodup) :
    ((∀ a ∈ pos, ∀ b ∈ pos, a < b → b - a < 2 ^ 31) → DistinctIds evs ∧
      ∀ (v : PyVer) (i j : Nat) (c d : ACall) (p : Pkg), (arun v evs).calls[i]? = some c → c.pc = .done (.resp p) →
        (arun v evs).calls[j]? = some d → d.req.requestId = p.requestId → i = j) ∧
    ((∃ a ∈ pos, a + 2 ^ 31 ∈ pos) → ¬ DistinctIds evs) := by
  have key : ∀ a b, requestIdAt start a = requestIdAt start b → a < b → ¬ b - a < 2 ^ 31 :=
    fun a b e hab hw => (C15_id_window start a b hs).1 hab hw e
  refine ⟨?_, ?_⟩
  · intro hw
    have hd : DistinctIds evs := by
      unfold DistinctIds
      rw [h.ids, List.nodup_iff_pairwise_ne, List.pairwise_map]
      refine (List.nodup_iff_pairwise_ne.1 hn).imp_of_mem ?_
      intro a b ha hb hab e
      have e := PyObj.int.inj e
      have e : requestIdAt start a = requestIdAt start b := by omega
      rcases Nat.lt_or_gt_of_ne hab with hlt | hlt
      · exact key a b e hlt (hw a ha b hb hlt)
      · exact key b a e.symm hlt (hw b hb a ha hlt)
    refine ⟨hd, ?_⟩
    intro v i j c d p hc hr hj hid
    have hk := (arun_inv v evs hd).calls i c hc
    obtain ⟨-, e, -⟩ := hk.delivered p hr
    have h1 : (requests evs)[i]? = some c.req := by rw [← arun_requests v evs, List.getElem?_map, hc]; rfl
    have h2 : (requests evs)[j]? = some d.req := by rw [← arun_requests v evs, List.getElem?_map, hj]; rfl
    have g1 : ((requests evs).map Pkg.requestId)[i]? = some p.requestId := by rw [List.getElem?_map, h1, e]; rfl
    have g2 : ((requests evs).map Pkg.requestId)[j]? = some p.requestId := by rw [List.getElem?_map, h2, ← hid]; rfl
    exact (List.getElem?_inj (List.getElem?_eq_some_iff.1 g1).1 hd).1 (g1.trans g2.symm)
  · rintro ⟨a, ha, hb⟩ hd
    unfold DistinctIds at hd
    rw [h.ids] at hd
    obtain ⟨i, hi⟩ := List.mem_iff_getElem?.1 ha
    obtain ⟨j, hj⟩ := List.mem_iff_getElem?.1 hb
    have g1 : (pos.map fun n => PyObj.int (requestIdAt start n : Nat))[i]? = some (.int (requestIdAt start a : Nat)) := by
      rw [List.getElem?_map, hi]; rfl
    have g2 : (pos.map fun n => PyObj.int (requestIdAt start n : Nat))[j]? = some (.int (requestIdAt start a : Nat)) := by
      rw [List.getElem?_map, hj, Option.map_some, (C15_id_window start a a hs).2]
    have e := (List.getElem?_inj (List.getElem?_eq_some_iff.1 g1).1 hd).1 (g1.trans g2.symm)
    rw [e, hj] at hi
    have := Option.some.inj hi
    omega

/-- two calls with ids of the two calls of the example, 7 and 9, drawn from a generator that started at 7 -/
example : Drawn 7 [0, 2] [.call (exAioReq exCallA), .call (exAioReq exCallB)] := by
  refine ⟨rfl, ?_⟩
  intro i n p h1 h2
  left
  match i with
  | 0 =>
    cases h1; cases h2
    exact ⟨exCallA, .sync, by rw [requestIdAt_eq _ _ (by decide)]; decide, by decide +kernel⟩
  | 1 =>
    cases h1; cases h2
    exact ⟨exCallB, .sync, by rw [requestIdAt_eq _ _ (by decide)]; decide, by decide +kernel⟩
  | i + 2 => cases h1

end Bolt
