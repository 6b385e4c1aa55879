import Verif.Model.Package
import Verif.Props.Wire
/-!
# C14, C15: request ids
-/
namespace Bolt

theorem maxRequestId_succ : maxRequestId + 1 = 2 ^ 31 := by decide

theorem requestIdChain_length (start : Nat) (h : start ≤ maxRequestId) :
    (requestIdChain start).length = maxRequestId + 1 := by
  unfold requestIdChain
  rw [List.length_append, List.length_range', List.length_range]
  omega

theorem requestIdChain_get (start i : Nat) (h : start ≤ maxRequestId) (hi : i < maxRequestId + 1) :
    (requestIdChain start).getD i 0 = (start + i) % (maxRequestId + 1) := by
  unfold requestIdChain
  generalize maxRequestId = m at *
  rw [List.getD_eq_getElem?_getD]
  by_cases hlt : i < m + 1 - start
  · rw [List.getElem?_append_left (by rw [List.length_range']; exact hlt), List.getElem?_range' hlt]
    simp only [Option.getD_some]
    rw [Nat.mod_eq_of_lt (by omega)]; omega
  · rw [List.getElem?_append_right (by rw [List.length_range']; omega), List.length_range',
      List.getElem?_range (by omega)]
    simp only [Option.getD_some]
    rw [Nat.mod_eq_sub_mod (by omega), Nat.mod_eq_of_lt (by omega)]; omega

/-- closed form of the id source -/
theorem requestIdAt_eq (start n : Nat) (h : start ≤ maxRequestId) :
    requestIdAt start n = (start + n) % 2 ^ 31 := by
  unfold requestIdAt
  dsimp only
  rw [requestIdChain_length start h,
    requestIdChain_get start _ h (Nat.mod_lt _ (by decide)), ← maxRequestId_succ, Nat.add_mod_mod]

/-- C14 (ids fit the wire): every id drawn lies in [0, 2^31-1], and a request built with it (representable otherwise)
is encodable: the id never is the reason for an EncodeError. -/
theorem C14_id_range (start n : Nat) (h : start ≤ 2 ^ 31 - 1) :
    requestIdAt start n ≤ 2 ^ 31 - 1 ∧
    (∃ p bs, heartbeatRequest (requestIdAt start n) = .ok p ∧ p.toStream = .ok bs) := by
  have hr : requestIdAt start n < 2 ^ 31 := by
    rw [requestIdAt_eq start n (by have := maxRequestId_succ; omega)]
    exact Nat.mod_lt _ (by decide)
  refine ⟨by omega, ?_⟩
  obtain ⟨⟨p, bs, h1, h2, -⟩, -⟩ := C16_heartbeat (requestIdAt start n) (by omega)
  exact ⟨p, bs, h1, h2⟩

/-- C15 (no repetition): draws fewer than 2^31 positions apart give different ids, draws exactly 2^31 apart the
same id. -/
theorem C15_id_window (start i j : Nat) (h : start ≤ 2 ^ 31 - 1) :
    (i < j → j - i < 2 ^ 31 → requestIdAt start i ≠ requestIdAt start j) ∧
    requestIdAt start (i + 2 ^ 31) = requestIdAt start i := by
  have hs : start ≤ maxRequestId := by have := maxRequestId_succ; omega
  rw [requestIdAt_eq start i hs, requestIdAt_eq start j hs, requestIdAt_eq start _ hs]
  omega

/-- wrap-around from the largest id to 0 -/
example : requestIdAt (2 ^ 31 - 1) 0 = 2 ^ 31 - 1 ∧ requestIdAt (2 ^ 31 - 1) 1 = 0 := by
  rw [requestIdAt_eq _ _ (by decide), requestIdAt_eq _ _ (by decide)]; decide

end Bolt
