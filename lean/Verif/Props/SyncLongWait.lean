import Verif.Model.SyncLongWait
import Verif.Props.SyncWait
/-!
# C194: long timeouts of synchronous calls
-/
namespace Bolt
open Spec

/-- C194 as listed: whatever timeout the caller gives, of those that a request can carry, a call to which nothing comes ends
with TimeoutError. -/
def C194_full : Prop :=
  ∀ (wall : Int → Int) (t0 timeout reqId : Int) (before : Nat), Steady wall → 0 ≤ timeout → timeout < 2147483648 →
    GaveUp (longWait wall t0 timeout reqId [] [⟨before, none⟩])

namespace Spec

/-- a clock that is never set back -/
def NeverBack (wall : Int → Int) : Prop := ∀ s t, s ≤ t → wall s ≤ wall t

end Spec

theorem waitStep_now {wall : Int → Int} {dl reqId : Int} (s : WaitSt) (r : WaitRound) :
    s.now ≤ (waitStep wall dl reqId s r).now := by
  unfold waitStep patience
  dsimp only
  split
  · exact Int.le_refl _
  · split
    · dsimp only; omega
    · split <;> dsimp only <;> omega

/-- if the timeout of a round is not too long, and the clock is not set back, the others are not either -/
theorem longWait_same (wall : Int → Int) (hw : NeverBack wall) (dl reqId : Int) (rs : List WaitRound) (s : WaitSt)
    (h : dl - wall s.now ≤ selectMax) :
    rs.foldl (longWaitStep wall dl reqId) s = rs.foldl (waitStep wall dl reqId) s := by
  induction rs generalizing s with
  | nil => rfl
  | cons r rs ih =>
    have e : longWaitStep wall dl reqId s r = waitStep wall dl reqId s r := by
      unfold longWaitStep
      by_cases ho : s.recv.out.isSome = true
      · rw [if_pos ho, waitStep_ended ho]
      · rw [if_neg ho, if_neg]
        unfold patience
        have := hw s.now (s.now + r.before) (by omega)
        unfold selectMax at h ⊢
        omega
    rw [List.foldl_cons, List.foldl_cons, e]
    refine ih _ ?_
    have := hw _ _ (waitStep_now (wall := wall) (dl := dl) (reqId := reqId) s r)
    omega

/-- C194, what holds: with timeouts of at most 2147482647 ms (a second less than the largest that a request can carry), and a
clock that is not set back, the call is that of `Model/SyncWait.lean`, whatever comes. So C183 says when it ends. -/
theorem C194_short_partial (wall : Int → Int) (hw : NeverBack wall) (t0 timeout reqId : Int) (ht : timeout ≤ 2147482647)
    (stream : Bytes) (rs : List WaitRound) :
    longWait wall t0 timeout reqId stream rs = syncWait wall t0 timeout reqId stream rs := by
  refine longWait_same wall hw _ reqId rs _ ?_
  unfold syncDeadline selectMax
  dsimp only
  omega

/-- What happens, always: with a longer one the call raises OverflowError as soon as it would wait, whatever has come, even
if it is the whole response, and however the rounds would have been. The request is sent before. -/
theorem C194_always (wall : Int → Int) (t0 timeout reqId : Int) (stream : Bytes) (r : WaitRound) (rs : List WaitRound)
    (h : 2147482647 < timeout - (wall (t0 + r.before) - wall t0)) :
    (longWait wall t0 timeout reqId stream (r :: rs)).recv.out = some (.error .other) ∧
    (longWait wall t0 timeout reqId stream (r :: rs)).recv.connClosed = false ∧
    (longWait wall t0 timeout reqId stream (r :: rs)).recv.rest = stream ∧
    (longWait wall t0 timeout reqId stream (r :: rs)).now = t0 + r.before := by
  have e : longWaitStep wall (syncDeadline wall t0 timeout) reqId { now := t0, recv := { rest := stream } } r =
      { now := t0 + r.before, recv := recvStep reqId { rest := stream } (.fail .other) } := by
    unfold longWaitStep
    rw [if_neg (by simp), if_pos]
    unfold patience syncDeadline selectMax
    dsimp only
    omega
  have stop : ∀ (rs : List WaitRound) (s : WaitSt), s.recv.out.isSome = true →
      rs.foldl (longWaitStep wall (syncDeadline wall t0 timeout) reqId) s = s := by
    intro rs
    induction rs with
    | nil => intro s _; rfl
    | cons r rs ih =>
      intro s hs
      have : longWaitStep wall (syncDeadline wall t0 timeout) reqId s r = s := by
        unfold longWaitStep
        rw [if_pos hs]
      rw [List.foldl_cons, this]
      exact ih s hs
  unfold longWait
  rw [List.foldl_cons, e, stop _ _ rfl]
  exact ⟨rfl, rfl, rfl, rfl⟩

/-- Exactly: a call to which nothing comes ends with TimeoutError if and only if what is
left of its time when it begins to wait is at most that. -/
theorem C194_exact (wall : Int → Int) (t0 timeout reqId : Int) (before : Nat) :
    GaveUp (longWait wall t0 timeout reqId [] [⟨before, none⟩]) ↔
      timeout - (wall (t0 + before) - wall t0) ≤ 2147482647 := by
  constructor
  · intro h
    rcases Int.lt_or_le 2147482647 (timeout - (wall (t0 + before) - wall t0)) with h' | h'
    · have := (C194_always wall t0 timeout reqId [] ⟨before, none⟩ [] h').1
      rw [h.1] at this
      cases this
    · exact h'
  · intro h
    have e : longWait wall t0 timeout reqId [] [⟨before, none⟩] =
        waitStep wall (syncDeadline wall t0 timeout) reqId { now := t0, recv := { rest := [] } } ⟨before, none⟩ := by
      unfold longWait
      simp only [List.foldl_cons, List.foldl_nil]
      unfold longWaitStep
      rw [if_neg (by simp), if_neg]
      unfold patience syncDeadline selectMax
      dsimp only
      omega
    rw [e]
    exact recvStep_timeout rfl

/-- C194 fails: `timeout_ms=2147483647`. -/
theorem C194_violated : ¬ C194_full := by
  intro h
  have h1 := h id 0 2147483647 7 0 (fun s t => rfl) (by omega) (by omega)
  have h2 := (C194_exact id 0 2147483647 7 0).1 h1
  simp only [id] at h2
  omega

/-- Setting the clock back while a call waits has the same effect on shorter timeouts: here by `d` before the second round,
after a first byte. -/
theorem C194_clock (timeout reqId d : Int) (b : UInt8) (ht : 0 ≤ timeout) (ht' : timeout ≤ 2147482647)
    (hd : 2147482648 - timeout < d) :
    (longWait (clockSet 1 (-d)) 0 timeout reqId [b] [⟨0, some (1, .ok 0)⟩, ⟨0, none⟩]).recv.out = some (.error .other) := by
  unfold longWait
  simp only [List.foldl_cons, List.foldl_nil]
  have e1 : longWaitStep (clockSet 1 (-d)) (syncDeadline (clockSet 1 (-d)) 0 timeout) reqId
      { now := 0, recv := { rest := [b] } } ⟨0, some (1, .ok 0)⟩ =
      { now := 1, recv := recvStep reqId { rest := [b] } (.recv 0) } := by
    unfold longWaitStep
    rw [if_neg (by simp), if_neg]
    · unfold waitStep
      rw [if_neg (by simp)]
      dsimp only
      rw [if_pos]
      · rfl
      · unfold patience syncDeadline clockSet
        simp
        omega
    · unfold patience syncDeadline clockSet selectMax
      simp
      omega
  rw [e1]
  have e2 : recvStep reqId { rest := [b] } (.recv 0) = { buf := [b], rest := [] } := rfl
  rw [e2]
  unfold longWaitStep
  rw [if_neg (by simp), if_pos]
  · rfl
  · unfold patience syncDeadline clockSet selectMax
    simp
    omega

/-! ## concrete cases -/

/-- a timeout of 24 days, the longest there is, is one of those that work -/
example : GaveUp (longWait id 0 2147482647 7 [] [⟨3, none⟩]) :=
  (C194_exact id 0 2147482647 7 3).2 (by simp only [id]; omega)

/-- with `timeout_ms=2147483647` a response that has come is not looked at -/
example : (longWait id 0 2147483647 7 [1, 2, 3] [⟨5, some (0, .ok 2)⟩]).recv.out = some (.error .other) :=
  (C194_always id 0 2147483647 7 [1, 2, 3] ⟨5, some (0, .ok 2)⟩ [] (by simp only [id]; omega)).1

end Bolt
