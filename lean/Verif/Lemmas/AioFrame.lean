import Verif.Lemmas.AioClient
/-!
# What an event of the asyncio client does not touch

An event of one call changes where that call is, and no other call; `sendFailed`, `send` and `broken` in one place.
-/
namespace Bolt
open Bolt.Spec

/-- the call in whose coroutine the event happens -/
def AEv.actor : AEv → Option Nat
  | .start i _ | .lock i | .dialed i _ | .drained i _ | .wake i | .cancel i => some i
  | _ => none

/-- call `j` stays where it is -/
def StaysAt (s s' : ASt) (j : Nat) : Prop :=
  ∀ c, s.calls[j]? = some c → ∃ c', s'.calls[j]? = some c' ∧ c'.pc = c.pc ∧ c'.req = c.req ∧ (c.set = true → c'.set = true)

theorem StaysAt.same {s s' : ASt} {j : Nat} (h : s'.calls = s.calls) : StaysAt s s' j := by
  intro c hc
  exact ⟨c, by rw [h]; exact hc, rfl, rfl, id⟩

theorem StaysAt.trans {s s' s'' : ASt} {j : Nat} (h : StaysAt s s' j) (h' : StaysAt s' s'' j) : StaysAt s s'' j := by
  intro c hc
  obtain ⟨d, d1, d2, d3, d4⟩ := h c hc
  obtain ⟨e, e1, e2, e3, e4⟩ := h' d d1
  exact ⟨e, e1, e2.trans d2, e3.trans d3, fun h => e4 (d4 h)⟩

theorem StaysAt.via {s s' s'' : ASt} {j : Nat} (h : StaysAt s' s'' j) (h' : s'.calls = s.calls) : StaysAt s s'' j :=
  (StaysAt.same h').trans h

theorem setPc_keeps (s : ASt) {i j : Nat} (h : i ≠ j) (pc : CallPc) : StaysAt s (s.setPc i pc) j := by
  intro c hc
  refine ⟨c, ?_, rfl, rfl, id⟩
  show (s.calls.modify _ _)[j]? = some c
  rw [modify_other h]
  exact hc

theorem sendFailed_keeps (s : ASt) {i j : Nat} (h : i ≠ j) (c : ACall) : StaysAt s (s.sendFailed i c) j := by
  unfold ASt.sendFailed
  split
  · exact (setPc_keeps _ h _).via rfl
  · exact setPc_keeps s h _

theorem send_keeps (s : ASt) {i j : Nat} (h : i ≠ j) (c : ACall) (r : Nat) (addr : Addr) : StaysAt s (s.send i c r addr) j := by
  unfold ASt.send
  split
  · exact sendFailed_keeps s h c
  · split
    · exact setPc_keeps s h _
    · split
      · next l _ =>
        split
        · exact (setPc_keeps _ h _).via rfl
        · exact setPc_keeps s h _
      · exact (setPc_keeps _ h _).via rfl

theorem broken_keeps (s : ASt) {i j : Nat} (h : i ≠ j) (c : ACall) (r : Nat) (addr : Addr) (n : Nat) :
    StaysAt s (s.broken i c r addr n) j := by
  unfold ASt.broken
  dsimp only
  split
  · split
    · exact (send_keeps _ h c (r - 1) addr).via rfl
    · exact (sendFailed_keeps _ h c).via rfl
  · exact (sendFailed_keeps _ h c).via rfl

theorem modify_set_keeps (s : ASt) (ev j : Nat) (reqs : PyDict PyObj Nat) (resps : PyDict PyObj Pkg) :
    StaysAt s { s with reqs := reqs, resps := resps, calls := s.calls.modify ev fun c => { c with set := true } } j := by
  intro c hc
  by_cases e : ev = j
  · subst e
    exact ⟨_, modify_self hc, rfl, rfl, fun _ => rfl⟩
  · exact ⟨c, by dsimp only; rw [modify_other e]; exact hc, rfl, rfl, id⟩

theorem onPkg_keeps (s : ASt) (p : Pkg) (j : Nat) : StaysAt s (s.onPkg p) j := by
  have h : ∀ (s : ASt) (id : PyObj), StaysAt s (s.notify id) j := by
    intro s id
    unfold ASt.notify
    split
    · exact modify_set_keeps s _ j _ s.resps
    · exact .same rfl
  unfold ASt.onPkg
  split
  · exact h _ _
  · split
    · exact h _ _
    · split
      · exact h _ _
      · split
        · exact h _ _
        · split
          · exact h _ _
          · exact StaysAt.trans (s' := { s with resps := PyDict.set s.resps p.requestId p }) (.same rfl) (h _ _)

theorem recv_keeps (s : ASt) (n j : Nat) : StaysAt s (s.recv n) j := by
  unfold ASt.recv
  split
  · exact .same rfl
  · split
    · exact .same rfl
    · split <;> exact .same rfl
    · split
      · exact .same rfl
      · dsimp only
        split
        · split <;> exact .same rfl
        · split <;> exact .same rfl
    · split
      · exact .same rfl
      · split
        · exact .same rfl
        · split
          · dsimp only
            split
            · exact .same rfl
            · exact StaysAt.trans (s' := s.setConn n _) (.same rfl) (onPkg_keeps _ _ _)
          · split <;> exact .same rfl

/-- an event leaves every call but its own where it is -/
theorem astep_keeps (v : PyVer) (s : ASt) (e : AEv) (j : Nat) (h : e.actor ≠ some j) : StaysAt s (astep v s e) j := by
  have ne : ∀ i, e.actor = some i → i ≠ j := by
    rintro i hi rfl
    exact h hi
  cases e with
  | call req =>
    intro c hc
    refine ⟨c, ?_, rfl, rfl, id⟩
    show (s.calls ++ _)[j]? = some c
    rw [List.getElem?_append_left (List.getElem?_eq_some_iff.1 hc).1]
    exact hc
  | start i addr =>
    have ne := ne i rfl
    simp only [astep, ASt.start]
    split
    · split
      · exact (send_keeps _ ne _ _ _).via rfl
      · exact .same rfl
    · exact .same rfl
  | lock i =>
    have ne := ne i rfl
    simp only [astep, ASt.lockTurn]
    split
    · split
      · next l _ =>
        split
        · split
          · exact setPc_keeps s ne _
          · exact (setPc_keeps _ ne _).via rfl
        · exact .same rfl
      · exact .same rfl
    · exact .same rfl
  | dialed i ok =>
    have ne := ne i rfl
    simp only [astep, ASt.dialed]
    split
    · split
      · next l _ =>
        split
        · split
          · exact (setPc_keeps _ ne _).via rfl
          · exact (setPc_keeps _ ne _).via rfl
        · exact (sendFailed_keeps _ ne _).via rfl
      · exact .same rfl
    · exact .same rfl
  | drained i ok =>
    have ne := ne i rfl
    simp only [astep, ASt.drained]
    split
    · split
      · split
        · split
          · exact broken_keeps s ne _ _ _ _
          · exact (setPc_keeps _ ne _).via rfl
        · exact broken_keeps s ne _ _ _ _
      · split
        · split
          · exact setPc_keeps s ne _
          · split
            · exact (setPc_keeps _ ne _).via rfl
            · exact setPc_keeps s ne _
        · exact broken_keeps s ne _ _ _ _
      · exact .same rfl
    · exact .same rfl
  | wake i =>
    have ne := ne i rfl
    simp only [astep, ASt.wake]
    split
    · split
      · split
        · split
          · exact (setPc_keeps _ ne _).via rfl
          · exact setPc_keeps s ne _
        · exact .same rfl
      · exact .same rfl
    · exact .same rfl
  | cancel i =>
    have ne := ne i rfl
    simp only [astep, ASt.cancel]
    split
    · split
      · exact setPc_keeps s ne _
      · split
        · exact sendFailed_keeps s ne _
        · exact setPc_keeps s ne _
      · next l _ =>
        split
        · exact (sendFailed_keeps _ ne _).via rfl
        · exact (setPc_keeps _ ne _).via rfl
      · split
        · exact broken_keeps s ne _ _ _ _
        · exact setPc_keeps s ne _
      · split
        · exact broken_keeps s ne _ _ _ _
        · exact setPc_keeps s ne _
      · exact setPc_keeps s ne _
      · exact .same rfl
    · exact .same rfl
  | recv n => exact recv_keeps s n j
  | data n bs => exact .same rfl
  | eof n => exact .same rfl
  | reset n => exact .same rfl

/-- a call in its `event.wait` leaves it only by waking up or being cancelled -/
theorem astep_waiting (v : PyVer) (s : ASt) (e : AEv) {j ev : Nat} {c : ACall} (hc : s.calls[j]? = some c)
    (hp : c.pc = .waiting ev) (h1 : e ≠ .wake j) (h2 : e ≠ .cancel j) :
    ∃ c', (astep v s e).calls[j]? = some c' ∧ c'.pc = .waiting ev ∧ c'.req = c.req ∧ (c.set = true → c'.set = true) := by
  by_cases ha : e.actor = some j
  · have hs : astep v s e = s := by
      cases e with
      | call req => cases ha
      | start i addr => cases ha; simp only [astep, ASt.start, hc, hp]
      | lock i => cases ha; simp only [astep, ASt.lockTurn, hc, hp]
      | dialed i ok => cases ha; simp only [astep, ASt.dialed, hc, hp]
      | drained i ok => cases ha; simp only [astep, ASt.drained, hc, hp]
      | wake i => cases ha; exact absurd rfl h1
      | cancel i => cases ha; exact absurd rfl h2
      | recv n => cases ha
      | data n bs => cases ha
      | eof n => cases ha
      | reset n => cases ha
    rw [hs]
    exact ⟨c, hc, hp, rfl, id⟩
  · obtain ⟨c', a1, a2, a3, a4⟩ := astep_keeps v s e j ha c hc
    exact ⟨c', a1, a2.trans hp, a3, a4⟩

end Bolt
