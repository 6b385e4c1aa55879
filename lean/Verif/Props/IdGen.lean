import Verif.Model.IdGen
import Verif.Props.RequestId
/-!
# C180: what the generator of request ids keeps
-/
namespace Bolt
open Spec

/-- C180 as listed: the generator does not grow -/
def C180_full : Prop :=
  ∀ start n, start ≤ maxRequestId → (IdGen.after start n).saved.length = (IdGen.after start 0).saved.length

/-- the first `n` ids -/
def Spec.firstIds (P start n : Nat) : List Nat := (List.range n).map fun i => (start + i) % P

theorem firstIds_succ (P start n : Nat) : firstIds P start (n + 1) = firstIds P start n ++ [(start + n) % P] := by
  unfold firstIds
  rw [List.range_succ, List.map_append]
  rfl

theorem firstIds_length (P start n : Nat) : (firstIds P start n).length = n := by unfold firstIds; simp

theorem firstIds_get (P start n i : Nat) (h : i < n) : (firstIds P start n)[i]? = some ((start + i) % P) := by
  unfold firstIds
  rw [List.getElem?_map, List.getElem?_range h]
  rfl

/-- the generator after `n` draws -/
structure GenOk (P start n : Nat) (g : IdGen) : Prop where
  saved : g.saved = firstIds P start (min n (P))
  early : n < P → g.live = true ∧ g.index = 0
  late : P ≤ n → g.index = n % P ∧ chainDraw g.a g.b = none
  first : start + n < P → g.a = ⟨start + n, P⟩ ∧ g.b = ⟨0, start⟩
  second : P ≤ start + n → g.a.next = g.a.stop ∧ g.b.stop = start ∧ (n ≤ P → g.b.next = start + n - P)

theorem GenOk.draw {P start n : Nat} {g : IdGen} (hs : start < P) (h : GenOk P start n g) :
    g.draw.1 = some ((start + n) % P) ∧ GenOk P start (n + 1) g.draw.2 := by
  have hpow : 0 < P := by omega
  by_cases hn : n < P
  · obtain ⟨e1, e2⟩ := h.early hn
    have hsv : g.saved = firstIds P start n := by rw [h.saved, Nat.min_eq_left (by omega)]
    have app : g.saved ++ [(start + n) % P] = firstIds P start (min (n + 1) P) := by
      rw [hsv, Nat.min_eq_left (by omega), firstIds_succ]
    unfold IdGen.draw
    rw [if_pos e1]
    by_cases h1 : start + n < P
    · obtain ⟨e3, e4⟩ := h.first h1
      have hc : chainDraw g.a g.b = some (start + n, ⟨start + n + 1, P⟩, ⟨0, start⟩) := by
        unfold chainDraw RangeIt.draw
        rw [e3, e4]
        dsimp only
        rw [if_pos h1]
      rw [hc]
      have hm : (start + n) % P = start + n := Nat.mod_eq_of_lt h1
      refine ⟨by dsimp only; rw [hm], ?_, ?_, ?_, ?_, ?_⟩
      · dsimp only; rw [← app, hm]
      · intro _; exact ⟨e1, e2⟩
      · intro h2
        dsimp only
        have : n + 1 = P := by omega
        have h0 : start = 0 := by omega
        refine ⟨by rw [e2, this, Nat.mod_self], ?_⟩
        unfold chainDraw RangeIt.draw
        dsimp only
        rw [if_neg (by omega), if_neg (by omega)]
      · intro _; exact ⟨rfl, rfl⟩
      · intro h2
        refine ⟨?_, rfl, ?_⟩
        · dsimp only; omega
        · intro _; dsimp only; omega
    · obtain ⟨e3, e4, e5⟩ := h.second (by omega)
      have e5 := e5 (by omega)
      have hc : chainDraw g.a g.b = some (start + n - P, g.a, ⟨start + n - P + 1, start⟩) := by
        unfold chainDraw RangeIt.draw
        rw [if_neg (by omega)]
        dsimp only
        rw [e4, e5, if_pos (by omega)]
      rw [hc]
      have hm : (start + n) % P = start + n - P := by
        rw [Nat.mod_eq_sub_mod (by omega), Nat.mod_eq_of_lt (by omega)]
      refine ⟨by dsimp only; rw [hm], ?_, ?_, ?_, ?_, ?_⟩
      · dsimp only; rw [← app, hm]
      · intro _; exact ⟨e1, e2⟩
      · intro h2
        dsimp only
        have : n + 1 = P := by omega
        refine ⟨by rw [e2, this, Nat.mod_self], ?_⟩
        unfold chainDraw RangeIt.draw
        rw [if_neg (by omega)]
        dsimp only
        rw [if_neg (by omega)]
      · intro h2; omega
      · intro _; exact ⟨e3, rfl, fun _ => by dsimp only; omega⟩
  · have hn : P ≤ n := by omega
    obtain ⟨e1, e2⟩ := h.late hn
    have hsv : g.saved = firstIds P start P := by rw [h.saved, Nat.min_eq_right hn]
    have hlt : n % P < P := Nat.mod_lt _ hpow
    have hget : ∀ b, ({ g with live := b } : IdGen).again =
        (some ((start + n) % P), { g with live := b, index := if n % P + 1 < P then n % P + 1 else 0 }) := by
      intro b
      unfold IdGen.again
      dsimp only
      rw [e1, hsv, firstIds_get _ _ _ _ hlt, Nat.add_mod_mod, firstIds_length]
    have hidx : (if n % P + 1 < P then n % P + 1 else 0) = (n + 1) % P := by
      split
      · next h1 => rw [← Nat.mod_add_mod, Nat.mod_eq_of_lt h1]
      · next h1 =>
        have : n % P + 1 = P := by omega
        rw [← Nat.mod_add_mod, this, Nat.mod_self]
    have fin : ∀ b, GenOk P start (n + 1) { g with live := b, index := (n + 1) % P } := by
      intro b
      refine ⟨?_, fun h1 => ?_, fun _ => ⟨rfl, e2⟩, fun h1 => ?_, fun _ => ?_⟩
      · dsimp only; rw [hsv, Nat.min_eq_right (by omega)]
      · omega
      · omega
      · obtain ⟨k1, k2, -⟩ := h.second (by omega)
        exact ⟨k1, k2, fun h2 => by omega⟩
    unfold IdGen.draw
    split
    · rw [e2]
      dsimp only
      rw [hget false, hidx]
      exact ⟨rfl, fin false⟩
    · have := hget g.live
      rw [hidx] at this
      rw [this]
      exact ⟨rfl, fin g.live⟩

theorem maxId_eq : maxRequestId + 1 = 2 ^ 31 := by decide

theorem GenOk.after (start n : Nat) (hs : start ≤ maxRequestId) : GenOk (2 ^ 31) start n (IdGen.after start n) := by
  have hs' : start < 2 ^ 31 := by have := maxId_eq; omega
  induction n with
  | zero =>
    refine ⟨rfl, fun _ => ⟨rfl, rfl⟩, fun h => ?_, fun _ => ⟨?_, rfl⟩, fun h => ?_⟩
    · have : (0 : Nat) < 2 ^ 31 := by decide
      omega
    · show (⟨start, maxRequestId + 1⟩ : RangeIt) = _
      rw [maxId_eq]
      rfl
    · omega
  | succ n ih => exact (ih.draw hs').2

/-- C180: the object hands out the ids of `requestIdAt`; it never stops -/
theorem C180_same (start n : Nat) (hs : start ≤ maxRequestId) :
    (IdGen.after start n).draw.1 = some (requestIdAt start n) := by
  rw [requestIdAt_eq start n hs]
  exact ((GenOk.after start n hs).draw (by have := maxId_eq; omega)).1

/-- C180, what holds: the generator keeps every id that it has handed out, once each: as many as have been drawn, until all
2^31 ids are there. Missing: that it keeps none of them. -/
theorem C180_kept_partial (start n : Nat) (hs : start ≤ maxRequestId) :
    (IdGen.after start n).saved = (List.range (min n (2 ^ 31))).map (requestIdAt start) ∧
    (IdGen.after start n).saved.length = min n (2 ^ 31) := by
  have h := (GenOk.after start n hs).saved
  refine ⟨?_, by rw [h, firstIds_length]⟩
  rw [h]
  unfold firstIds
  exact List.map_congr_left fun i _ => (requestIdAt_eq start i hs).symm

/-- C180 is violated -/
theorem C180_violated : ¬ C180_full := by
  intro h
  have h1 := h 5 1 (by decide)
  rw [(C180_kept_partial 5 1 (by decide)).2, (C180_kept_partial 5 0 (by decide)).2] at h1
  revert h1
  decide

/-- the last ids and the first ones after them -/
example : (IdGen.after (maxRequestId - 1) 3).saved = [2147483646, 2147483647, 0] := by decide

end Bolt
