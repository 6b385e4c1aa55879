import Verif.Model.ClientFork
import Verif.Props.ClientEnd
/-!
# C208: the asyncio client in a process made by `fork`
-/
namespace Bolt
open Spec

/-- C208 as listed: whatever the parent has done with the client, `invoke_sync` in the child may come to return a response. -/
def C208_full : Prop :=
  ∀ (v : PyVer) (evs : List CEndEv) (req : Pkg), ∃ (cevs : List CEndEv) (i : Nat) (p : Pkg),
    (i, some (.resp p)) ∈ (forkedRun v evs (.sync req :: cevs)).rets

theorem forkedRun_snoc (v : PyVer) (evs cevs : List CEndEv) (e : CEndEv) :
    forkedRun v evs (cevs ++ [e]) = forkedStep v (forkedRun v evs cevs) e := by simp [forkedRun]

/-- what the child can have done -/
structure ForkedInv (par : ASt) (s : CEndSt) : Prop where
  conns : s.cli.conns = par.conns
  old : ∀ i, i < par.calls.length → s.cli.calls[i]? = par.calls[i]?
  new : ∀ i c, par.calls.length ≤ i → s.cli.calls[i]? = some c → c.pc = .new
  len : par.calls.length ≤ s.cli.calls.length
  blocked : ∀ i, s.blocked = some i → par.calls.length ≤ i ∧ i < s.cli.calls.length
  rets : ∀ x ∈ s.rets, x.2 = none ∧ par.calls.length ≤ x.1

theorem ForkedInv.call {par : ASt} {s : CEndSt} (h : ForkedInv par s) (req : Pkg) (b : Option Nat)
    (hb : ∀ i, b = some i → i = s.cli.calls.length) :
    ForkedInv par { s with cli := { s.cli with calls := s.cli.calls ++ [({ req := req } : ACall)] }, blocked := b } := by
  have hl := h.len
  refine ⟨h.conns, ?_, ?_, ?_, ?_, h.rets⟩
  · intro i hi
    show (s.cli.calls ++ [({ req := req } : ACall)])[i]? = _
    rw [List.getElem?_append_left (by omega)]
    exact h.old i hi
  · intro i c hi hc
    have hc : (s.cli.calls ++ [({ req := req } : ACall)])[i]? = some c := hc
    by_cases hlt : i < s.cli.calls.length
    · rw [List.getElem?_append_left hlt] at hc
      exact h.new i c hi hc
    · rw [List.getElem?_append_right (by omega)] at hc
      cases hk : i - s.cli.calls.length with
      | zero => rw [hk] at hc; cases hc; rfl
      | succ k => rw [hk] at hc; cases hc
  · show par.calls.length ≤ (s.cli.calls ++ [({ req := req } : ACall)]).length
    simp; omega
  · intro i hi
    have := hb i hi
    subst this
    refine ⟨hl, ?_⟩
    show s.cli.calls.length < (s.cli.calls ++ [({ req := req } : ACall)]).length
    simp

theorem forked_inv (v : PyVer) (evs cevs : List CEndEv) : ForkedInv (cendRun v evs).cli (forkedRun v evs cevs) := by
  induction cevs using snoc_induct with
  | nil =>
    refine ⟨rfl, fun _ _ => rfl, ?_, Nat.le_refl _, ?_, ?_⟩
    · intro i c hi hc
      have := (List.getElem?_eq_some_iff.1 hc).1
      exact absurd this (Nat.not_lt.2 hi)
    · intro i h; cases h
    · intro x h; cases h
  | snoc cevs e ih =>
    rw [forkedRun_snoc]
    generalize forkedRun v evs cevs = s at ih
    cases e with
    | ev a => exact ih
    | post req =>
      simp only [forkedStep, cendStep]
      split
      · exact ih
      · split
        · next hb => exact ih.call req s.blocked (fun i hi => by rw [hb] at hi; cases hi)
        · exact ih
    | sync req =>
      simp only [forkedStep, cendStep]
      split
      · exact ih
      · split
        · exact ih.call req (some s.cli.calls.length) (fun i hi => by cases hi; rfl)
        · exact ih
    | result =>
      simp only [forkedStep, cendStep]
      split
      · exact ih
      · cases hb : s.blocked with
        | none => exact ih
        | some j =>
          dsimp only
          obtain ⟨h1, h2⟩ := ih.blocked j hb
          rw [List.getElem?_eq_getElem h2, Option.map_some, ih.new j _ h1 (List.getElem?_eq_getElem h2)]
          exact ih
    | timeout =>
      simp only [forkedStep, cendStep]
      split
      · exact ih
      · cases hb : s.blocked with
        | none => exact ih
        | some j =>
          refine ⟨ih.conns, ih.old, ih.new, ih.len, (fun i hi => by cases hi), ?_⟩
          intro x hx
          rcases List.mem_append.1 hx with hx | hx
          · exact ih.rets x hx
          · rw [List.mem_singleton] at hx
            subst hx
            exact ⟨rfl, (ih.blocked j hb).1⟩
    | ends =>
      simp only [forkedStep, cendStep]
      split
      · exact ih
      · split
        · exact ⟨ih.conns, ih.old, ih.new, ih.len, ih.blocked, ih.rets⟩
        · exact ih

/-- What happens instead, always: in the child `invoke_sync` ends with a TimeoutError if it ends, no call made there ever starts,
and nothing of it is sent. -/
theorem C208_always (v : PyVer) (evs cevs : List CEndEv) :
    (∀ x ∈ (forkedRun v evs cevs).rets, x.2 = none) ∧
    ∀ i c, (cendRun v evs).cli.calls.length ≤ i → (forkedRun v evs cevs).cli.calls[i]? = some c →
      c.pc = .new ∧ ¬ Sent (forkedRun v evs cevs).cli i := by
  have h := forked_inv v evs cevs
  refine ⟨fun x hx => (h.rets x hx).1, fun i c hi hc => ⟨h.new i c hi hc, ?_⟩⟩
  rintro ⟨k, hk, bs, hb⟩
  rw [h.conns] at hk
  obtain ⟨aevs, ha⟩ := cend_cli v evs
  rw [ha] at hk hi
  obtain ⟨d, hd, -⟩ := (arun_sent v aevs).2 _ (List.mem_flatMap.2 ⟨k, hk, hb⟩)
  have := (List.getElem?_eq_some_iff.1 hd).1
  exact absurd this (Nat.not_lt.2 hi)

/-- C208 is false. -/
theorem C208_violated : ¬ C208_full := by
  intro h
  obtain ⟨cevs, i, p, hm⟩ := h .from38 [] (exAReq 1)
  cases (C208_always .from38 [] (.sync (exAReq 1) :: cevs)).1 _ hm

/-- C208, what holds: whatever calls the child makes, it does not touch the connections and the calls of the parent, and
`invoke_sync` can always end by its timeout. Missing: that the calls of the child are sent, which is not so (`C208_always`). -/
theorem C208_apart_partial (v : PyVer) (evs cevs : List CEndEv) :
    (forkedRun v evs cevs).cli.conns = (cendRun v evs).cli.conns ∧
    (∀ i, i < (cendRun v evs).cli.calls.length → (forkedRun v evs cevs).cli.calls[i]? = (cendRun v evs).cli.calls[i]?) ∧
    ((forkedRun v evs cevs).over = false → (forkedRun v evs (cevs ++ [.timeout])).blocked = none) := by
  have h := forked_inv v evs cevs
  refine ⟨h.conns, h.old, fun ho => ?_⟩
  rw [forkedRun_snoc]
  simp only [forkedStep, cendStep, ho]
  cases hb : (forkedRun v evs cevs).blocked with
  | none => simp [hb]
  | some j => rfl

set_option maxRecDepth 20000 in
/-- the parent has called and has a connection; the calls of the child stay where they are, while in the parent the same call
is answered -/
example : let evs := exCliEndEvs.take 12
    let s := forkedRun .from38 evs [.sync (exAReq 2), .ev (.start 1 exAddr), .result, .timeout, .post (exAReq 3)]
    (cendRun .from38 evs).rets.length = 1 ∧ (cendRun .from38 evs).cli.conns.length = 1 ∧ s.rets = [(1, none)] ∧
    s.cli.calls.map (fun c => decide (c.pc = .new)) = [false, true, true] ∧
    (cendRun .from38 (evs ++ [.sync (exAReq 2), .ev (.start 1 exAddr), .ev (.drained 1 true), .ev (.drained 1 true),
      .ev (.data 0 (reply 2 0 [8])), .ev (.recv 0), .ev (.recv 0), .ev (.wake 1), .result])).rets.map Prod.fst = [0, 1] := by
  decide +kernel

end Bolt
