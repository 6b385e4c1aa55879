import Verif.Model.AioFlow
import Verif.Props.AioDial
import Verif.Props.AtMostOnce
import Verif.Props.EndToEndThreads
/-! C149: connections that work are kept. -/
namespace Bolt
open Spec

/-- the `pc` of call `j` -/
def ASt.pcOf (s : ASt) (j : Nat) : Option CallPc := s.calls[j]?.map ACall.pc

theorem pcOf_setPc (s : ASt) (i j : Nat) (pc : CallPc) (h : j ≠ i) : (s.setPc i pc).pcOf j = s.pcOf j := by
  simp [ASt.pcOf, ASt.setPc, Ne.symm h]

theorem pcOf_sendFailed (s : ASt) (i j : Nat) (c : ACall) (h : j ≠ i) : (s.sendFailed i c).pcOf j = s.pcOf j := by
  unfold ASt.sendFailed
  split <;> exact pcOf_setPc _ _ _ _ h

theorem pcOf_send (s : ASt) (i j : Nat) (c : ACall) (r : Nat) (a : Addr) (h : j ≠ i) : (s.send i c r a).pcOf j = s.pcOf j := by
  unfold ASt.send
  split
  · exact pcOf_sendFailed _ _ _ _ h
  · split
    · exact pcOf_setPc _ _ _ _ h
    · split
      · split <;> exact pcOf_setPc _ _ _ _ h
      · exact pcOf_setPc _ _ _ _ h

theorem pcOf_broken (s : ASt) (i j : Nat) (c : ACall) (r : Nat) (a : Addr) (n : Nat) (h : j ≠ i) :
    (s.broken i c r a n).pcOf j = s.pcOf j := by
  unfold ASt.broken
  dsimp only
  split
  · split
    · exact pcOf_send _ _ _ _ _ _ h
    · exact pcOf_sendFailed _ _ _ _ h
  · exact pcOf_sendFailed _ _ _ _ h

theorem pcOf_drained (s : ASt) (i j : Nat) (ok : Bool) (h : j ≠ i) : (s.drained i ok).pcOf j = s.pcOf j := by
  unfold ASt.drained
  split
  · split
    · split
      · split
        · exact pcOf_broken _ _ _ _ _ _ _ h
        · exact pcOf_setPc _ _ _ _ h
      · exact pcOf_broken _ _ _ _ _ _ _ h
    · split
      · split
        · exact pcOf_setPc _ _ _ _ h
        · split <;> exact pcOf_setPc _ _ _ _ h
      · exact pcOf_broken _ _ _ _ _ _ _ h
    · rfl
  · rfl

theorem pcOf_cancel (v : PyVer) (s : ASt) (i j : Nat) (h : j ≠ i) : (s.cancel v i).pcOf j = s.pcOf j := by
  unfold ASt.cancel
  split
  · split
    · exact pcOf_setPc _ _ _ _ h
    · split
      · exact pcOf_sendFailed _ _ _ _ h
      · exact pcOf_setPc _ _ _ _ h
    · dsimp only
      split
      · exact pcOf_sendFailed _ _ _ _ h
      · exact pcOf_setPc _ _ _ _ h
    · split
      · exact pcOf_broken _ _ _ _ _ _ _ h
      · exact pcOf_setPc _ _ _ _ h
    · split
      · exact pcOf_broken _ _ _ _ _ _ _ h
      · exact pcOf_setPc _ _ _ _ h
    · exact pcOf_setPc _ _ _ _ h
    · rfl
  · rfl

theorem pcOf_notify (s : ASt) (id : PyObj) (j : Nat) : (s.notify id).pcOf j = s.pcOf j := by
  unfold ASt.notify
  split
  · simp only [ASt.pcOf, List.getElem?_modify]
    cases s.calls[j]? with
    | none => rfl
    | some c => simp only [Option.map_some]; split <;> rfl
  · rfl

theorem pcOf_onPkg (s : ASt) (p : Pkg) (j : Nat) : (s.onPkg p).pcOf j = s.pcOf j := by
  unfold ASt.onPkg
  repeat' split
  all_goals exact pcOf_notify _ _ _

theorem pcOf_recv (s : ASt) (n j : Nat) : (s.recv n).pcOf j = s.pcOf j := by
  unfold ASt.recv
  split
  · rfl
  · split
    · rfl
    · split <;> rfl
    · split
      · rfl
      · dsimp only
        split
        · split <;> rfl
        · split <;> rfl
    · split
      · rfl
      · split
        · rfl
        · split
          · dsimp only
            split
            · rfl
            · rw [pcOf_onPkg]; rfl
          · split <;> rfl

/-- an event that is neither the end of a `drain` nor a cancellation leaves calls that are in a `drain` where they are -/
theorem pcOf_other (v : PyVer) (s : ASt) (e : AEv) (j n : Nat) (pc : CallPc) (h : s.pcOf j = some pc)
    (hw : pc.writesOn = some n) (h1 : ∀ i ok, e ≠ .drained i ok) (h2 : ∀ i, e ≠ .cancel i) :
    (astep v s e).pcOf j = some pc := by
  have ne : ∀ (i : Nat) (c : ACall), s.calls[i]? = some c → c.pc.writesOn = none → j ≠ i := by
    rintro i c hc hn rfl
    rw [ASt.pcOf, hc] at h
    cases h
    rw [hn] at hw
    cases hw
  cases e with
  | call req =>
    show ((s.calls ++ _)[j]?.map ACall.pc) = _
    rw [ASt.pcOf] at h
    rw [List.getElem?_append_left]
    · exact h
    · refine Classical.byContradiction fun hc => ?_
      rw [List.getElem?_eq_none (by omega)] at h
      cases h
  | start i a =>
    rw [← h]
    show (s.start i a).pcOf j = _
    unfold ASt.start
    split
    · next c hc =>
      split
      · next hp => exact pcOf_send _ _ _ _ _ _ (ne i c hc (by rw [hp]; rfl))
      · rfl
    · rfl
  | lock i =>
    rw [← h]
    show (s.lockTurn i).pcOf j = _
    unfold ASt.lockTurn
    split
    · next c hc =>
      split
      · next hp =>
        have := ne i c hc (by rw [hp]; rfl)
        split
        · split <;> exact pcOf_setPc _ _ _ _ this
        · rfl
      · rfl
    · rfl
  | dialed i ok =>
    rw [← h]
    show (s.dialed i ok).pcOf j = _
    unfold ASt.dialed
    split
    · next c hc =>
      split
      · next hp =>
        have := ne i c hc (by rw [hp]; rfl)
        dsimp only
        split
        · split <;> exact pcOf_setPc _ _ _ _ this
        · exact pcOf_sendFailed _ _ _ _ this
      · rfl
    · rfl
  | drained i ok => exact absurd rfl (h1 i ok)
  | wake i =>
    rw [← h]
    show (s.wake i).pcOf j = _
    unfold ASt.wake
    split
    · next c hc =>
      split
      · next hp =>
        have := ne i c hc (by rw [hp]; rfl)
        split
        · split <;> exact pcOf_setPc _ _ _ _ this
        · rfl
      · rfl
    · rfl
  | cancel i => exact absurd rfl (h2 i)
  | recv n => rw [← h]; exact pcOf_recv s n j
  | data n bs => exact h
  | eof n => exact h
  | reset n => exact h

/-! ## The flow control in step with the client -/

theorem getElem?_pad (s : AFSt) (n : Nat) (f : CFlow) (h : s.pad.flows[n]? = some f) : s.flows[n]? = some f ∨ f = {} := by
  unfold AFSt.pad at h
  dsimp only at h
  by_cases hn : n < s.flows.length
  · rw [List.getElem?_append_left hn] at h
    exact .inl h
  · rw [List.getElem?_append_right (by omega)] at h
    right
    have := List.mem_of_getElem? h
    exact (List.mem_replicate.1 this).2

/-- `g` changes a list at one place only -/
theorem getElem?_modify_cases {α : Type} (l : List α) (n m : Nat) (g : α → α) (y : α) (h : (l.modify n g)[m]? = some y) :
    ∃ x, l[m]? = some x ∧ (y = x ∨ (n = m ∧ y = g x)) := by
  rw [List.getElem?_modify] at h
  cases hx : l[m]? with
  | none => rw [hx] at h; cases h
  | some x =>
    rw [hx] at h
    refine ⟨x, rfl, ?_⟩
    by_cases e : n = m
    · simp only [if_pos e] at h; cases h; exact .inr ⟨e, rfl⟩
    · simp only [if_neg e] at h; cases h; exact .inl rfl

theorem flowWrite_same (c : FlowCfg) (f : CFlow) (len k : Nat) :
    (f.write c len k).waiters = f.waiters ∧ (f.write c len k).woken = f.woken ∧ (f.write c len k).lost = f.lost := by
  unfold CFlow.write
  split
  · exact ⟨rfl, rfl, rfl⟩
  · exact ⟨rfl, rfl, rfl⟩

theorem resume_flows (c : FlowCfg) (v : PyVer) (s : AFSt) (i n : Nat) (ok : Bool) (k m : Nat) (f' : CFlow)
    (h : (s.resume c v i n ok k).flows[m]? = some f') :
    ∃ f, s.flows[m]? = some f ∧ f'.waiters = f.waiters ∧ f'.woken = f.woken ∧ f'.lost = f.lost := by
  unfold AFSt.resume at h
  dsimp only at h
  split at h
  · split at h
    · obtain ⟨f, h1, h2⟩ := getElem?_modify_cases _ _ _ _ _ h
      refine ⟨f, h1, ?_⟩
      rcases h2 with rfl | ⟨-, rfl⟩
      · exact ⟨rfl, rfl, rfl⟩
      · split
        · exact ⟨rfl, rfl, rfl⟩
        · exact flowWrite_same c f _ _
    · exact ⟨f', h, rfl, rfl, rfl⟩
  · exact ⟨f', h, rfl, rfl, rfl⟩

/-- A call in the waiters of a connection is in a `drain` of that connection, and has not been woken. -/
structure AFInv (s : AFSt) : Prop where
  wait : ∀ (n : Nat) (f : CFlow) (i : Nat), s.flows[n]? = some f → i ∈ f.waiters → (s.a.pcOf i).bind CallPc.writesOn = some n
  disj : ∀ (n : Nat) (f : CFlow) (w : Nat × Bool), s.flows[n]? = some f → w ∈ f.woken → w.1 ∉ f.waiters

theorem AFInv.pad {s : AFSt} (h : AFInv s) : AFInv s.pad := by
  refine ⟨?_, ?_⟩
  · intro n f i hf hi
    rcases getElem?_pad s n f hf with hf | rfl
    · exact h.wait n f i hf hi
    · cases hi
  · intro n f w hf hw
    rcases getElem?_pad s n f hf with hf | rfl
    · exact h.disj n f w hf hw
    · cases hw

theorem AFInv.resume {c : FlowCfg} {v : PyVer} {s : AFSt} (h : AFInv s) (i n : Nat) (ok : Bool) (k : Nat)
    (hi : ∀ (m : Nat) (f : CFlow), s.flows[m]? = some f → i ∉ f.waiters) : AFInv (s.resume c v i n ok k) := by
  refine ⟨?_, ?_⟩
  · intro m f' j hf hj
    obtain ⟨f, h1, h2, -, -⟩ := resume_flows c v s i n ok k m f' hf
    rw [h2] at hj
    have hne : j ≠ i := fun e => hi m f h1 (e ▸ hj)
    show ((s.a.drained i ok).pcOf j).bind _ = _
    rw [pcOf_drained _ _ _ _ hne]
    exact h.wait m f j h1 hj
  · intro m f' w hf hw
    obtain ⟨f, h1, h2, h3, -⟩ := resume_flows c v s i n ok k m f' hf
    rw [h2]; rw [h3] at hw
    exact h.disj m f w h1 hw

/-- a call is in the waiters of the connection it is on, if of any -/
theorem AFInv.only {s : AFSt} (h : AFInv s) {i n m : Nat} {f g : CFlow} (hn : (s.a.pcOf i).bind CallPc.writesOn = some n)
    (hf : s.flows[n]? = some f) (hi : i ∉ f.waiters) (hg : s.flows[m]? = some g) : i ∉ g.waiters := by
  intro hm
  have := h.wait m g i hg hm
  rw [hn] at this
  cases this
  rw [hf] at hg
  cases hg
  exact hi hm

theorem pcOf_bind (s : ASt) (i : Nat) :
    s.calls[i]?.bind (fun call => call.pc.writesOn) = (s.pcOf i).bind CallPc.writesOn := by
  unfold ASt.pcOf
  cases s.calls[i]? <;> rfl

theorem AFInv.turn {c : FlowCfg} {v : PyVer} {s : AFSt} (h : AFInv s) (i k : Nat) : AFInv (s.turn c v i k) := by
  unfold AFSt.turn
  split
  · exact h
  · next n hn =>
    rw [pcOf_bind] at hn
    split
    · exact h
    · next f hf =>
      split
      · next w hw =>
        have hmem := List.mem_of_find?_eq_some hw
        have hwi : w.1 = i := by simpa using List.find?_some hw
        have hnot : i ∉ f.waiters := hwi ▸ h.disj n f w hf hmem
        refine AFInv.resume ⟨?_, ?_⟩ i n w.2 k ?_
        · intro m g j hg hj
          obtain ⟨x, h1, h2⟩ := getElem?_modify_cases _ _ _ _ _ hg
          refine h.wait m x j h1 ?_
          rcases h2 with rfl | ⟨-, rfl⟩ <;> exact hj
        · intro m g w' hg hw'
          obtain ⟨x, h1, h2⟩ := getElem?_modify_cases _ _ _ _ _ hg
          rcases h2 with rfl | ⟨-, rfl⟩
          · exact h.disj m _ w' h1 hw'
          · exact h.disj m x w' h1 (List.mem_filter.1 hw').1
        · intro m g hg
          obtain ⟨x, h1, h2⟩ := getElem?_modify_cases _ _ _ _ _ hg
          have := h.only hn hf hnot h1
          rcases h2 with rfl | ⟨-, rfl⟩ <;> exact this
      · next hw =>
        split
        · exact h
        · next hnot =>
          have hn' : ∀ (m : Nat) (g : CFlow), s.flows[m]? = some g → i ∉ g.waiters := fun m g hg => h.only hn hf hnot hg
          split
          · exact h.resume i n false k hn'
          · split
            · split
              · refine ⟨?_, ?_⟩
                · intro m g j hg hj
                  obtain ⟨x, h1, h2⟩ := getElem?_modify_cases _ _ _ _ _ hg
                  rcases h2 with rfl | ⟨e, rfl⟩
                  · exact h.wait m _ j h1 hj
                  · rcases List.mem_append.1 hj with hj | hj
                    · exact h.wait m x j h1 hj
                    · rw [List.mem_singleton] at hj
                      rw [hj, ← e]; exact hn
                · intro m g w hg hw'
                  obtain ⟨x, h1, h2⟩ := getElem?_modify_cases _ _ _ _ _ hg
                  rcases h2 with rfl | ⟨e, rfl⟩
                  · exact h.disj m _ w h1 hw'
                  · intro hx
                    rcases List.mem_append.1 hx with hx | hx
                    · exact h.disj m x w h1 hw' hx
                    · have hx' := List.mem_singleton.1 hx
                      rw [← e, hf] at h1
                      cases h1
                      have := List.find?_eq_none.1 hw w hw'
                      exact this (beq_iff_eq.2 hx')
              · exact h.resume i n false k hn'
            · exact h.resume i n true k hn'

/-- one step keeps the two in step -/
theorem AFInv.step {c : FlowCfg} {v : PyVer} {s : AFSt} (h : AFInv s) (e : AFEv) : AFInv (afStep c v s e) := by
  have other : ∀ e : AEv, (∀ i ok, e ≠ .drained i ok) → (∀ i, e ≠ .cancel i) →
      AFInv ({ s with a := astep v s.a e } : AFSt) := by
    intro e h1 h2
    refine ⟨?_, h.disj⟩
    intro n f i hf hi
    have := h.wait n f i hf hi
    cases hp : s.a.pcOf i with
    | none => rw [hp] at this; cases this
    | some pc =>
      rw [hp] at this
      show ((astep v s.a e).pcOf i).bind _ = _
      rw [pcOf_other v s.a e i n pc hp this h1 h2]
      exact this
  cases e with
  | ev e =>
    cases e with
    | drained i ok => exact h
    | cancel i =>
      refine AFInv.pad ⟨?_, ?_⟩
      · intro n f j hf hj
        rw [List.getElem?_map] at hf
        cases hg : s.flows[n]? with
        | none => rw [hg] at hf; cases hf
        | some g =>
          rw [hg] at hf
          cases hf
          obtain ⟨hj, hne⟩ := List.mem_filter.1 hj
          show ((s.a.cancel v i).pcOf j).bind _ = _
          rw [pcOf_cancel v _ _ _ (by simpa using hne)]
          exact h.wait n g j hg hj
      · intro n f w hf hw
        rw [List.getElem?_map] at hf
        cases hg : s.flows[n]? with
        | none => rw [hg] at hf; cases hf
        | some g =>
          rw [hg] at hf
          cases hf
          intro hx
          exact h.disj n g w hg (List.mem_filter.1 hw).1 (List.mem_filter.1 hx).1
    | call r => exact (other _ (by intros; simp) (by intros; simp)).pad
    | start i a => exact (other _ (by intros; simp) (by intros; simp)).pad
    | lock i => exact (other _ (by intros; simp) (by intros; simp)).pad
    | dialed i ok => exact (other _ (by intros; simp) (by intros; simp)).pad
    | wake i => exact (other _ (by intros; simp) (by intros; simp)).pad
    | recv n => exact (other _ (by intros; simp) (by intros; simp)).pad
    | data n bs => exact (other _ (by intros; simp) (by intros; simp)).pad
    | eof n => exact (other _ (by intros; simp) (by intros; simp)).pad
    | reset n => exact (other _ (by intros; simp) (by intros; simp)).pad
  | turn i k => exact (h.turn i k).pad
  | take n k =>
    have key : ∀ x : CFlow, (x.take c k).waiters = [] ∨ ((x.take c k).waiters = x.waiters ∧ (x.take c k).woken = x.woken) := by
      intro x
      unfold CFlow.take
      split
      · exact .inr ⟨rfl, rfl⟩
      · split
        · exact .inl rfl
        · exact .inr ⟨rfl, rfl⟩
    refine ⟨?_, ?_⟩
    · intro m g j hg hj
      obtain ⟨x, h1, h2⟩ := getElem?_modify_cases _ _ _ _ _ hg
      rcases h2 with rfl | ⟨-, rfl⟩
      · exact h.wait m _ j h1 hj
      · rcases key x with e | ⟨e, -⟩
        · rw [e] at hj; cases hj
        · rw [e] at hj; exact h.wait m x j h1 hj
    · intro m g w hg hw
      obtain ⟨x, h1, h2⟩ := getElem?_modify_cases _ _ _ _ _ hg
      rcases h2 with rfl | ⟨-, rfl⟩
      · exact h.disj m _ w h1 hw
      · rcases key x with e | ⟨e, e'⟩
        · rw [e]; simp
        · rw [e]; rw [e'] at hw; exact h.disj m x w h1 hw
  | lose n exc =>
    have key : ∀ x : CFlow, (x.lose exc).waiters = [] ∨ ((x.lose exc).waiters = x.waiters ∧ (x.lose exc).woken = x.woken) := by
      intro x
      unfold CFlow.lose
      split
      · exact .inr ⟨rfl, rfl⟩
      · exact .inl rfl
    have ho : AFInv ({ s with a := astep v s.a (if exc then .reset n else .eof n) } : AFSt) :=
      other _ (by intros; split <;> simp) (by intros; split <;> simp)
    refine ⟨?_, ?_⟩
    · intro m g j hg hj
      obtain ⟨x, h1, h2⟩ := getElem?_modify_cases _ _ _ _ _ hg
      rcases h2 with rfl | ⟨-, rfl⟩
      · exact ho.wait m _ j h1 hj
      · rcases key x with e | ⟨e, -⟩
        · rw [e] at hj; cases hj
        · rw [e] at hj; exact ho.wait m x j h1 hj
    · intro m g w hg hw
      obtain ⟨x, h1, h2⟩ := getElem?_modify_cases _ _ _ _ _ hg
      rcases h2 with rfl | ⟨-, rfl⟩
      · exact h.disj m _ w h1 hw
      · rcases key x with e | ⟨e, e'⟩
        · rw [e]; simp
        · rw [e]; rw [e'] at hw; exact h.disj m x w h1 hw

theorem afRun_snoc (c : FlowCfg) (v : PyVer) (evs : List AFEv) (e : AFEv) :
    afRun c v (evs ++ [e]) = afStep c v (afRun c v evs) e := by
  simp [afRun, List.foldl_append]

theorem afRun_inv (c : FlowCfg) (v : PyVer) (evs : List AFEv) : AFInv (afRun c v evs) := by
  induction evs using snoc_induct with
  | nil => exact ⟨fun n f i hf => by simp [afRun] at hf, fun n f w hf => by simp [afRun] at hf⟩
  | snoc evs e ih => rw [afRun_snoc]; exact ih.step e

/-! ## What the flow control lets the client see -/

/-- why the `drain` of call `i` on connection `n` raises -/
def DrainRaises (c : FlowCfg) (s : AFSt) (i n : Nat) : Prop :=
  ∃ f : CFlow, s.flows[n]? = some f ∧ (s.a.pcOf i).bind CallPc.writesOn = some n ∧
    ((i, false) ∈ f.woken ∨ f.lost = true ∨
      (f.paused = true ∧ c.many = false ∧ f.waiters ≠ [] ∧ i ∉ f.waiters ∧ ∀ w ∈ f.woken, w.1 ≠ i))

/-- what one event is for the client: nothing, the same event, the end of a `drain`, or the end of a stream -/
inductive FlowSees (c : FlowCfg) (v : PyVer) (s : AFSt) : AFEv → ASt → Prop
  | nothing (e : AFEv) : FlowSees c v s e s.a
  | event (e : AEv) (h : ∀ i ok, e ≠ .drained i ok) : FlowSees c v s (.ev e) (astep v s.a e)
  | drain (i k n : Nat) (ok : Bool) (h : ok = false → DrainRaises c s i n) :
      FlowSees c v s (.turn i k) (astep v s.a (.drained i ok))
  | lost (n : Nat) (exc : Bool) : FlowSees c v s (.lose n exc) (astep v s.a (if exc then .reset n else .eof n))

theorem turn_sees (c : FlowCfg) (v : PyVer) (s : AFSt) (i k : Nat) : FlowSees c v s (.turn i k) (s.turn c v i k).a := by
  unfold AFSt.turn
  split
  · exact .nothing _
  · next n hn =>
    rw [pcOf_bind] at hn
    split
    · exact .nothing _
    · next f hf =>
      split
      · next w hw =>
        refine .drain i k n w.2 fun e => ⟨f, hf, hn, .inl ?_⟩
        have hmem := List.mem_of_find?_eq_some hw
        have hwi : w.1 = i := by simpa using List.find?_some hw
        rw [← e, ← hwi]
        exact hmem
      · next hw =>
        have hw : ∀ w ∈ f.woken, w.1 ≠ i := fun w hm e => List.find?_eq_none.1 hw w hm (beq_iff_eq.2 e)
        split
        · exact .nothing _
        · next hnot =>
          split
          · next hl => exact .drain i k n false fun _ => ⟨f, hf, hn, .inr (.inl hl)⟩
          · split
            · next hp =>
              split
              · exact .nothing _
              · next hm =>
                rw [Bool.or_eq_true, not_or] at hm
                refine .drain i k n false fun _ => ⟨f, hf, hn, .inr (.inr ⟨hp, by simpa using hm.1, ?_, hnot, hw⟩)⟩
                intro e
                exact hm.2 (by rw [e]; rfl)
            · exact .drain i k n true fun e => by cases e

theorem step_sees (c : FlowCfg) (v : PyVer) (s : AFSt) (e : AFEv) : FlowSees c v s e (afStep c v s e).a := by
  cases e with
  | ev e =>
    cases e with
    | drained i ok => exact .nothing _
    | call r => exact .event _ (by intros; simp)
    | start i a => exact .event _ (by intros; simp)
    | lock i => exact .event _ (by intros; simp)
    | dialed i ok => exact .event _ (by intros; simp)
    | wake i => exact .event _ (by intros; simp)
    | cancel i => exact .event _ (by intros; simp)
    | recv n => exact .event _ (by intros; simp)
    | data n bs => exact .event _ (by intros; simp)
    | eof n => exact .event _ (by intros; simp)
    | reset n => exact .event _ (by intros; simp)
  | turn i k => exact turn_sees c v s i k
  | take n k => exact .nothing _
  | lose n exc => exact .lost n exc

/-! ## Connections that are not lost -/

/-- no connection is lost and no `drain` is to raise -/
def Undisturbed (s : AFSt) : Prop :=
  ∀ (n : Nat) (f : CFlow), s.flows[n]? = some f → f.lost = false ∧ ∀ w ∈ f.woken, w.2 = true

theorem Undisturbed.pad {s : AFSt} (h : Undisturbed s) : Undisturbed s.pad := by
  intro n f hf
  rcases getElem?_pad s n f hf with hf | rfl
  · exact h n f hf
  · exact ⟨rfl, fun w hw => by cases hw⟩

theorem Undisturbed.resume {c : FlowCfg} {v : PyVer} {s : AFSt} (h : Undisturbed s) (i n : Nat) (ok : Bool) (k : Nat) :
    Undisturbed (s.resume c v i n ok k) := by
  intro m f' hf
  obtain ⟨f, h1, -, h3, h4⟩ := resume_flows c v s i n ok k m f' hf
  rw [h3, h4]
  exact h m f h1

theorem Undisturbed.modify {a : ASt} {s : AFSt} (h : Undisturbed s) (n : Nat) (g : CFlow → CFlow)
    (hg : ∀ f : CFlow, f.lost = false → (∀ w ∈ f.woken, w.2 = true) → (g f).lost = false ∧ ∀ w ∈ (g f).woken, w.2 = true) :
    Undisturbed { a := a, flows := s.flows.modify n g } := by
  intro m f' hf
  obtain ⟨x, h1, h2⟩ := getElem?_modify_cases _ _ _ _ _ hf
  rcases h2 with rfl | ⟨-, rfl⟩
  · exact h m _ h1
  · exact hg x (h m x h1).1 (h m x h1).2

theorem Undisturbed.turn {c : FlowCfg} {v : PyVer} {s : AFSt} (h : Undisturbed s) (i k : Nat) : Undisturbed (s.turn c v i k) := by
  unfold AFSt.turn
  split
  · exact h
  · split
    · exact h
    · split
      · refine Undisturbed.resume (h.modify _ _ ?_) _ _ _ _
        intro f h1 h2
        exact ⟨h1, fun w hw => h2 w (List.mem_filter.1 hw).1⟩
      · split
        · exact h
        · split
          · exact h.resume _ _ _ _
          · split
            · split
              · exact h.modify _ _ fun f h1 h2 => ⟨h1, h2⟩
              · exact h.resume _ _ _ _
            · exact h.resume _ _ _ _

theorem Undisturbed.step {c : FlowCfg} {v : PyVer} {s : AFSt} (h : Undisturbed s) (e : AFEv) (hl : ∀ n x, e ≠ .lose n x) :
    Undisturbed (afStep c v s e) := by
  have other : ∀ a : ASt, Undisturbed ({ s with a := a } : AFSt) := fun a => h
  cases e with
  | ev e =>
    cases e with
    | drained i ok => exact h
    | cancel i =>
      refine Undisturbed.pad ?_
      intro n f hf
      have hf : (s.flows.map fun (f : CFlow) => f.forget i)[n]? = some f := hf
      rw [List.getElem?_map] at hf
      cases hg : s.flows[n]? with
      | none => rw [hg] at hf; cases hf
      | some g =>
        rw [hg] at hf
        cases hf
        exact ⟨(h n g hg).1, fun w hw => (h n g hg).2 w (List.mem_filter.1 hw).1⟩
    | call r => exact (other _).pad
    | start i a => exact (other _).pad
    | lock i => exact (other _).pad
    | dialed i ok => exact (other _).pad
    | wake i => exact (other _).pad
    | recv n => exact (other _).pad
    | data n bs => exact (other _).pad
    | eof n => exact (other _).pad
    | reset n => exact (other _).pad
  | turn i k => exact (h.turn i k).pad
  | take n k =>
    refine h.modify _ _ fun f h1 h2 => ?_
    unfold CFlow.take
    split
    · exact ⟨h1, h2⟩
    · split
      · refine ⟨h1, fun w hw => ?_⟩
        rcases List.mem_append.1 hw with hw | hw
        · exact h2 w hw
        · obtain ⟨j, -, rfl⟩ := List.mem_map.1 hw; rfl
      · exact ⟨h1, h2⟩
  | lose n x => exact absurd rfl (hl n x)

theorem afRun_undisturbed (c : FlowCfg) (v : PyVer) (evs : List AFEv) (hl : ∀ n x, .lose n x ∉ evs) :
    Undisturbed (afRun c v evs) := by
  induction evs using snoc_induct with
  | nil => exact fun n f hf => by simp [afRun] at hf
  | snoc evs e ih =>
    rw [afRun_snoc]
    refine (ih fun n x hm => hl n x (List.mem_append_left _ hm)).step e fun n x he => ?_
    exact hl n x (List.mem_append_right _ (he ▸ List.mem_singleton_self _))

/-! ## Sends that do not fail cancel no reading task -/

theorem sendFailed_conns' (s : ASt) (i : Nat) (c : ACall) : (s.sendFailed i c).conns = s.conns := by
  unfold ASt.sendFailed
  split <;> rfl

theorem send_conns' (s : ASt) (i : Nat) (c : ACall) (r : Nat) (a : Addr) : (s.send i c r a).conns = s.conns := by
  unfold ASt.send
  split
  · exact sendFailed_conns' s i c
  · split
    · rfl
    · split
      · split <;> rfl
      · rfl

theorem notify_conns' (s : ASt) (id : PyObj) : (s.notify id).conns = s.conns := by
  unfold ASt.notify
  split <;> rfl

theorem onPkg_conns' (s : ASt) (p : Pkg) : (s.onPkg p).conns = s.conns := by
  unfold ASt.onPkg
  repeat' split
  all_goals exact notify_conns' _ _

/-- only reading tasks in `P` are cancelled -/
def OnlyCancelled (P : Nat → Prop) (cs : List AConn) : Prop := ∀ (m : Nat) (k : AConn), cs[m]? = some k → k.cancelled = true → P m

theorem OnlyCancelled.set {P : Nat → Prop} {cs : List AConn} (h : OnlyCancelled P cs) {n : Nat} {k : AConn} (hk : cs[n]? = some k)
    (k' : AConn) (he : k'.cancelled = k.cancelled) : OnlyCancelled P (cs.set n k') := by
  intro m x hx hc
  by_cases e : n = m
  · subst e
    rw [List.getElem?_set_self (List.getElem?_eq_some_iff.1 hk).1] at hx
    cases hx
    exact h n k hk (he ▸ hc)
  · rw [List.getElem?_set_ne e] at hx
    exact h m x hx hc

theorem OnlyCancelled.modify {P : Nat → Prop} {cs : List AConn} (h : OnlyCancelled P cs) (n : Nat) (g : AConn → AConn)
    (hg : ∀ k, (g k).cancelled = k.cancelled) : OnlyCancelled P (cs.modify n g) := by
  intro m x hx hc
  obtain ⟨y, h1, h2⟩ := getElem?_modify_cases _ _ _ _ _ hx
  refine h m y h1 ?_
  rcases h2 with rfl | ⟨-, rfl⟩
  · exact hc
  · rw [← hg]; exact hc

theorem recv_onlyCancelled {P : Nat → Prop} (s : ASt) (n : Nat) (h : OnlyCancelled P s.conns) : OnlyCancelled P (s.recv n).conns := by
  unfold ASt.recv
  split
  · exact h
  · next k hk =>
    split
    · exact h
    · split <;> exact h.set hk _ rfl
    · split
      · exact h.set hk _ rfl
      · dsimp only
        split
        · split <;> exact h.set hk _ rfl
        · split
          · exact h.set hk _ rfl
          · exact h
    · split
      · exact h.set hk _ rfl
      · split
        · exact h.set hk _ rfl
        · split
          · dsimp only
            split
            · exact h.set hk _ rfl
            · rw [onPkg_conns']; exact h.set hk _ rfl
          · split
            · exact h.set hk _ rfl
            · exact h

theorem astep_onlyCancelled {P : Nat → Prop} (v : PyVer) (s : ASt) (e : AEv) (h : OnlyCancelled P s.conns)
    (henc : ∀ c ∈ s.calls, ∃ bs, c.req.toStream = .ok bs) (h1 : ∀ i, e ≠ .drained i false)
    (h2 : v = .upTo37 → ∀ i, e ≠ .cancel i) : OnlyCancelled P (astep v s e).conns := by
  cases e with
  | call r => exact h
  | start i a =>
    simp only [astep, ASt.start]
    split
    · split
      · rw [send_conns']; exact h
      · exact h
    · exact h
  | lock i =>
    simp only [astep, ASt.lockTurn]
    split
    · split
      · split
        · split <;> exact h
        · exact h
      · exact h
    · exact h
  | dialed i ok =>
    simp only [astep, ASt.dialed]
    split
    · split
      · next r a l hp =>
        split
        · have : OnlyCancelled P (s.conns ++ [({ addr := a } : AConn)]) := by
            intro m x hx hc
            rw [List.getElem?_append] at hx
            split at hx
            · exact h m x hx hc
            · have := List.mem_singleton.1 (List.mem_of_getElem? hx)
              rw [this] at hc
              cases hc
          split <;> exact this
        · rw [sendFailed_conns']; exact h
      · exact h
    · exact h
  | drained i ok =>
    have hok : ok = true := by
      cases ok with
      | true => rfl
      | false => exact absurd rfl (h1 i)
    subst hok
    simp only [astep, ASt.drained]
    split
    · next c hc =>
      split
      · rw [if_pos trivial]
        split
        · next er he =>
          obtain ⟨bs, hb⟩ := henc c (List.mem_of_getElem? hc)
          rw [he] at hb
          cases hb
        · exact h.modify _ _ fun k => rfl
      · rw [if_pos trivial]
        split
        · exact h
        · split <;> exact h
      · exact h
    · exact h
  | wake i =>
    simp only [astep, ASt.wake]
    split
    · split
      · split
        · split <;> exact h
        · exact h
      · exact h
    · exact h
  | cancel i =>
    have hv : v ≠ .upTo37 := fun e => h2 e i rfl
    simp only [astep, ASt.cancel, if_neg hv]
    split
    · split <;> exact h
    · exact h
  | recv n => exact recv_onlyCancelled s n h
  | data n bs => exact h.modify _ _ fun k => by split <;> rfl
  | eof n => exact h.modify _ _ fun k => rfl
  | reset n => exact h.modify _ _ fun k => rfl

/-! ## C149: connections that work are kept -/

/-- Nothing is wrong: no connection is lost, the requests can be encoded, and no call is cancelled in a way that `_send`
takes for a failure. -/
structure Spec.FlowHealthy (v : PyVer) (evs : List AFEv) : Prop where
  kept : ∀ n x, .lose n x ∉ evs
  requests : ∀ req, .ev (.call req) ∈ evs → ∃ bs, req.toStream = .ok bs
  cancels : v = .upTo37 → ∀ i, .ev (.cancel i) ∉ evs

/-- call `i` is in one of its `drain`s on connection `n` -/
def Spec.InDrain (s : ASt) (i n : Nat) : Prop :=
  ∃ call, s.calls[i]? = some call ∧ ∃ r a, call.pc = .drain1 r a n ∨ call.pc = .drain2 r a n

/-- at no time are two calls in a `drain` on the same connection -/
def Spec.OneWriter (c : FlowCfg) (v : PyVer) (evs : List AFEv) : Prop :=
  ∀ pre post, evs = pre ++ post → ∀ i j n, InDrain (afRun c v pre).a i n → InDrain (afRun c v pre).a j n → i = j

/-- What the client is to do with connections that work: their reading tasks run on, and each of them is the one used for
its address (so that there is one for each address); and no call writes its message twice. -/
def Spec.ConnectionsKept (s : AFSt) : Prop :=
  (∀ (n : Nat) (k : AConn), s.a.conns[n]? = some k → k.cancelled = false ∧ PyDict.get? s.a.connMap k.addr = some n) ∧
  ∀ i, writesOf s.a i ≤ 1

/-- C149 as one would like it: a client keeps the connections that work. -/
def C149_full : Prop := ∀ (c : FlowCfg) (v : PyVer) (evs : List AFEv), c.low ≤ c.high → FlowHealthy v evs →
  ConnectionsKept (afRun c v evs)

/-- a request whose frame is larger than the limit of the transport -/
def exBigReq (id : Int) (size : Nat) : Pkg := { exAReq id with content := .bytes (List.replicate size 0) }

/-- Call 0 waits for its response; call 1 has sent a large request that the socket does not take, and waits in its second
`drain`; call 2 comes. -/
def exCrowd (size : Nat) : List AFEv :=
  [.ev (.call (exAReq 1)), .ev (.start 0 exAddr), .ev (.dialed 0 true), .turn 0 100, .turn 0 0, .ev (.recv 0),
   .ev (.call (exBigReq 2 size)), .ev (.start 1 exAddr), .turn 1 0, .turn 1 0,
   .ev (.call (exAReq 3)), .ev (.start 2 exAddr)]

theorem inDrain_iff (s : ASt) (i n : Nat) : InDrain s i n ↔ (s.pcOf i).bind CallPc.writesOn = some n := by
  unfold InDrain ASt.pcOf
  cases h : s.calls[i]? with
  | none => simp
  | some call =>
    simp only [Option.some.injEq, Option.map_some, Option.bind_some, exists_eq_left']
    constructor
    · rintro ⟨r, a, e | e⟩ <;> rw [e] <;> rfl
    · intro e
      cases hp : call.pc <;> rw [hp] at e <;> simp [CallPc.writesOn] at e
      · exact ⟨_, _, .inl (by rw [e])⟩
      · exact ⟨_, _, .inr (by rw [e])⟩

/-- Call `i` is at a `drain` of connection `n`, which is paused, with room for one waiter, and another call is that waiter. -/
def Spec.SecondWaiter (c : FlowCfg) (s : AFSt) (i n : Nat) : Prop :=
  InDrain s.a i n ∧ c.many = false ∧ ∃ f : CFlow, s.flows[n]? = some f ∧ f.lost = false ∧ f.paused = true ∧
    (∃ j, j ≠ i ∧ j ∈ f.waiters) ∧ i ∉ f.waiters ∧ ∀ w ∈ f.woken, w.1 ≠ i

theorem DrainRaises.second {c : FlowCfg} {s : AFSt} {i n : Nat} (h : DrainRaises c s i n) (hu : Undisturbed s) : SecondWaiter c s i n := by
  obtain ⟨f, h1, h2, h3⟩ := h
  rcases h3 with h3 | h3 | ⟨p, m, w, x, y⟩
  · exact absurd ((hu n f h1).2 _ h3) Bool.false_ne_true
  · rw [(hu n f h1).1] at h3; cases h3
  · refine ⟨(inDrain_iff _ _ _).2 h2, m, f, h1, (hu n f h1).1, p, ?_, x, y⟩
    cases hw : f.waiters with
    | nil => exact absurd hw w
    | cons j l => exact ⟨j, fun e => x (by rw [hw, e]; exact List.mem_cons_self), List.mem_cons_self⟩

/-- where the events of the client's own schedule come from -/
structure FlowTrace (evs : List AFEv) (evs' : List AEv) : Prop where
  call : ∀ req, .call req ∈ evs' → .ev (.call req) ∈ evs
  cancel : ∀ i, .cancel i ∈ evs' → .ev (.cancel i) ∈ evs
  start : ∀ i a, .start i a ∈ evs' → .ev (.start i a) ∈ evs

theorem FlowTrace.mono {evs more : List AFEv} {evs' : List AEv} (h : FlowTrace evs evs') : FlowTrace (evs ++ more) evs' :=
  ⟨fun r hr => List.mem_append_left _ (h.call r hr), fun i hi => List.mem_append_left _ (h.cancel i hi),
    fun i a hi => List.mem_append_left _ (h.start i a hi)⟩

theorem FlowTrace.snoc {evs : List AFEv} {evs' : List AEv} {e : AFEv} {e' : AEv} (h : FlowTrace evs evs')
    (he : (∃ i ok, e' = .drained i ok) ∨ (∃ n, e' = .eof n ∨ e' = .reset n) ∨ e = .ev e') : FlowTrace (evs ++ [e]) (evs' ++ [e']) := by
  have last : e = .ev e' → AFEv.ev e' ∈ evs ++ [e] := fun h => h ▸ List.mem_append_right _ (List.mem_singleton_self _)
  have pick : ∀ x : AEv, x ∈ evs' ++ [e'] → x ∈ evs' ∨ x = e' := fun x hx => by
    rcases List.mem_append.1 hx with hx | hx
    · exact .inl hx
    · exact .inr (List.mem_singleton.1 hx)
  refine ⟨?_, ?_, ?_⟩
  · intro r hr
    rcases pick _ hr with hr | hr
    · exact List.mem_append_left _ (h.call r hr)
    · rcases he with ⟨i, ok, e⟩ | ⟨n, e | e⟩ | e
      · rw [e] at hr; cases hr
      · rw [e] at hr; cases hr
      · rw [e] at hr; cases hr
      · rw [hr]; exact last e
  · intro r hr
    rcases pick _ hr with hr | hr
    · exact List.mem_append_left _ (h.cancel r hr)
    · rcases he with ⟨i, ok, e⟩ | ⟨n, e | e⟩ | e
      · rw [e] at hr; cases hr
      · rw [e] at hr; cases hr
      · rw [e] at hr; cases hr
      · rw [hr]; exact last e
  · intro r a hr
    rcases pick _ hr with hr | hr
    · exact List.mem_append_left _ (h.start r a hr)
    · rcases he with ⟨i, ok, e⟩ | ⟨n, e | e⟩ | e
      · rw [e] at hr; cases hr
      · rw [e] at hr; cases hr
      · rw [e] at hr; cases hr
      · rw [hr]; exact last e

/-- Every run with flow control is a run of the client for some choice of how its `drain`s end; and if no `drain` raises by
the flow control, none does in that run. -/
theorem afRun_trace (c : FlowCfg) (v : PyVer) (evs : List AFEv) :
    ∃ evs', (afRun c v evs).a = arun v evs' ∧ FlowTrace evs evs' ∧
      ((∀ pre post, evs = pre ++ post → ∀ i n, ¬ DrainRaises c (afRun c v pre) i n) → ∀ i, .drained i false ∉ evs') := by
  induction evs using snoc_induct with
  | nil => exact ⟨[], rfl, ⟨by simp, by simp, by simp⟩, by simp⟩
  | snoc evs e ih =>
    obtain ⟨evs', h1, h2, h3⟩ := ih
    have hpre : (∀ pre post, evs ++ [e] = pre ++ post → ∀ i n, ¬ DrainRaises c (afRun c v pre) i n) →
        ∀ i, AEv.drained i false ∉ evs' := fun h => h3 fun pre post hp => h pre (post ++ [e]) (by rw [hp, List.append_assoc])
    have one : ∀ e' : AEv, (afStep c v (afRun c v evs) e).a = astep v (afRun c v evs).a e' →
        ((∃ i ok, e' = .drained i ok) ∨ (∃ n, e' = .eof n ∨ e' = .reset n) ∨ e = .ev e') →
        ((∀ i n, ¬ DrainRaises c (afRun c v evs) i n) → ∀ i, e' ≠ .drained i false) →
        ∃ evs', (afRun c v (evs ++ [e])).a = arun v evs' ∧ FlowTrace (evs ++ [e]) evs' ∧
          ((∀ pre post, evs ++ [e] = pre ++ post → ∀ i n, ¬ DrainRaises c (afRun c v pre) i n) → ∀ i, .drained i false ∉ evs') := by
      intro e' g1 g2 g3
      refine ⟨evs' ++ [e'], ?_, h2.snoc g2, ?_⟩
      · rw [afRun_snoc, g1, h1, arun_snoc]
      · intro h i hi
        rcases List.mem_append.1 hi with hi | hi
        · exact hpre h i hi
        · exact g3 (h evs [e] rfl) i (List.mem_singleton.1 hi).symm
    have hs := step_sees c v (afRun c v evs) e
    generalize hx : (afStep c v (afRun c v evs) e).a = x at hs
    cases hs with
    | nothing => exact ⟨evs', by rw [afRun_snoc, hx, h1], h2.mono, hpre⟩
    | event e' hn => exact one e' hx (.inr (.inr rfl)) fun _ i he => hn i false he
    | drain i k n ok hr =>
      refine one _ hx (.inl ⟨i, ok, rfl⟩) fun hno j he => ?_
      cases he
      exact hno _ n (hr rfl)
    | lost n exc =>
      refine one _ hx (.inr (.inl ⟨n, ?_⟩)) fun _ j he => ?_
      · cases exc
        · exact .inl rfl
        · exact .inr rfl
      · cases exc <;> cases he

/-- all calls of a run can be encoded if all requests can -/
theorem afRun_encodable (c : FlowCfg) (v : PyVer) (evs : List AFEv)
    (h : ∀ req, .ev (.call req) ∈ evs → ∃ bs, req.toStream = .ok bs) :
    ∀ call ∈ (afRun c v evs).a.calls, ∃ bs, call.req.toStream = .ok bs := by
  obtain ⟨evs', h1, h2, -⟩ := afRun_trace c v evs
  intro call hc
  rw [h1] at hc
  have : call.req ∈ requests evs' := by
    rw [← arun_requests v evs']
    exact List.mem_map_of_mem hc
  exact h _ (h2.call _ (mem_requests this))

theorem Spec.FlowHealthy.prefix {v : PyVer} {evs more : List AFEv} (h : FlowHealthy v (evs ++ more)) : FlowHealthy v evs :=
  ⟨fun n x hm => h.kept n x (List.mem_append_left _ hm), fun r hr => h.requests r (List.mem_append_left _ hr),
    fun hv i hi => h.cancels hv i (List.mem_append_left _ hi)⟩

/-- C149, what holds: a client keeps the connections that work if any number of `drain`s may wait, or if no two calls are
ever in a `drain` on the same connection. (Missing: with room for one waiter, a second call that comes to a `drain` while the
connection is paused gives the connection up: `C149_exact_partial`, `C149_given_up`.) -/
theorem C149_kept_partial (c : FlowCfg) (v : PyVer) (evs : List AFEv) (h : FlowHealthy v evs)
    (hm : c.many = true ∨ OneWriter c v evs) : ConnectionsKept (afRun c v evs) := by
  have hno : ∀ pre post, evs = pre ++ post → ∀ i n, ¬ DrainRaises c (afRun c v pre) i n := by
    intro pre post he i n hr
    have hp : FlowHealthy v pre := (he ▸ h).prefix
    obtain ⟨h1, h2, f, h3, -, -, ⟨j, h4, h5⟩, -⟩ := hr.second (afRun_undisturbed c v pre hp.kept)
    rcases hm with hm | hm
    · rw [hm] at h2; cases h2
    · refine h4 (hm pre post he j i n ?_ h1)
      rw [inDrain_iff]
      exact (afRun_inv c v pre).wait n f j h3 h5
  obtain ⟨evs', h1, h2, h3⟩ := afRun_trace c v evs
  have hf : NoSendFails v evs' := ⟨h3 hno, fun r hr => h.requests r (h2.call r hr), fun hv i hi => h.cancels hv i (h2.cancel i hi)⟩
  unfold ConnectionsKept
  rw [h1]
  refine ⟨?_, ?_⟩
  · intro n k hk
    refine ⟨?_, (C61_one_connection v evs' hf).2.1 n k hk⟩
    have : ∀ evs, NoSendFails v evs → OnlyCancelled (fun _ => False) (arun v evs).conns := by
      intro evs hf
      induction evs using snoc_induct with
      | nil => intro m k hk; simp [arun] at hk
      | snoc evs e ih =>
        rw [arun_snoc]
        have last : e ∈ evs ++ [e] := List.mem_append_right _ (List.mem_singleton.2 rfl)
        refine astep_onlyCancelled v _ e (ih hf.prefix) (arun_dinv v evs hf.prefix).2 ?_ ?_
        · intro i he; exact hf.drains i (he ▸ last)
        · intro hv i he; exact hf.cancels hv i (he ▸ last)
    cases hc : k.cancelled with
    | false => rfl
    | true => exact (this evs' hf n k hk hc).elim
  · intro i
    have := one_write v evs' i (by
      intro e he
      cases e with
      | drained j ok =>
        cases ok with
        | true => rfl
        | false => exact absurd he (hf.drains j)
      | cancel j =>
        cases v with
        | upTo37 => exact absurd he (hf.cancels rfl j)
        | from38 => simp [resends]
      | _ => rfl)
    omega

/-- a call in a `drain` whose `drain` raises gives the connection up -/
theorem drained_false_conns (v : PyVer) (s : ASt) (i n : Nat) (h : InDrain s i n) :
    (astep v s (.drained i false)).conns = s.conns.modify n fun k => { k with cancelled := true } := by
  obtain ⟨call, h1, r, a, h2 | h2⟩ := h
  · simp only [astep, ASt.drained, h1, h2, Bool.false_eq_true, if_false]
    exact broken_conns ..
  · simp only [astep, ASt.drained, h1, h2, Bool.false_eq_true, if_false]
    exact broken_conns ..

theorem second_turn (c : FlowCfg) (v : PyVer) (s : AFSt) (i n k : Nat) (h : SecondWaiter c s i n) :
    (afStep c v s (.turn i k)).a = astep v s.a (.drained i false) := by
  obtain ⟨h1, h2, f, h3, h4, h5, ⟨j, -, hj⟩, h7, h8⟩ := h
  show (s.turn c v i k).a = _
  have e1 : s.a.calls[i]?.bind (fun call => call.pc.writesOn) = some n := by
    rw [pcOf_bind]; exact (inDrain_iff _ _ _).1 h1
  have e2 : f.woken.find? (fun w => w.1 == i) = none := by
    rw [List.find?_eq_none]
    intro w hw e
    exact h8 w hw (beq_iff_eq.1 e)
  have e3 : f.waiters.isEmpty = false := by
    cases hw : f.waiters with
    | nil => rw [hw] at hj; cases hj
    | cons x l => rfl
  unfold AFSt.turn
  rw [e1]
  dsimp only
  rw [h3]
  dsimp only
  rw [e2]
  dsimp only
  rw [if_neg h7, h4, if_neg (by decide), if_pos h5, h2, e3]
  rfl

/-- C149, exactly what gives up a connection that works: in a run in which nothing is wrong, an event cancels the reading
task of a connection if and only if it is a call coming to a `drain` there while another one waits and there is room for one
only. -/
theorem C149_exact_partial (c : FlowCfg) (v : PyVer) (evs : List AFEv) (e : AFEv) (h : FlowHealthy v (evs ++ [e])) (n : Nat)
    (k : AConn) (hk : (afRun c v evs).a.conns[n]? = some k) (hc : k.cancelled = false) :
    (∃ k', (afRun c v (evs ++ [e])).a.conns[n]? = some k' ∧ k'.cancelled = true) ↔
    ∃ i t, e = .turn i t ∧ SecondWaiter c (afRun c v evs) i n := by
  have hu := afRun_undisturbed c v evs h.prefix.kept
  have henc := afRun_encodable c v evs h.prefix.requests
  have last : e ∈ evs ++ [e] := List.mem_append_right _ (List.mem_singleton.2 rfl)
  rw [afRun_snoc]
  constructor
  · rintro ⟨k', h1, h2⟩
    have keep : OnlyCancelled (fun m => m ≠ n) (afRun c v evs).a.conns := by
      intro m x hx hc' e'
      rw [e', hk] at hx
      cases hx
      rw [hc] at hc'
      cases hc'
    have hs := step_sees c v (afRun c v evs) e
    generalize (afStep c v (afRun c v evs) e).a = x at hs h1
    cases hs with
    | nothing => exact absurd rfl (keep n k' h1 h2)
    | event e' hn =>
      refine absurd rfl (astep_onlyCancelled v _ e' keep henc (fun i => hn i false) ?_ n k' h1 h2)
      intro hv i he
      exact h.cancels hv i (he ▸ last)
    | drain i t m ok hr =>
      cases ok with
      | true => exact absurd rfl (astep_onlyCancelled v _ _ keep henc (fun i => by simp) (fun _ i => by simp) n k' h1 h2)
      | false =>
        have hr := (hr rfl).second hu
        rw [drained_false_conns v _ i m hr.1] at h1
        obtain ⟨y, y1, y2⟩ := getElem?_modify_cases _ _ _ _ _ h1
        rcases y2 with rfl | ⟨rfl, -⟩
        · exact absurd rfl (keep n k' y1 h2)
        · exact ⟨i, t, rfl, hr⟩
    | lost m x => exact absurd last (h.kept m x)
  · rintro ⟨i, t, rfl, hs⟩
    rw [second_turn c v _ i n t hs, drained_false_conns v _ i n hs.1]
    exact ⟨{ k with cancelled := true }, modify_self hk, rfl⟩

/-- C149, what it costs: from then on nothing that arrives on the connection is processed, whatever happens, so that the
calls waiting for a response on it get none. -/
theorem C149_given_up (c : FlowCfg) (v : PyVer) (evs post : List AFEv) (i t n : Nat) (k : AConn)
    (hk : (afRun c v evs).a.conns[n]? = some k) (hs : SecondWaiter c (afRun c v evs) i n) (p : Pkg) :
    ¬ Processes (afRun c v (evs ++ .turn i t :: post)).a n p := by
  have deaf : ∀ post, ∃ y, (afRun c v (evs ++ .turn i t :: post)).a.conns[n]? = some y ∧ y.deaf := by
    intro post
    induction post using snoc_induct with
    | nil =>
      rw [afRun_snoc, second_turn c v _ i n t hs, drained_false_conns v _ i n hs.1]
      exact ⟨_, modify_self hk, .inl rfl⟩
    | snoc post e ih =>
      obtain ⟨y, h1, h2⟩ := ih
      rw [show evs ++ AFEv.turn i t :: (post ++ [e]) = (evs ++ .turn i t :: post) ++ [e] by simp, afRun_snoc]
      have hs := step_sees c v (afRun c v (evs ++ .turn i t :: post)) e
      generalize (afStep c v (afRun c v (evs ++ .turn i t :: post)) e).a = x at hs
      cases hs with
      | nothing => exact ⟨y, h1, h2⟩
      | event e' _ => exact astep_deaf v _ e' h1 h2
      | drain j _ m ok _ => exact astep_deaf v _ _ h1 h2
      | lost m x => exact astep_deaf v _ _ h1 h2
  obtain ⟨y, h1, h2⟩ := deaf post
  exact deaf_silent h1 h2 p

/-- C149 with flow control is the client of C56-C65 with the ends of the `drain`s chosen by the flow control. -/
theorem C149_refines (c : FlowCfg) (v : PyVer) (evs : List AFEv) :
    ∃ evs', (afRun c v evs).a = arun v evs' ∧ (∀ req, .call req ∈ evs' → .ev (.call req) ∈ evs) ∧
      (∀ i, .cancel i ∈ evs' → .ev (.cancel i) ∈ evs) ∧ ∀ i a, .start i a ∈ evs' → .ev (.start i a) ∈ evs := by
  obtain ⟨evs', h1, h2, -⟩ := afRun_trace c v evs
  exact ⟨evs', h1, h2.call, h2.cancel, h2.start⟩

set_option maxRecDepth 20000 in
/-- C149 is violated, with room for one waiter, as in the asyncio of Python 3.5-3.7: a call that comes while another
one waits for the socket to take a large request gives the connection up, and dials another one.
(The limits are asyncio's divided by 1000; how many bytes it takes with the real ones is in `C139_default_violated`.) -/
theorem C149_violated : ¬ C149_full := by
  intro h
  have h := h ⟨65, 16, false⟩ .from38 (exCrowd 70 ++ [.turn 2 0]) (by decide) ⟨by simp [exCrowd], ?_, by simp⟩
  · obtain ⟨h, -⟩ := h
    have : ∀ k ∈ (afRun ⟨65, 16, false⟩ .from38 (exCrowd 70 ++ [.turn 2 0])).a.conns, k.cancelled = false := by
      intro k hk
      obtain ⟨n, hn⟩ := List.getElem?_of_mem hk
      exact (h n k hn).1
    revert this
    decide +kernel
  · intro req hr
    have : ∀ r ∈ [exAReq 1, exBigReq 2 70, exAReq 3], r.toStream.isOk = true := by decide +kernel
    have hm : req ∈ [exAReq 1, exBigReq 2 70, exAReq 3] := by
      simp [exCrowd] at hr
      rcases hr with rfl | rfl | rfl <;> simp
    have := this req hm
    cases hx : req.toStream with
    | ok bs => exact ⟨bs, rfl⟩
    | error e => rw [hx] at this; cases this

set_option maxRecDepth 20000 in
/-- the same: the response to call 0 arrives and is not read; with room for any number of waiters it is -/
example : let rest : List AFEv := [.turn 2 0, .ev (.data 0 (reply 1 0 [11])), .ev (.recv 0), .ev (.recv 0), .ev (.recv 0), .ev (.wake 0)]
    (afRun ⟨65, 16, false⟩ .from38 (exCrowd 70 ++ rest)).a.calls.map (·.pc) =
      [.waiting 0, .drain2 3 exAddr 0, .dialing 2 exAddr 1] ∧
    ((afRun ⟨65, 16, true⟩ .from38 (exCrowd 70 ++ rest)).a.calls.map fun call => match call.pc with
      | .done (.resp p) => some p.content
      | _ => none) = [some (.bytes [11]), none, none] ∧
    (afRun ⟨65, 16, true⟩ .from38 (exCrowd 70 ++ rest)).flows.map CFlow.waiters = [[1, 2]] := by
  decide +kernel

set_option maxRecDepth 20000 in
/-- call 2 comes when there is a waiter: the case of `C149_exact_partial` and `C149_given_up` -/
example : SecondWaiter ⟨65, 16, false⟩ (afRun ⟨65, 16, false⟩ .from38 (exCrowd 70)) 2 0 := by
  refine ⟨⟨_, rfl, 3, exAddr, .inl rfl⟩, rfl, _, rfl, ?_⟩
  exact ⟨by decide +kernel, by decide +kernel, ⟨1, by decide, by decide +kernel⟩, by decide +kernel, by decide +kernel⟩

set_option maxRecDepth 20000 in
/-- the case of `C149_kept_partial`: the calls one after the other, or any number of waiters, which the socket lets go on -/
example :
    FlowHealthy .from38 (exCrowd 70 ++ [.turn 2 0, .take 0 136, .turn 2 100, .turn 1 0, .turn 2 0]) ∧
    (afRun ⟨65, 16, true⟩ .from38 (exCrowd 70 ++ [.turn 2 0, .take 0 136, .turn 2 100, .turn 1 0, .turn 2 0])).a.calls.map (·.pc) =
      [.waiting 0, .waiting 1, .waiting 2] ∧
    (afRun ⟨65, 16, true⟩ .from38 (exCrowd 70 ++ [.turn 2 0, .take 0 136, .turn 2 100, .turn 1 0, .turn 2 0])).a.connMap =
      [(exAddr, 0)] := by
  refine ⟨⟨by simp [exCrowd], ?_, by simp⟩, by decide +kernel, by decide +kernel⟩
  intro req hr
  have hm : req = exAReq 1 ∨ req = exBigReq 2 70 ∨ req = exAReq 3 := by
    simpa [exCrowd] using hr
  have ok : ∀ r ∈ [exAReq 1, exBigReq 2 70, exAReq 3], r.toStream.isOk = true := by decide +kernel
  have := ok req (by rcases hm with rfl | rfl | rfl <;> simp)
  cases hx : req.toStream with
  | ok bs => exact ⟨bs, rfl⟩
  | error e => rw [hx] at this; cases this

/-- `OneWriter`: one call alone, on a connection with room for one waiter -/
example : OneWriter ⟨65, 16, false⟩ .from38 [.ev (.call (exBigReq 1 70)), .ev (.start 0 exAddr), .ev (.dialed 0 true), .turn 0 0, .turn 0 0] := by
  intro pre post he i j n hi hj
  have one : ∀ pre : List AFEv, (∃ post, [AFEv.ev (.call (exBigReq 1 70)), .ev (.start 0 exAddr), .ev (.dialed 0 true), .turn 0 0, .turn 0 0] = pre ++ post) →
      ∀ i n, InDrain (afRun ⟨65, 16, false⟩ .from38 pre).a i n → i = 0 := by
    rintro pre ⟨post, he⟩ i n ⟨call, h1, -⟩
    have hl : (afRun ⟨65, 16, false⟩ .from38 pre).a.calls.length ≤ 1 := by
      obtain ⟨evs', e1, e2⟩ := afRun_trace ⟨65, 16, false⟩ .from38 pre
      have : pre ∈ [[], [AFEv.ev (.call (exBigReq 1 70))], [AFEv.ev (.call (exBigReq 1 70)), .ev (.start 0 exAddr)],
          [AFEv.ev (.call (exBigReq 1 70)), .ev (.start 0 exAddr), .ev (.dialed 0 true)],
          [AFEv.ev (.call (exBigReq 1 70)), .ev (.start 0 exAddr), .ev (.dialed 0 true), .turn 0 0],
          [AFEv.ev (.call (exBigReq 1 70)), .ev (.start 0 exAddr), .ev (.dialed 0 true), .turn 0 0, .turn 0 0]] := by
        have : pre = [AFEv.ev (.call (exBigReq 1 70)), .ev (.start 0 exAddr), .ev (.dialed 0 true), .turn 0 0, .turn 0 0].take pre.length := by
          rw [he]; simp
        have hlen : pre.length ≤ 5 := by
          have := congrArg List.length he
          simp at this
          omega
        generalize pre.length = m at this hlen
        subst this
        rcases m with _ | _ | _ | _ | _ | _ | m <;> first | simp | omega
      revert this
      generalize pre = pre
      revert pre
      decide +kernel
    have := (List.getElem?_eq_some_iff.1 h1).1
    omega
  rw [one pre ⟨post, he⟩ i n hi, one pre ⟨post, he⟩ j n hj]

end Bolt
