import Verif.Lemmas.Joint
import Verif.Props.AioDial
/-!
# C120: calls of a system in which nothing is left to do
-/
namespace Bolt
open Spec

/-! ## What a call that waits has written -/

theorem modify_closed {l : List AConn} {n m : Nat} {f : AConn → AConn} (h : ∀ k : AConn, k.closed = true → (f k).closed = true)
    {x : AConn} (hx : l[m]? = some x) : ∃ y, (l.modify n f)[m]? = some y ∧ (x.closed = true → y.closed = true) := by
  by_cases e : n = m
  · subst e
    exact ⟨_, modify_self hx, h x⟩
  · exact ⟨x, by rw [modify_other e]; exact hx, id⟩

theorem recv_closed (s : ASt) (n : Nat) {x : AConn} (hx : s.conns[n]? = some x) : ∃ y, (s.recv n).conns[n]? = some y ∧
    (x.closed = true → y.closed = true) := by
  have key : ∀ k' : AConn, (x.closed = true → k'.closed = true) →
      ∃ y, (s.conns.set n k')[n]? = some y ∧ (x.closed = true → y.closed = true) := by
    intro k' h1
    exact ⟨k', by rw [List.getElem?_set, if_pos rfl, if_pos (List.getElem?_eq_some_iff.1 hx).1], h1⟩
  unfold ASt.recv
  rw [hx]
  dsimp only
  split
  · exact ⟨x, hx, id⟩
  · split <;> exact key _ id
  · split
    · exact key _ fun _ => rfl
    · split
      · split <;> exact key _ id
      · split
        · exact key _ fun _ => rfl
        · exact ⟨x, hx, id⟩
  · split
    · exact key _ fun _ => rfl
    · split
      · exact key _ fun _ => rfl
      · split
        · split
          · exact key _ id
          · rw [onPkg_conns]; exact key _ id
        · split
          · exact key _ fun _ => rfl
          · exact ⟨x, hx, id⟩

/-- a closed connection stays closed -/
theorem astep_closed (v : PyVer) (s : ASt) (e : AEv) {m : Nat} {x : AConn} (hx : s.conns[m]? = some x) :
    ∃ y, (astep v s e).conns[m]? = some y ∧ (x.closed = true → y.closed = true) := by
  have brk : ∀ i c r a n, ∃ y, (s.broken i c r a n).conns[m]? = some y ∧ (x.closed = true → y.closed = true) := by
    intro i c r a n
    rw [broken_conns]
    exact modify_closed (fun _ h => by exact h) hx
  have same : ∃ y, s.conns[m]? = some y ∧ (x.closed = true → y.closed = true) := ⟨x, hx, id⟩
  cases e with
  | call req => exact same
  | start i addr =>
    simp only [astep, ASt.start]
    split
    · split
      · rw [send_conns]; exact same
      · exact same
    · exact same
  | lock i =>
    simp only [astep, ASt.lockTurn]
    split
    · split
      · split
        · split <;> exact same
        · exact same
      · exact same
    · exact same
  | dialed i ok =>
    simp only [astep, ASt.dialed]
    split
    · split
      · next r a l hp =>
        split
        · have : (s.conns ++ [({ addr := a } : AConn)])[m]? = some x := by
            rw [List.getElem?_append_left (List.getElem?_eq_some_iff.1 hx).1]
            exact hx
          split <;> exact ⟨x, this, id⟩
        · rw [sendFailed_conns]; exact same
      · exact same
    · exact same
  | drained i ok =>
    simp only [astep, ASt.drained]
    split
    · split
      · split
        · split
          · exact brk ..
          · refine modify_closed (l := s.conns) ?_ hx
            exact fun k => id
        · exact brk ..
      · split
        · split
          · exact same
          · split <;> exact same
        · exact brk ..
      · exact same
    · exact same
  | wake i =>
    simp only [astep, ASt.wake]
    split
    · split
      · split
        · split <;> exact same
        · exact same
      · exact same
    · exact same
  | cancel i =>
    simp only [astep, ASt.cancel]
    split
    · split
      · exact same
      · split
        · rw [sendFailed_conns]; exact same
        · exact same
      · split
        · rw [sendFailed_conns]; exact same
        · exact same
      · split
        · exact brk ..
        · exact same
      · split
        · exact brk ..
        · exact same
      · exact same
      · exact same
    · exact same
  | recv n =>
    by_cases e : n = m
    · subst e
      exact recv_closed s n hx
    · exact ⟨x, by rw [← hx]; exact recv_other s e, id⟩
  | data n bs =>
    refine modify_closed (l := s.conns) ?_ hx
    intro k
    split <;> exact id
  | eof n => exact modify_closed (l := s.conns) (fun _ h => by exact h) hx
  | reset n => exact modify_closed (l := s.conns) (fun _ h => by exact h) hx

/-! ### the connections that calls hold exist -/

structure CnInv (cm : PyDict Addr Nat) (len : Nat) (pcs : List CallPc) : Prop where
  map : ∀ p ∈ cm, p.2 < len
  pcs : ∀ (i r : Nat) (a : Addr) (n : Nat), pcs[i]? = some (.drain1 r a n) → n < len

def ASt.CnInv (s : ASt) : Prop := Bolt.CnInv s.connMap s.conns.length s.dv.pcs

theorem setPc_cn {s : ASt} (h : s.CnInv) (i : Nat) {pc : CallPc} (hp : ∀ r a n, pc = .drain1 r a n → n < s.conns.length) :
    (s.setPc i pc).CnInv := by
  unfold ASt.CnInv
  rw [dv_setPc]
  refine ⟨h.map, ?_⟩
  intro j r a n hj
  rcases set_cases hj with ⟨-, e⟩ | ⟨-, hj⟩
  · exact hp r a n e.symm
  · exact h.pcs j r a n hj

theorem sendFailed_cn {s : ASt} (h : s.CnInv) (i : Nat) (d : ACall) : (s.sendFailed i d).CnInv := by
  unfold ASt.sendFailed
  split
  · exact setPc_cn (s := { s with reqs := PyDict.erase s.reqs d.req.requestId }) h i (by intro _ _ _ e; cases e)
  · exact setPc_cn h i (by intro _ _ _ e; cases e)

theorem send_cn {s : ASt} (h : s.CnInv) (i : Nat) (d : ACall) (r : Nat) (a : Addr) : (s.send i d r a).CnInv := by
  unfold ASt.send
  split
  · exact sendFailed_cn h i d
  · split
    · next n hn =>
      refine setPc_cn h i ?_
      intro _ _ _ e
      cases e
      exact h.map (a, n) (PyDict.get?_mem hn)
    · split
      · next l hl =>
        split
        · exact setPc_cn (s := s.setLock l true) h i (by intro _ _ _ e; cases e)
        · exact setPc_cn h i (by intro _ _ _ e; cases e)
      · exact setPc_cn (s := { s with dialMap := PyDict.set s.dialMap a s.locks.length, locks := s.locks ++ [true] }) h i
          (by intro _ _ _ e; cases e)

theorem broken_cn {s : ASt} (h : s.CnInv) (i : Nat) (d : ACall) (r : Nat) (a : Addr) (n : Nat) : (s.broken i d r a n).CnInv := by
  have hc : ({ s with conns := s.conns.modify n fun k => { k with cancelled := true } } : ASt).CnInv := by
    unfold ASt.CnInv at *
    dsimp only
    rw [List.length_modify]
    exact h
  have he : ({ s with conns := s.conns.modify n fun k => { k with cancelled := true }, connMap := PyDict.erase s.connMap a } : ASt).CnInv :=
    ⟨fun p hp => hc.map p (mem_of_mem_erase hp), hc.pcs⟩
  unfold ASt.broken
  dsimp only
  split
  · split
    · exact send_cn (s := { s with conns := s.conns.modify n fun k => { k with cancelled := true }, connMap := PyDict.erase s.connMap a, dialMap := PyDict.erase s.dialMap a }) he i d _ _
    · exact sendFailed_cn he i d
  · exact sendFailed_cn hc i d

theorem cn_same {s s' : ASt} (h : s.CnInv) (e : s'.dv = s.dv) : s'.CnInv := by
  have e1 : s'.connMap = s.connMap := congrArg DV.connMap e
  have e2 : s'.conns.length = s.conns.length := by
    have := congrArg (fun d => d.addrs.length) e
    simpa [ASt.dv] using this
  unfold ASt.CnInv
  rw [e1, e2, e]
  exact h

theorem astep_cn (v : PyVer) (s : ASt) (e : AEv) (h : s.CnInv) : (astep v s e).CnInv := by
  cases e with
  | call req =>
    have e : (astep v s (.call req)).dv.pcs = s.dv.pcs ++ [.new] := List.map_append
    unfold ASt.CnInv
    rw [e]
    refine ⟨h.map, ?_⟩
    intro i r a n hi
    rw [List.getElem?_append] at hi
    split at hi
    · exact h.pcs i r a n hi
    · have := List.mem_of_getElem? hi
      simp at this
  | start i a =>
    simp only [astep, ASt.start]
    split
    · next c hc =>
      split
      · exact send_cn (s := { s with reqs := PyDict.set s.reqs c.req.requestId i }) h i c 3 a
      · exact h
    · exact h
  | lock i =>
    simp only [astep, ASt.lockTurn]
    split
    · split
      · next r a l hp =>
        split
        · split
          · next n hn =>
            refine setPc_cn h i ?_
            intro _ _ _ e
            cases e
            exact h.map (a, n) (PyDict.get?_mem hn)
          · exact setPc_cn (s := s.setLock l true) h i (by intro _ _ _ e; cases e)
        · exact h
      · exact h
    · exact h
  | dialed i ok =>
    simp only [astep, ASt.dialed]
    split
    · next c hc =>
      split
      · next r a l hp =>
        split
        · have hl : ∀ x, x < s.conns.length → x < (s.conns ++ [({ addr := a } : AConn)]).length := by
            intro x hx
            rw [List.length_append]
            exact Nat.lt_add_right _ hx
          have h1 : ({ s.setLock l false with conns := s.conns ++ [({ addr := a } : AConn)] } : ASt).CnInv :=
            ⟨fun p hp => hl _ (h.map p hp), fun j r' a' n hj => hl _ (h.pcs j r' a' n hj)⟩
          split
          · next m hm =>
            refine setPc_cn h1 i ?_
            intro _ _ _ e
            cases e
            exact h1.map (a, m) (PyDict.get?_mem hm)
          · have hlt : s.conns.length < (s.conns ++ [({ addr := a } : AConn)]).length := by simp
            refine setPc_cn (s := { s.setLock l false with conns := s.conns ++ [({ addr := a } : AConn)], connMap := PyDict.set s.connMap a s.conns.length }) ?_ i ?_
            · refine ⟨?_, h1.pcs⟩
              intro p hp
              rcases mem_of_mem_set hp with hp | rfl
              · exact h1.map p hp
              · exact hlt
            · intro _ _ _ e
              cases e
              exact hlt
        · exact sendFailed_cn (s := s.setLock l false) h i c
      · exact h
    · exact h
  | drained i ok =>
    simp only [astep, ASt.drained]
    split
    · next c hc =>
      split
      · next r a n hp =>
        split
        · split
          · exact broken_cn h ..
          · next bs hb =>
            refine setPc_cn (s := { s with
              conns := s.conns.modify n fun k => { k with sent := k.sent ++ [(i, bs)] }
              writes := s.writes ++ [(i, n)] }) ?_ i (by intro _ _ _ e; cases e)
            unfold ASt.CnInv at *
            dsimp only
            rw [List.length_modify]
            exact h
        · exact broken_cn h ..
      · next r a n hp =>
        split
        · split
          · exact setPc_cn h i (by intro _ _ _ e; cases e)
          · split
            · exact setPc_cn (s := { s with reqs := PyDict.erase s.reqs c.req.requestId }) h i (by intro _ _ _ e; cases e)
            · exact setPc_cn h i (by intro _ _ _ e; cases e)
        · exact broken_cn h ..
      · exact h
    · exact h
  | wake i =>
    simp only [astep, ASt.wake]
    split
    · next c hc =>
      split
      · split
        · split
          · exact setPc_cn (s := { s with resps := PyDict.erase s.resps c.req.requestId }) h i (by intro _ _ _ e; cases e)
          · exact setPc_cn h i (by intro _ _ _ e; cases e)
        · exact h
      · exact h
    · exact h
  | cancel i =>
    simp only [astep, ASt.cancel]
    split
    · next c hc =>
      split
      · exact setPc_cn h i (by intro _ _ _ e; cases e)
      · split
        · exact sendFailed_cn h ..
        · exact setPc_cn h i (by intro _ _ _ e; cases e)
      · next l hp =>
        split
        · exact sendFailed_cn (s := s.setLock l false) h ..
        · exact setPc_cn (s := s.setLock l false) h i (by intro _ _ _ e; cases e)
      · split
        · exact broken_cn h ..
        · exact setPc_cn h i (by intro _ _ _ e; cases e)
      · split
        · exact broken_cn h ..
        · exact setPc_cn h i (by intro _ _ _ e; cases e)
      · exact setPc_cn h i (by intro _ _ _ e; cases e)
      · exact h
    · exact h
  | recv n => exact cn_same h (recv_dv s n)
  | data n bs =>
    refine cn_same h (dv_conns (modify_fixed _ _ _ ?_))
    intro k
    split <;> rfl
  | eof n => exact cn_same h (dv_conns (modify_fixed _ _ _ fun _ => rfl))
  | reset n => exact cn_same h (dv_conns (modify_fixed _ _ _ fun _ => rfl))

theorem arun_cn (v : PyVer) (evs : List AEv) : (arun v evs).CnInv := by
  induction evs using snoc_induct with
  | nil =>
    refine ⟨?_, ?_⟩
    · intro p hp; cases hp
    · intro i r a n hi; cases hi
  | snoc evs e ih => rw [arun_snoc]; exact astep_cn v _ e ih

theorem arun_drain_conn (v : PyVer) (evs : List AEv) {i r n : Nat} {a : Addr} {c : ACall} (hc : (arun v evs).calls[i]? = some c)
    (hp : c.pc = .drain1 r a n) : ∃ k, (arun v evs).conns[n]? = some k := by
  have := (arun_cn v evs).pcs i r a n (by rw [← hp]; exact pcs_get hc)
  exact ⟨_, List.getElem?_eq_getElem this⟩

/-- the last write of call `i` was on connection `n`, and its bytes are there -/
def Put (s : ASt) (i n : Nat) : Prop :=
  lastConn s i = some n ∧ ∃ k : AConn, s.conns[n]? = some k ∧ ∃ bs, (i, bs) ∈ k.sent

theorem Put.step {v : PyVer} {s : ASt} {e : AEv} {i n : Nat} (h : Put s i n)
    (hw : lastConn (astep v s e) i = lastConn s i) : Put (astep v s e) i n := by
  obtain ⟨h1, k, hk, bs, h2⟩ := h
  refine ⟨hw.trans h1, ?_⟩
  obtain ⟨y, hy, -⟩ := astep_closed v s e hk
  refine ⟨y, hy, ?_⟩
  rcases astep_sent v s e n y hy with ⟨k0, h3, h4⟩ | ⟨h3, -⟩
  · rw [hk] at h3
    cases h3
    exact ⟨bs, h4.subset h2⟩
  · rw [hk] at h3; cases h3

/-- the calls that have written -/
structure PutInv (s : ASt) : Prop where
  drain : ∀ (i : Nat) (c : ACall) (r : Nat) (a : Addr) (n : Nat), s.calls[i]? = some c → c.pc = .drain2 r a n → Put s i n
  wait : ∀ (i : Nat) (c : ACall) (ev : Nat), s.calls[i]? = some c → c.pc = .waiting ev → ∃ n, Put s i n

/-- past the first write and not ended -/
def CallPc.wrote : CallPc → Bool
  | .drain2 .. | .waiting _ => true
  | _ => false

theorem not_wrote {pc : CallPc} (h : pc.before = true) : pc.wrote = false := by
  cases pc <;> first | rfl | cases h

/-- How a call comes to be past the first write: it was there, it writes, or its second `drain` ends. -/
theorem wrote_from (v : PyVer) (s : ASt) (e : AEv) {i : Nat} {c c' : ACall} (hc : s.calls[i]? = some c)
    (hc' : (astep v s e).calls[i]? = some c') (ha : e.actor = some i) (hw : c'.pc.wrote = true) :
    (astep v s e = s) ∨
    (∃ r a n bs, c.pc = .drain1 r a n ∧ c'.pc = .drain2 r a n ∧ (astep v s e).writes = s.writes ++ [(i, n)] ∧
      (astep v s e).conns = s.conns.modify n fun k => { k with sent := k.sent ++ [(i, bs)] }) ∨
    (∃ r a n ev, c.pc = .drain2 r a n ∧ c'.pc = .waiting ev ∧ (astep v s e).writes = s.writes) := by
  have bef : ∀ x : ASt, (∃ c'', x.calls[i]? = some c'' ∧ c''.pc.before = true) → x.calls[i]? = some c' → False := by
    rintro x ⟨c'', h1, h2⟩ h3
    rw [h1] at h3
    cases h3
    rw [not_wrote h2] at hw
    cases hw
  cases e with
  | call req => cases ha
  | recv n => cases ha
  | data n bs => cases ha
  | eof n => cases ha
  | reset n => cases ha
  | start j addr =>
    cases ha
    simp only [astep, ASt.start, hc] at hc' ⊢
    split at hc'
    · exact (bef _ (send_before (s := { s with reqs := PyDict.set s.reqs c.req.requestId i }) hc _ _) hc').elim
    · exact .inl rfl
  | lock j =>
    cases ha
    simp only [astep, ASt.lockTurn, hc] at hc' ⊢
    split at hc'
    · split at hc'
      · next hl =>
        split at hc'
        · exact (bef _ ⟨_, modify_self hc, rfl⟩ hc').elim
        · exact (bef _ ⟨_, modify_self (l := s.calls) hc, rfl⟩ hc').elim
      · next hl => left; rw [if_neg hl]
    · exact .inl rfl
  | dialed j ok =>
    cases ha
    simp only [astep, ASt.dialed, hc] at hc' ⊢
    split at hc'
    · next r a l hp =>
      exfalso
      split at hc'
      · split at hc'
        · exact bef _ ⟨_, modify_self (l := s.calls) hc, rfl⟩ hc'
        · exact bef _ ⟨_, modify_self (l := s.calls) hc, rfl⟩ hc'
      · exact bef _ (sendFailed_before (s := s.setLock l false) hc) hc'
    · exact .inl rfl
  | drained j ok =>
    cases ha
    simp only [astep, ASt.drained, hc] at hc' ⊢
    split at hc'
    · next r a n hp =>
      split at hc'
      · next hok =>
        split at hc'
        · exact (bef _ (broken_before hc _ _ _) hc').elim
        · next bs hbs =>
          right; left
          refine ⟨r, a, n, bs, hp, ?_, ?_, ?_⟩
          · have := modify_self (l := s.calls) hc (f := fun c => { c with pc := .drain2 r a n })
            rw [show (s.calls.modify i fun c => { c with pc := .drain2 r a n })[i]? = some c' from hc'] at this
            cases this
            rfl
          · rw [if_pos hok]; rfl
          · rw [if_pos hok]; rfl
      · exact (bef _ (broken_before hc _ _ _) hc').elim
    · next r a n hp =>
      split at hc'
      · next hok =>
        split at hc'
        · exact (bef _ ⟨_, modify_self hc, rfl⟩ hc').elim
        · next ev hev =>
          split at hc'
          · exact (bef _ ⟨_, modify_self (l := s.calls) hc, rfl⟩ hc').elim
          · next hpt =>
            right; right
            refine ⟨r, a, n, ev, hp, ?_, ?_⟩
            · have := modify_self (l := s.calls) hc (f := fun c => { c with pc := .waiting ev })
              rw [show (s.calls.modify i fun c => { c with pc := .waiting ev })[i]? = some c' from hc'] at this
              cases this
              rfl
            · rw [if_pos hok, if_neg hpt]; rfl
      · exact (bef _ (broken_before hc _ _ _) hc').elim
    · exact .inl rfl
  | wake j =>
    cases ha
    simp only [astep, ASt.wake, hc] at hc' ⊢
    have don : ∀ (x : ASt) (r : CallRes), x.calls[i]? = some { c with pc := .done r } → x.calls[i]? = some c' → False := by
      intro x r h1 h3
      rw [h1] at h3
      cases h3
      cases hw
    split at hc'
    · split at hc'
      · next hset =>
        split at hc'
        · exact (don _ _ (modify_self (l := s.calls) hc) hc').elim
        · exact (don _ _ (modify_self (l := s.calls) hc) hc').elim
      · next hset => left; rw [if_neg hset]
    · exact .inl rfl
  | cancel j =>
    cases ha
    simp only [astep, ASt.cancel, hc] at hc' ⊢
    split at hc'
    · exact (bef _ ⟨_, modify_self hc, rfl⟩ hc').elim
    · exfalso
      split at hc'
      · exact bef _ (sendFailed_before hc) hc'
      · exact bef _ ⟨_, modify_self hc, rfl⟩ hc'
    · exfalso
      split at hc'
      · exact bef _ (sendFailed_before (s := s.setLock _ false) hc) hc'
      · exact bef _ ⟨_, modify_self (l := s.calls) hc, rfl⟩ hc'
    · exfalso
      split at hc'
      · exact bef _ (broken_before hc _ _ _) hc'
      · exact bef _ ⟨_, modify_self hc, rfl⟩ hc'
    · exfalso
      split at hc'
      · exact bef _ (broken_before hc _ _ _) hc'
      · exact bef _ ⟨_, modify_self hc, rfl⟩ hc'
    · exact (bef _ ⟨_, modify_self hc, rfl⟩ hc').elim
    · exact .inl rfl

theorem lastConn_snoc {s s' : ASt} {j n : Nat} (h : s'.writes = s.writes ++ [(j, n)]) (i : Nat) :
    lastConn s' i = if j = i then some n else lastConn s i := by
  unfold lastConn
  rw [h, List.filter_append]
  by_cases e : j = i
  · subst e
    simp
  · simp [e]

theorem lastConn_same {s s' : ASt} (h : s'.writes = s.writes) (i : Nat) : lastConn s' i = lastConn s i := by
  unfold lastConn
  rw [h]

/-- an event of another call does not change the last write of a call -/
theorem lastConn_other (v : PyVer) (evs : List AEv) (e : AEv) (i : Nat) (ha : e.actor ≠ some i) :
    lastConn (astep v (arun v evs) e) i = lastConn (arun v evs) i := by
  cases hx : e.actor with
  | none => exact lastConn_same (passive_writes v _ e hx) i
  | some j =>
    have hne : j ≠ i := fun h => ha (by rw [hx, h])
    cases hj : (arun v evs).calls[j]? with
    | none => rw [astep_nobody v _ e hx hj]
    | some d =>
      rcases actor_budget v _ e hj ((arun_winv v evs).calls j d hj).2 hx with h | ⟨n, c', h, -⟩
      · exact lastConn_same h.1 i
      · rw [lastConn_snoc h, if_neg hne]

theorem arun_put (v : PyVer) (evs : List AEv) : PutInv (arun v evs) := by
  induction evs using snoc_induct with
  | nil => exact ⟨(by intro i c r a n h; cases h), (by intro i c ev h; cases h)⟩
  | snoc evs e ih =>
    rw [arun_snoc]
    have hal := arun_aligned v evs
    -- what a call past its write was before
    have old : ∀ (i : Nat) (c' : ACall), (astep v (arun v evs) e).calls[i]? = some c' → c'.pc.wrote = true →
        ∃ c, (arun v evs).calls[i]? = some c := by
      intro i c' hc' hw
      cases h0 : (arun v evs).calls[i]? with
      | some c => exact ⟨c, rfl⟩
      | none =>
        obtain ⟨req, -, rfl⟩ := astep_new v _ e hal h0 hc'
        cases hw
    have stay : ∀ (i : Nat) (c c' : ACall), (arun v evs).calls[i]? = some c → e.actor ≠ some i →
        (astep v (arun v evs) e).calls[i]? = some c' → c'.pc = c.pc := by
      intro i c c' hc ha hc'
      obtain ⟨d, h1, h2, -⟩ := astep_keeps v (arun v evs) e i ha c hc
      rw [h1] at hc'
      cases hc'
      exact h2
    refine ⟨?_, ?_⟩
    · intro i c' r a n hc' hp
      obtain ⟨c, hc⟩ := old i c' hc' (by rw [hp]; rfl)
      by_cases ha : e.actor = some i
      · rcases wrote_from v _ e hc hc' ha (by rw [hp]; rfl) with h | ⟨r', a', n', bs, h1, h2, h3, h4⟩ | ⟨r', a', n', ev, h1, h2, h3⟩
        · rw [h] at hc' ⊢
          exact ih.drain i c' r a n hc' hp
        · rw [hp] at h2
          cases h2
          refine ⟨by rw [lastConn_snoc h3, if_pos rfl], ?_⟩
          obtain ⟨k, hk⟩ : ∃ k, (arun v evs).conns[n]? = some k := by
            have := arun_drain_conn v evs hc h1
            exact this
          rw [h4]
          exact ⟨_, modify_self hk, bs, by simp⟩
        · rw [hp] at h2; cases h2
      · have := stay i c c' hc ha hc'
        exact (ih.drain i c r a n hc (by rw [← this, hp])).step (lastConn_other v evs e i ha)
    · intro i c' ev hc' hp
      obtain ⟨c, hc⟩ := old i c' hc' (by rw [hp]; rfl)
      by_cases ha : e.actor = some i
      · rcases wrote_from v _ e hc hc' ha (by rw [hp]; rfl) with h | ⟨r', a', n', bs, h1, h2, h3, h4⟩ | ⟨r', a', n', ev', h1, h2, h3⟩
        · rw [h] at hc' ⊢
          exact ih.wait i c' ev hc' hp
        · rw [hp] at h2; cases h2
        · exact ⟨n', (ih.drain i c r' a' n' hc h1).step (lastConn_same h3 i)⟩
      · have := stay i c c' hc ha hc'
        obtain ⟨n, hn⟩ := ih.wait i c ev hc (by rw [← this, hp])
        exact ⟨n, hn.step (lastConn_other v evs e i ha)⟩

/-- a call with bytes on a connection has started -/
theorem sent_started (v : PyVer) (evs : List AEv) {n i : Nat} {k : AConn} {bs : Bytes} {c : ACall}
    (hk : (arun v evs).conns[n]? = some k) (hb : (i, bs) ∈ k.sent) (hc : (arun v evs).calls[i]? = some c) : c.pc ≠ .new := by
  intro hp
  have h1 := ((arun_winv v evs).calls i c hc).1
  rw [hp] at h1
  have h2 := (arun_sent v evs).1 i
  have h3 : 0 < sentOf (arun v evs) i := by
    unfold sentOf
    rw [List.countP_pos_iff]
    exact ⟨(i, bs), List.mem_flatMap.2 ⟨k, List.mem_of_getElem? hk, hb⟩, by simp⟩
  simp only [CallPc.budget] at h1
  omega

/-! ## The frames of a connection, one for each write -/

theorem sent_frames' (s : ASt) (hreq : ∀ c ∈ s.calls, AioMade c.req) : ∀ l : List (Nat × Bytes),
    (∀ i bs, (i, bs) ∈ l → ∃ c : ACall, s.calls[i]? = some c ∧ c.req.toStream = .ok bs) →
    ∃ qs : List AnyFrame, framesBytes qs = (l.map Prod.snd).flatten ∧
      (∀ q ∈ qs, ∃ (i : Nat) (bs : Bytes) (c : ACall), (i, bs) ∈ l ∧ s.calls[i]? = some c ∧ FrameOf c.req q) ∧
      ∀ i bs, (i, bs) ∈ l → ∃ (c : ACall), s.calls[i]? = some c ∧ ∃ q ∈ qs, FrameOf c.req q := by
  intro l
  induction l with
  | nil => intro _; exact ⟨[], rfl, by simp, by simp⟩
  | cons x l ih =>
    intro h
    obtain ⟨i, bs⟩ := x
    obtain ⟨qs, h1, h2, h3⟩ := ih (fun i' bs' hm => h i' bs' (List.mem_cons_of_mem _ hm))
    obtain ⟨c, hc, hs⟩ := h i bs (by simp)
    obtain ⟨q, hq, hqb⟩ := aioMade_frame (hreq c (List.mem_of_getElem? hc)) hs
    refine ⟨q :: qs, ?_, ?_, ?_⟩
    · unfold framesBytes at *
      rw [List.map_cons, List.flatten_cons, h1, List.map_cons, List.flatten_cons, hqb]
    · intro q' hm
      rcases List.mem_cons.1 hm with rfl | hm
      · exact ⟨i, bs, c, by simp, hc, hq⟩
      · obtain ⟨i', bs', c', h4, h5, h6⟩ := h2 q' hm
        exact ⟨i', bs', c', List.mem_cons_of_mem _ h4, h5, h6⟩
    · intro i' bs' hm
      rcases List.mem_cons.1 hm with e | hm
      · cases e
        exact ⟨c, hc, q, by simp, hq⟩
      · obtain ⟨c', h4, q', h5, h6⟩ := h3 i' bs' hm
        exact ⟨c', h4, q', by simp [h5], h6⟩

/-! ## What is processed was asked for -/

theorem mem_packages {us : List Bytes} {p : Pkg} (h : p ∈ packages us) : ∃ u ∈ us, fromStream .boltResponse u = .ok p := by
  unfold packages at h
  rw [List.mem_filterMap] at h
  obtain ⟨u, hu, hp⟩ := h
  refine ⟨u, hu, ?_⟩
  cases hx : fromStream .boltResponse u with
  | error e => rw [hx] at hp; cases hp
  | ok q => rw [hx] at hp; cases hp; rfl

/-- the packages found in a beginning of what a listener wrote are in messages of the listener -/
theorem package_message {svc : Services} {reg : Registry} {levs : List LEv} {bs : Bytes} {us : List Bytes} {rest : Bytes}
    (hp : bs <+: (lrun svc reg levs).wire) (hc : Cut bs us rest) {p : Pkg} (hm : p ∈ packages us) :
    ∃ o m, (o, m) ∈ (lrun svc reg levs).out ∧ fromStream .boltResponse m = .ok p := by
  obtain ⟨u, hu, hd⟩ := mem_packages hm
  obtain ⟨us', rest', hc'⟩ := cut_exists (lrun svc reg levs).wire
  have hpre : us <+: us' := by
    obtain ⟨more, he⟩ := hp
    refine cut_prefix us us' (rest ++ more) rest' hc.1 ?_
    rw [← List.append_assoc, ← hc.2.1, he]
    exact hc'
  have hall : (lrun svc reg levs).out.map Prod.snd = us' ∧ rest' = [] := by
    have hu := out_units svc reg levs
    have : Cut (lrun svc reg levs).wire ((lrun svc reg levs).out.map Prod.snd) [] := by
      refine ⟨hu, by rw [List.append_nil]; rfl, ?_⟩
      intro u t e hru
      have := hru.1
      rw [List.nil_eq_append_iff] at e
      rw [e.1] at this
      simp at this
    obtain ⟨e1, e2⟩ := cut_unique this hc'
    exact ⟨e1, e2.symm⟩
  have : u ∈ (lrun svc reg levs).out.map Prod.snd := by rw [hall.1]; exact hpre.subset hu
  obtain ⟨⟨o, m⟩, hom, e⟩ := List.mem_map.1 this
  have e : m = u := e
  subst e
  exact ⟨o, m, hom, hd⟩

/-- What the reading task processes in a system answers a call that has started. -/
theorem processed_asked (v : PyVer) (svc : Nat → Services) (reg : Nat → Registry) (es : List SysEv)
    (hreq : ∀ c ∈ (arun v (sysRun v svc reg es).aevs).calls, AioMade c.req) (n : Nat) (p : Pkg)
    (hp : Processes (arun v (sysRun v svc reg es).aevs) n p) :
    ∃ (i : Nat) (c : ACall), (arun v (sysRun v svc reg es).aevs).calls[i]? = some c ∧ c.req.requestId = p.requestId ∧ c.pc ≠ .new := by
  have hok := SysOk.run v svc reg es
  generalize sysRun v svc reg es = y at *
  have hj := hok.joined
  obtain ⟨k, hk⟩ : ∃ k, (arun v y.aevs).conns[n]? = some k := by
    obtain ⟨k, _, _, hk, _⟩ := hp
    exact ⟨k, hk⟩
  -- it is in the stream
  obtain ⟨ps, hl⟩ := log_exists v n y.aevs
  have hl' := Log.pkg hl hp
  obtain ⟨k', hk', hgot⟩ := arun_got (pre := k.recvd) v y.aevs [.recv n] hk (List.prefix_refl _)
  have hrec : k'.recvd = k.recvd := by
    have h1 : (arun v (y.aevs ++ [.recv n])).conns.map AConn.recvd = (arun v y.aevs).conns.map AConn.recvd := by
      rw [arun_snoc]
      exact recv_recvd _ n
    have h2 := congrArg (·[n]?) h1
    simp only [List.getElem?_map, hk, hk', Option.map_some, Option.some.injEq] at h2
    exact h2
  obtain ⟨ps', us, rest, hlog, huniq, hcut, -, hpre, -⟩ := C98_frames v n _ k' hk'
  have hmem : p ∈ packages us := by
    rw [← huniq _ hl'] at hpre
    exact hpre.subset (by simp)
  rw [hrec] at hcut
  obtain ⟨o, m, hm, hd⟩ := package_message (hj.back n k hk) hcut hmem
  -- its message answers a request in the stream
  obtain ⟨a, ha, id, hid, hidok, hans⟩ := out_answers (LInv.run _ _ _) hm
  obtain ⟨p', hd', hpid, -⟩ := answers_decodes hidok hans
  rw [hd] at hd'
  cases hd'
  have hh := acts_headers _ _ _ a ha id hid
  -- which was written by a call
  obtain ⟨qs, hqs, hq, -⟩ := sent_frames' (arun v y.aevs) hreq k.sent
    (fun i bs hm => (C60_on_the_wire v y.aevs i).2 k (List.mem_of_getElem? hk) bs hm)
  have hthere := hj.there n k hk
  rw [← hqs] at hthere
  obtain ⟨q, hqm, hqid⟩ := headerAt_frames (fun q hm => by obtain ⟨_, _, _, _, _, h⟩ := hq q hm; exact h.ok) hthere hh
  obtain ⟨i, bs, c, hin, hc, hfr⟩ := hq q hqm
  exact ⟨i, c, hc, by rw [hfr.id, hqid, hpid], sent_started v y.aevs hk hin hc⟩

theorem log_split {v : PyVer} {n : Nat} {evs : List AEv} {ps : List Pkg} (h : Log v n evs ps) {p : Pkg} (hp : p ∈ ps) :
    ∃ pre post, evs = pre ++ .recv n :: post ∧ Processes (arun v pre) n p := by
  induction h with
  | nil => cases hp
  | @pkg evs ps q h1 h2 ih =>
    rcases List.mem_append.1 hp with hp | hp
    · obtain ⟨pre, post, rfl, h3⟩ := ih hp
      exact ⟨pre, post ++ [.recv n], by simp, h3⟩
    · cases List.mem_singleton.1 hp
      exact ⟨evs, [], rfl, h2⟩
  | @other evs ps e h1 h2 ih =>
    obtain ⟨pre, post, rfl, h3⟩ := ih hp
    exact ⟨pre, post ++ [e], by simp, h3⟩

/-! ## C120 -/

/-- Nothing is left to do on connection `n`: all that was written has arrived, on either side; the reading task waits for
more, the listener has handled all requests; neither side has lost or closed the connection, or given it up. -/
structure Spec.Quiet (v : PyVer) (svc : Nat → Services) (reg : Nat → Registry) (y : Sys) (n : Nat) (k : AConn) : Prop where
  conn : (y.client v).conns[n]? = some k
  there : received (y.levs n) = (k.sent.map Prod.snd).flatten
  back : k.recvd = (y.peer svc reg n).st.wire
  settled : Settled (y.client v) n
  clean : k.cancelled = false ∧ k.lost = false ∧ k.closed = false
  peerSettled : (y.peer svc reg n).st.settled
  peerClean : (y.peer svc reg n).st.closed = false ∧ (y.peer svc reg n).st.lost = false

/-- C120 as listed: in a system of a client and listeners, when nothing is left to do on the connection on which a call has
sent its request, the call can go on. -/
def C120_full : Prop :=
  ∀ (v : PyVer) (svc : Nat → Services) (reg : Nat → Registry) (es : List SysEv) (i : Nat) (c : ACall) (ev n : Nat) (k : AConn),
    DistinctIds (sysRun v svc reg es).aevs → (∀ c ∈ ((sysRun v svc reg es).client v).calls, AioMade c.req) →
    ((sysRun v svc reg es).client v).calls[i]? = some c → c.pc = .waiting ev →
    lastConn ((sysRun v svc reg es).client v) i = some n → Quiet v svc reg (sysRun v svc reg es) n k →
    ((sysRun v svc reg es).client v).wake i ≠ (sysRun v svc reg es).client v

/-- a package with the id of the call was processed: the call can go on -/
theorem processed_wakes (v : PyVer) (svc : Nat → Services) (reg : Nat → Registry) (es : List SysEv)
    (hd : DistinctIds (sysRun v svc reg es).aevs)
    (hreq : ∀ c ∈ (arun v (sysRun v svc reg es).aevs).calls, AioMade c.req) {i n : Nat} {c : ACall} {p : Pkg} {pre post : List AEv}
    (hc : (arun v (sysRun v svc reg es).aevs).calls[i]? = some c) (hnd : c.pc.isDone = false)
    (he : (sysRun v svc reg es).aevs = pre ++ .recv n :: post) (hp : Processes (arun v pre) n p)
    (hid : c.req.requestId = p.requestId) : c.set = true := by
  obtain ⟨es', hes'⟩ := sys_prefix v svc reg es pre _ he
  have hreq' : ∀ c ∈ (arun v (sysRun v svc reg es').aevs).calls, AioMade c.req := by
    intro d hdm
    rw [hes'] at hdm
    obtain ⟨j, hj⟩ := List.getElem?_of_mem hdm
    obtain ⟨d', h1, h2, -⟩ := call_persist v pre (.recv n :: post) hj
    rw [← h2]
    rw [← he] at h1
    exact hreq d' (List.mem_of_getElem? h1)
  obtain ⟨j, d, hj, hjid, hnew⟩ := processed_asked v svc reg es' hreq' n p (by rw [hes']; exact hp)
  rw [hes'] at hj
  rw [he] at hd hc
  obtain ⟨d', h1, h2, -, h4, h5⟩ := call_persist v pre (.recv n :: post) hj
  have hji : j = i := same_call hd h1 hc (by rw [h2, hjid, hid])
  subst hji
  rw [hc] at h1
  cases h1
  cases hset : d.set with
  | true => exact h4 hset
  | false =>
    have hdd : d.pc.isDone = false := by
      cases hx : d.pc with
      | done r => rw [h5 r hx] at hnd; cases hnd
      | _ => rfl
    have hent := pending_entry (arun_inv v pre hd.prefix) hj hnew hdd hset
    rw [hjid] at hent
    obtain ⟨k', hk'⟩ := recv_pending hp hent
    have hs : (arun v (pre ++ [.recv n])).calls[j]? = some { d with set := true } := by
      rw [arun_snoc]
      show ((arun v pre).recv n).calls[j]? = _
      rw [hk']
      exact modify_self hj
    obtain ⟨f, g1, -, -, g4, -⟩ := call_persist v (pre ++ [.recv n]) post hs
    rw [List.append_assoc, List.singleton_append, hc] at g1
    cases g1
    exact g4 rfl

theorem verdict_aio {p : Pkg} {q : AnyFrame} (h : AioMade p) (hf : FrameOf p q) :
    q.verdict = .heartbeat q.f.requestId ∨ ∃ r : Req, q.verdict = .dispatch r ∧ r.id = q.f.requestId ∧ r.callType ≠ 2 := by
  rcases h with ⟨a, kd, h⟩ | ⟨id, h⟩
  · right
    obtain ⟨b, hdr, t, hb1, hb2, hb3⟩ := aioRequest_parts h
    have hr := newRequest_requestOf hb1 hb2 hb3 hf
    refine ⟨_, hr.verdict, rfl, ?_⟩
    show q.f.ptype ≠ 2
    have hp : PType.request.code = p.ptype.code := by
      unfold newRequest at hb3
      rw [mkPkg_ok_iff] at hb3
      obtain ⟨-, -, -, -, -, e6, -⟩ := hb3
      exact Option.some.inj e6
    rw [hf.ptype, ← hp]
    decide
  · left
    rw [heartbeatRequest_eq] at h
    cases h
    unfold AnyFrame.verdict
    rw [if_pos (show q.f.cmdcode = 0 from hf.cmd)]

/-- A task that has ended and has written nothing on an open connection: why. -/
theorem ended_silent {svc : Services} {s : LSt} (h : LInv svc s) (hc : s.closed = false) {j : Nat} {t : Task} {r : Req}
    (ht : s.tasks[j]? = some t) (hk : t.kind = .dispatch r) (h2 : r.callType ≠ 2) (hend : t.st = .ended)
    (hnone : ∀ m, taskReply t = some m → (Origin.task j, m) ∉ s.out) :
    ∃ f, t.fate = some f ∧ (f = .badCarrier ∨ ∃ x, f = .answered (.ret x) ∧ ¬ ∃ b, x = .bytes b ∧ b ≠ [] ∧ b.length < 4294967296) := by
  have htk := h.task j t ht
  unfold TaskOk at htk
  rw [hk] at htk
  obtain ⟨hst, hfate, -⟩ := htk
  rw [hend] at hst
  obtain ⟨f, hf⟩ := Option.isSome_iff_exists.1 (show t.fate.isSome from hst)
  have hfo := hfate f hf
  have htr : taskReply t = owed r.id f := by simp [taskReply, hk, hf]
  refine ⟨f, hf, ?_⟩
  cases ho : owed r.id f with
  | some m =>
    rw [ho] at htr
    rcases h.ended j t m ht hend htr with h1 | h1
    · rw [hc] at h1; cases h1
    · exact absurd h1 (hnone m htr)
  | none =>
    cases f with
    | badCarrier => exact .inl rfl
    | accepted => exact absurd hfo.1 h2
    | answered o =>
      right
      cases o with
      | raised e => cases e <;> simp [owed] at ho
      | ret v =>
        refine ⟨v, rfl, ?_⟩
        rintro ⟨c, rfl, hc1, hc2⟩
        simp [owed, hc1, hc2] at ho
    | _ => simp [owed] at ho

/-- A call that waits, and cannot go on, when all bytes have arrived and been read: the listener has a task for its request,
and if the task has ended, why it has written nothing. -/
theorem who_waits (v : PyVer) (svc : Nat → Services) (reg : Nat → Registry) (es : List SysEv) (i : Nat) (c : ACall)
    (ev n : Nat) (k : AConn) (hd : DistinctIds (sysRun v svc reg es).aevs)
    (hreq : ∀ c ∈ ((sysRun v svc reg es).client v).calls, AioMade c.req)
    (hc : ((sysRun v svc reg es).client v).calls[i]? = some c) (hw : c.pc = .waiting ev)
    (hl : lastConn ((sysRun v svc reg es).client v) i = some n)
    (hqconn : ((sysRun v svc reg es).client v).conns[n]? = some k)
    (hqthere : received ((sysRun v svc reg es).levs n) = (k.sent.map Prod.snd).flatten)
    (hqback : k.recvd = ((sysRun v svc reg es).peer svc reg n).st.wire)
    (hqsettled : Settled ((sysRun v svc reg es).client v) n)
    (hqclean : k.cancelled = false ∧ k.lost = false)
    (hqidle : ((sysRun v svc reg es).peer svc reg n).st.idle)
    (hqwritten : ∀ t ∈ ((sysRun v svc reg es).peer svc reg n).st.tasks, ∀ m, t.st ≠ .writing m)
    (hqpeer : ((sysRun v svc reg es).peer svc reg n).st.closed = false ∧ ((sysRun v svc reg es).peer svc reg n).st.lost = false)
    (hstuck : ((sysRun v svc reg es).client v).wake i = (sysRun v svc reg es).client v) :
    ∃ (j : Nat) (t : Task) (r : Req), ((sysRun v svc reg es).peer svc reg n).st.tasks[j]? = some t ∧
      t.kind = .dispatch r ∧ c.req.requestId = .int r.id ∧ r.callType ≠ 2 ∧
      (t.st = .ended → ∃ f : Fate, t.fate = some f ∧
        (f = .badCarrier ∨ ∃ x, f = .answered (.ret x) ∧ ¬ ∃ b, x = .bytes b ∧ b ≠ [] ∧ b.length < 4294967296)) := by
  have hc : (arun v (sysRun v svc reg es).aevs).calls[i]? = some c := hc
  have hk : (arun v (sysRun v svc reg es).aevs).conns[n]? = some k := hqconn
  -- its event is not set
  have hev : ev = i := ((arun_inv v _ hd).calls i c hc).own ev hw
  subst hev
  have hset : c.set = false := by
    cases hs : c.set with
    | false => rfl
    | true =>
      exfalso
      have hne : ∀ (r : CallRes), ((arun v (sysRun v svc reg es).aevs).setPc ev (.done r)).calls ≠
          (arun v (sysRun v svc reg es).aevs).calls := by
        intro r hx
        have := congrArg (fun l : List ACall => l[ev]?) hx
        have this : ((arun v (sysRun v svc reg es).aevs).setPc ev (.done r)).calls[ev]? = (arun v (sysRun v svc reg es).aevs).calls[ev]? := this
        rw [hc, show ((arun v (sysRun v svc reg es).aevs).setPc ev (.done r)).calls[ev]? = some { c with pc := .done r } from modify_self hc] at this
        have := congrArg ACall.pc (Option.some.inj this)
        rw [hw] at this
        cases this
      have hstuck : (arun v (sysRun v svc reg es).aevs).wake ev = arun v (sysRun v svc reg es).aevs := hstuck
      unfold ASt.wake at hstuck
      simp only [hc, hw, Option.map_some, hs, if_true] at hstuck
      split at hstuck
      · next p _ =>
        have := congrArg ASt.calls hstuck
        exact hne (.resp p) this
      · have := congrArg ASt.calls hstuck
        exact hne (.raised .keyError) this
  -- its bytes are on the connection
  obtain ⟨n', hn', k', hk', hput⟩ := (arun_put v _).wait ev c ev hc hw
  rw [show lastConn (arun v (sysRun v svc reg es).aevs) ev = some n from hl] at hn'
  cases hn'
  rw [hk] at hk'
  cases hk'
  obtain ⟨bs, hbs⟩ := hput
  obtain ⟨qs, hqs, hqok, hqin⟩ := sent_frames' (arun v (sysRun v svc reg es).aevs) hreq k.sent
    (fun i bs hm => (C60_on_the_wire v _ i).2 k (List.mem_of_getElem? hk) bs hm)
  obtain ⟨c', hc', q, hqm, hfr⟩ := hqin ev bs hbs
  rw [hc] at hc'
  cases hc'
  have hok : ∀ q ∈ qs, q.Ok := fun q hm => by obtain ⟨_, _, _, _, _, h⟩ := hqok q hm; exact h.ok
  -- the listener has read them
  have hrec := hqthere
  rw [← hqs] at hrec
  have hn : LEv.reset ∉ (sysRun v svc reg es).levs n := by
    obtain ⟨-, -, e3⟩ := lrun_env (svc n) (reg n) ((sysRun v svc reg es).levs n)
    have := hqpeer.2
    rw [show ((sysRun v svc reg es).peer svc reg n).st.lost = _ from e3] at this
    simpa using this
  have hact : q.verdict ∈ (lrun (svc n) (reg n) ((sysRun v svc reg es).levs n)).acts := by
    obtain ⟨l, rd, b, h1, h2, h3⟩ := run_cases (svc n) (reg n) _ hn hqidle
    rw [hrec] at h1
    obtain ⟨last', h4, -⟩ := reads_frames qs hok none []
    rw [List.append_nil] at h4
    obtain ⟨e, -, -⟩ := h1.unique h2 h4 rfl
    rw [h3, e]
    exact List.mem_append_left _ (List.mem_map_of_mem hqm)
  have h := LInv.run (svc n) (reg n) ((sysRun v svc reg es).levs n)
  -- nothing with its id is in the output
  have hnone : ∀ o m, (o, m) ∈ (lrun (svc n) (reg n) ((sysRun v svc reg es).levs n)).out → Answers q.f.requestId m → False := by
    intro o m hm ha
    obtain ⟨p, hp1, hp2, -⟩ := answers_decodes (hok q hqm).fit.requestId ha
    obtain ⟨ps, us, rest, hlog, -, hcut, -, -, hall⟩ := C98_frames v n _ k hk
    have hpm : p ∈ ps := by
      rw [hall hqsettled hqclean.1 hqclean.2]
      have hus : us = (lrun (svc n) (reg n) ((sysRun v svc reg es).levs n)).out.map Prod.snd := by
        have : Cut k.recvd ((lrun (svc n) (reg n) ((sysRun v svc reg es).levs n)).out.map Prod.snd) [] := by
          refine ⟨out_units _ _ _, ?_, ?_⟩
          · rw [hqback, List.append_nil]; rfl
          · intro u t e hru
            have := hru.1
            rw [List.nil_eq_append_iff] at e
            rw [e.1] at this
            simp at this
        exact (cut_unique hcut this).1
      rw [hus]
      unfold packages
      rw [List.mem_filterMap]
      exact ⟨m, List.mem_map_of_mem (f := Prod.snd) hm, by rw [hp1]; rfl⟩
    obtain ⟨pre, post, he, hpr⟩ := log_split hlog hpm
    have := processed_wakes v svc reg es hd hreq hc (by rw [hw]; rfl) he hpr (by rw [hfr.id, hp2])
    rw [hset] at this
    cases this
  rcases verdict_aio (hreq c (List.mem_of_getElem? hc)) hfr with hv | ⟨r, hv, hrid, hr2⟩
  · -- a heartbeat is always answered
    exfalso
    rw [hv] at hact
    have : TaskKind.heartbeat q.f.requestId ∈ (lrun (svc n) (reg n) ((sysRun v svc reg es).levs n)).tasks.map Task.kind := by
      rw [h.kinds, List.mem_filterMap]
      exact ⟨_, hact, rfl⟩
    obtain ⟨t, ht, hk⟩ := List.mem_map.1 this
    obtain ⟨j, hj⟩ := List.getElem?_of_mem ht
    have hr : taskReply t = some (heartbeatAck q.f.requestId) := by unfold taskReply; rw [hk]
    have hend : t.st = .ended := by
      have htk := h.task j t hj
      unfold TaskOk at htk
      rw [hk] at htk
      rcases htk.2 with h1 | h1
      · exact h1
      · exact absurd h1 (hqwritten t ht _)
    rcases h.ended j t _ hj hend hr with h1 | h1
    · rw [show (lrun (svc n) (reg n) ((sysRun v svc reg es).levs n)).closed = false from hqpeer.1] at h1; cases h1
    · exact hnone _ _ h1 .ack
  · rw [hv] at hact
    have : TaskKind.dispatch r ∈ (lrun (svc n) (reg n) ((sysRun v svc reg es).levs n)).tasks.map Task.kind := by
      rw [h.kinds, List.mem_filterMap]
      exact ⟨_, hact, rfl⟩
    obtain ⟨t, ht, hk⟩ := List.mem_map.1 this
    obtain ⟨j, hj⟩ := List.getElem?_of_mem ht
    refine ⟨j, t, r, hj, hk, by rw [hfr.id, hrid], hr2, fun hend => ?_⟩
    refine ended_silent h hqpeer.1 hj hk hr2 hend fun m hm hin => hnone _ m hin ?_
    have := taskReply_answers hm
    rw [hk] at this
    rw [← hrid]
    exact this

/-- C120, what holds: the exact reason for which a call is left waiting. The listener has handled its request, and either
could not read the trace context of the request, or called the method, which returned something that is not a non-empty
`bytes` of a size that fits. -/
theorem C120_who_waits_partial (v : PyVer) (svc : Nat → Services) (reg : Nat → Registry) (es : List SysEv) (i : Nat) (c : ACall)
    (ev n : Nat) (k : AConn) (hd : DistinctIds (sysRun v svc reg es).aevs)
    (hreq : ∀ c ∈ ((sysRun v svc reg es).client v).calls, AioMade c.req)
    (hc : ((sysRun v svc reg es).client v).calls[i]? = some c) (hw : c.pc = .waiting ev)
    (hl : lastConn ((sysRun v svc reg es).client v) i = some n) (hq : Quiet v svc reg (sysRun v svc reg es) n k)
    (hstuck : ((sysRun v svc reg es).client v).wake i = (sysRun v svc reg es).client v) :
    ∃ (j : Nat) (t : Task) (r : Req) (f : Fate), ((sysRun v svc reg es).peer svc reg n).st.tasks[j]? = some t ∧
      t.kind = .dispatch r ∧ c.req.requestId = .int r.id ∧ t.fate = some f ∧
      (f = .badCarrier ∨ ∃ x, f = .answered (.ret x) ∧ ¬ ∃ b, x = .bytes b ∧ b ≠ [] ∧ b.length < 4294967296) := by
  obtain ⟨j, t, r, h1, h2, h3, -, h4⟩ := who_waits v svc reg es i c ev n k hd hreq hc hw hl hq.conn hq.there hq.back hq.settled
    ⟨hq.clean.1, hq.clean.2.1⟩ hq.peerSettled.1 (fun t ht m hm => by rw [hq.peerSettled.2 t ht] at hm; cases hm) hq.peerClean hstuck
  obtain ⟨f, h5, h6⟩ := h4 (hq.peerSettled.2 t (List.mem_of_getElem? h1))
  exact ⟨j, t, r, f, h1, h2, h3, h5, h6⟩

/-- a call whose method returns `b''` -/
def exEmptyEvs : List SysEv :=
  [.client (.call (exAioReq exCallA)), .client (.start 0 exAddr), .client (.dialed 0 true), .client (.drained 0 true),
   .client (.drained 0 true), .client (.recv 0), .there 0 30, .server 0 .reader, .there 0 1000] ++
  List.replicate 6 (.server 0 .reader) ++
  [.server 0 (.run 0 (py "t")), .server 0 (.futStart 0), .server 0 (.futFinish 0 (.ret (.bytes []))), .server 0 (.result 0),
   .back 0 1000]

def exEmpty : Sys := sysRun .from38 (fun _ => exServices) (fun _ => exReg) exEmptyEvs

def exEmptyConn : AConn := ((exEmpty.client .from38).conns[0]?).getD { addr := exAddr }

set_option maxRecDepth 40000 in
theorem exEmpty_quiet : Quiet .from38 (fun _ => exServices) (fun _ => exReg) exEmpty 0 exEmptyConn := by
  refine ⟨by decide +kernel, by decide +kernel, by decide +kernel, ⟨exEmptyConn, by decide +kernel, by decide +kernel, by decide +kernel⟩,
    by decide +kernel, ?_, by decide +kernel⟩
  unfold LSt.settled LSt.idle
  decide +kernel

theorem exEmpty_made : ∀ c ∈ (exEmpty.client .from38).calls, AioMade c.req := by
  have h : (exEmpty.client .from38).calls.map ACall.req = [exAioReq exCallA] := by decide +kernel
  intro c hc
  have := List.mem_map_of_mem (f := ACall.req) hc
  rw [h, List.mem_singleton] at this
  rw [this]
  exact .inl ⟨exCallA, .sync, by decide +kernel⟩

set_option maxRecDepth 40000 in
/-- C120 is violated: the method has returned `b''`, nothing is left to do, and the call waits. -/
theorem C120_violated : ¬ C120_full := by
  intro h
  exact h .from38 (fun _ => exServices) (fun _ => exReg) exEmptyEvs 0 ⟨exAioReq exCallA, .waiting 0, false⟩ 0 0 exEmptyConn
    (by decide +kernel) exEmpty_made (by decide +kernel) rfl (by decide +kernel) exEmpty_quiet (by decide +kernel)

set_option maxRecDepth 40000 in
/-- the case of `C120_who_waits_partial` -/
example : ∃ (j : Nat) (t : Task) (r : Req) (f : Fate), (exEmpty.peer (fun _ => exServices) (fun _ => exReg) 0).st.tasks[j]? = some t ∧
    t.kind = .dispatch r ∧ (exAioReq exCallA).requestId = .int r.id ∧ t.fate = some f ∧
    (f = .badCarrier ∨ ∃ x, f = .answered (.ret x) ∧ ¬ ∃ b, x = .bytes b ∧ b ≠ [] ∧ b.length < 4294967296) :=
  C120_who_waits_partial .from38 (fun _ => exServices) (fun _ => exReg) exEmptyEvs 0 ⟨exAioReq exCallA, .waiting 0, false⟩ 0 0
    exEmptyConn (by decide +kernel) exEmpty_made (by decide +kernel) rfl (by decide +kernel) exEmpty_quiet (by decide +kernel)

end Bolt
