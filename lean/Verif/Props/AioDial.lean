import Verif.Props.AioShare
import Verif.Props.AioFail
/-! C95-C97: dialing, and giving up connections. -/
namespace Bolt
open Spec

/-! ## The dial locks, over all schedules -/

/-- What holds of the dial locks: the locks in `_pending_dial` and those waited for exist, a call that dials has its
lock, a lock that is taken is had by a call that dials, and only by one. -/
structure LkInv (dm : PyDict Addr Nat) (locks : List Bool) (pcs : List CallPc) : Prop where
  dial : ∀ p ∈ dm, p.2 < locks.length
  wait : ∀ (i r : Nat) (a : Addr) (l : Nat), pcs[i]? = some (.locking r a l) → l < locks.length
  held : ∀ (i r : Nat) (a : Addr) (l : Nat), pcs[i]? = some (.dialing r a l) → locks[l]? = some true
  holder : ∀ (l : Nat), locks[l]? = some true → ∃ (i r : Nat) (a : Addr), pcs[i]? = some (.dialing r a l)
  uniq : ∀ (i j r r' : Nat) (a a' : Addr) (l : Nat), pcs[i]? = some (.dialing r a l) → pcs[j]? = some (.dialing r' a' l) → i = j

def ASt.LkInv (s : ASt) : Prop := Bolt.LkInv s.dialMap s.locks s.dv.pcs

theorem mem_of_mem_erase {K V : Type} [DecidableEq K] {d : PyDict K V} {k : K} {p : K × V} (h : p ∈ PyDict.erase d k) : p ∈ d := by
  induction d with
  | nil => exact h
  | cons q d ih =>
    obtain ⟨k', v'⟩ := q
    simp only [PyDict.erase] at h
    split at h
    · exact List.mem_cons_of_mem _ h
    · rcases List.mem_cons.1 h with h | h
      · rw [h]; exact List.mem_cons_self
      · exact List.mem_cons_of_mem _ (ih h)

theorem mem_of_mem_set {K V : Type} [DecidableEq K] {d : PyDict K V} {k : K} {v : V} {p : K × V} (h : p ∈ PyDict.set d k v) :
    p ∈ d ∨ p = (k, v) := by
  induction d with
  | nil =>
    simp only [PyDict.set, List.mem_singleton] at h
    exact .inr h
  | cons q d ih =>
    obtain ⟨k', v'⟩ := q
    simp only [PyDict.set] at h
    split at h
    · next e =>
      rcases List.mem_cons.1 h with h | h
      · right; rw [h, e]
      · exact .inl (List.mem_cons_of_mem _ h)
    · rcases List.mem_cons.1 h with h | h
      · rw [h]; exact .inl List.mem_cons_self
      · rcases ih h with h | h
        · exact .inl (List.mem_cons_of_mem _ h)
        · exact .inr h

/-- a call that does not dial goes on to something that has nothing to do with locks, or to wait for one -/
theorem LkInv.move {dm : PyDict Addr Nat} {locks : List Bool} {pcs : List CallPc} (h : LkInv dm locks pcs) (i : Nat)
    (pc0 pc : CallPc) (h0 : pcs[i]? = some pc0) (hd : pc0.isDialing = false) (hn : pc.isDialing = false)
    (hw : ∀ r a l, pc = .locking r a l → l < locks.length) : LkInv dm locks (pcs.set i pc) := by
  refine ⟨h.dial, ?_, ?_, ?_, ?_⟩
  · intro j r a l hj
    rcases set_cases hj with ⟨-, e⟩ | ⟨-, hj⟩
    · exact hw r a l e.symm
    · exact h.wait j r a l hj
  · intro j r a l hj
    rcases set_cases hj with ⟨-, e⟩ | ⟨-, hj⟩
    · rw [← e] at hn; cases hn
    · exact h.held j r a l hj
  · intro l hl
    obtain ⟨j, r, a, hj⟩ := h.holder l hl
    refine ⟨j, r, a, ?_⟩
    rw [List.getElem?_set, if_neg]
    · exact hj
    · rintro rfl
      rw [h0] at hj
      rw [Option.some.inj hj] at hd
      cases hd
  · intro j k r r' a a' l hj hk
    rcases set_cases hj with ⟨-, e⟩ | ⟨-, hj⟩
    · rw [← e] at hn; cases hn
    · rcases set_cases hk with ⟨-, e⟩ | ⟨-, hk⟩
      · rw [← e] at hn; cases hn
      · exact h.uniq j k r r' a a' l hj hk

/-- a call that dials releases the lock and goes on -/
theorem LkInv.free {dm : PyDict Addr Nat} {locks : List Bool} {pcs : List CallPc} (h : LkInv dm locks pcs) (i r : Nat)
    (a : Addr) (l : Nat) (pc : CallPc) (h0 : pcs[i]? = some (.dialing r a l)) (hn : pc.isDialing = false)
    (hw : ∀ r a l, pc ≠ .locking r a l) : LkInv dm (locks.set l false) (pcs.set i pc) := by
  refine ⟨fun p hp => by rw [List.length_set]; exact h.dial p hp, ?_, ?_, ?_, ?_⟩
  · intro j r a l hj
    rw [List.length_set]
    rcases set_cases hj with ⟨-, e⟩ | ⟨-, hj⟩
    · exact absurd e.symm (hw r a l)
    · exact h.wait j r a l hj
  · intro j r' a' l' hj
    rcases set_cases hj with ⟨-, e⟩ | ⟨hne, hj⟩
    · rw [← e] at hn; cases hn
    · rw [List.getElem?_set, if_neg]
      · exact h.held j r' a' l' hj
      · rintro rfl
        exact hne (h.uniq j i r' r a' a l hj h0)
  · intro l' hl
    rcases set_cases hl with ⟨-, e⟩ | ⟨hne, hl⟩
    · cases e
    · obtain ⟨j, r', a', hj⟩ := h.holder l' hl
      refine ⟨j, r', a', ?_⟩
      rw [List.getElem?_set, if_neg]
      · exact hj
      · rintro rfl
        rw [h0] at hj
        cases hj
        exact hne rfl
  · intro j k r r' a a' l hj hk
    rcases set_cases hj with ⟨-, e⟩ | ⟨-, hj⟩
    · rw [← e] at hn; cases hn
    · rcases set_cases hk with ⟨-, e⟩ | ⟨-, hk⟩
      · rw [← e] at hn; cases hn
      · exact h.uniq j k r r' a a' l hj hk

/-- a call takes a free lock and dials -/
theorem LkInv.take {dm : PyDict Addr Nat} {locks : List Bool} {pcs : List CallPc} (h : LkInv dm locks pcs) (i : Nat)
    (pc0 : CallPc) (r : Nat) (a : Addr) (l : Nat) (h0 : pcs[i]? = some pc0) (hd : pc0.isDialing = false)
    (hl : locks[l]? = some false) : LkInv dm (locks.set l true) (pcs.set i (.dialing r a l)) := by
  have hlen : l < locks.length := (List.getElem?_eq_some_iff.1 hl).1
  have hi : i < pcs.length := (List.getElem?_eq_some_iff.1 h0).1
  have nobody : ∀ (j r' : Nat) (a' : Addr), pcs[j]? ≠ some (.dialing r' a' l) := by
    intro j r' a' hj
    have := h.held j r' a' l hj
    rw [hl] at this
    cases this
  refine ⟨fun p hp => by rw [List.length_set]; exact h.dial p hp, ?_, ?_, ?_, ?_⟩
  · intro j r a l hj
    rw [List.length_set]
    rcases set_cases hj with ⟨-, e⟩ | ⟨-, hj⟩
    · cases e
    · exact h.wait j r a l hj
  · intro j r' a' l' hj
    rcases set_cases hj with ⟨-, e⟩ | ⟨hne, hj⟩
    · cases e
      rw [List.getElem?_set, if_pos rfl, if_pos hlen]
    · rw [List.getElem?_set, if_neg]
      · exact h.held j r' a' l' hj
      · rintro rfl
        exact nobody j r' a' hj
  · intro l' hl'
    rcases set_cases hl' with ⟨rfl, -⟩ | ⟨hne, hl'⟩
    · exact ⟨i, r, a, by rw [List.getElem?_set, if_pos rfl, if_pos hi]⟩
    · obtain ⟨j, r', a', hj⟩ := h.holder l' hl'
      refine ⟨j, r', a', ?_⟩
      rw [List.getElem?_set, if_neg]
      · exact hj
      · rintro rfl
        rw [h0] at hj
        rw [Option.some.inj hj] at hd
        cases hd
  · intro j k r1 r2 a1 a2 l' hj hk
    rcases set_cases hj with ⟨rfl, e⟩ | ⟨-, hj⟩
    · cases e
      rcases set_cases hk with ⟨rfl, -⟩ | ⟨-, hk⟩
      · rfl
      · exact absurd hk (nobody k r2 a2)
    · rcases set_cases hk with ⟨-, e⟩ | ⟨-, hk⟩
      · cases e
        exact absurd hj (nobody j r1 a1)
      · exact h.uniq j k r1 r2 a1 a2 l' hj hk

/-- a new lock, free -/
theorem LkInv.grow {dm : PyDict Addr Nat} {locks : List Bool} {pcs : List CallPc} (h : LkInv dm locks pcs) (a : Addr) :
    LkInv (PyDict.set dm a locks.length) (locks ++ [false]) pcs := by
  have up : ∀ {l : Nat} {b : Bool}, locks[l]? = some b → (locks ++ [false])[l]? = some b := by
    intro l b hl
    rw [List.getElem?_append_left (List.getElem?_eq_some_iff.1 hl).1]
    exact hl
  refine ⟨?_, ?_, fun j r a l hj => up (h.held j r a l hj), ?_, h.uniq⟩
  · intro p hp
    rw [List.length_append]
    rcases mem_of_mem_set hp with hp | rfl
    · have := h.dial p hp
      exact Nat.lt_add_right _ this
    · simp
  · intro j r a l hj
    rw [List.length_append]
    exact Nat.lt_add_right _ (h.wait j r a l hj)
  · intro l hl
    apply h.holder l
    rw [List.getElem?_append] at hl
    split at hl
    · exact hl
    · next hge =>
      have : l - locks.length = 0 ∨ 1 ≤ l - locks.length := by omega
      rcases this with e | e
      · rw [e] at hl; cases hl
      · rw [List.getElem?_eq_none (by simpa using e)] at hl; cases hl

theorem LkInv.forget {dm : PyDict Addr Nat} {locks : List Bool} {pcs : List CallPc} (h : LkInv dm locks pcs) (a : Addr) :
    LkInv (PyDict.erase dm a) locks pcs :=
  ⟨fun p hp => h.dial p (mem_of_mem_erase hp), h.wait, h.held, h.holder, h.uniq⟩

theorem setPc_lk {s : ASt} {i : Nat} {pc : CallPc} (h : LkInv s.dialMap s.locks (s.dv.pcs.set i pc)) : (s.setPc i pc).LkInv := by
  unfold ASt.LkInv
  rw [dv_setPc]
  exact h

theorem setPc_lkInv {s : ASt} (h : s.LkInv) {i : Nat} {c : ACall} (hc : s.calls[i]? = some c) (hd : c.pc.isDialing = false)
    {pc : CallPc} (hn : pc.isDialing = false) (hw : ∀ r a l, pc = .locking r a l → l < s.locks.length) : (s.setPc i pc).LkInv :=
  setPc_lk (LkInv.move h i c.pc pc (pcs_get hc) hd hn hw)

theorem sendFailed_lkInv {s : ASt} (h : s.LkInv) {i : Nat} {c d : ACall} (hc : s.calls[i]? = some c) (hd : c.pc.isDialing = false) :
    (s.sendFailed i d).LkInv := by
  unfold ASt.sendFailed
  split
  · exact setPc_lkInv (s := { s with reqs := PyDict.erase s.reqs d.req.requestId }) h hc hd rfl (by intro _ _ _ e; cases e)
  · exact setPc_lkInv h hc hd rfl (by intro _ _ _ e; cases e)

theorem send_lkInv {s : ASt} (h : s.LkInv) {i : Nat} {c d : ACall} (hc : s.calls[i]? = some c) (hd : c.pc.isDialing = false)
    (r : Nat) (a : Addr) : (s.send i d r a).LkInv := by
  unfold ASt.send
  split
  · exact sendFailed_lkInv h hc hd
  · split
    · exact setPc_lkInv h hc hd rfl (by intro _ _ _ e; cases e)
    · split
      · next l hl =>
        split
        · next hf => exact setPc_lk (LkInv.take h i c.pc r a l (pcs_get hc) hd hf)
        · refine setPc_lkInv h hc hd rfl ?_
          intro _ _ _ e
          cases e
          exact h.dial (a, l) (PyDict.get?_mem hl)
      · have h1 := LkInv.take (LkInv.grow h a) i c.pc r a s.locks.length (pcs_get hc) hd (by simp)
        refine setPc_lk ?_
        have e : (s.locks ++ [false]).set s.locks.length true = s.locks ++ [true] := by simp
        rw [e] at h1
        exact h1

theorem broken_lkInv {s : ASt} (h : s.LkInv) {i : Nat} {c d : ACall} (hc : s.calls[i]? = some c) (hd : c.pc.isDialing = false)
    (r : Nat) (a : Addr) (n : Nat) : (s.broken i d r a n).LkInv := by
  unfold ASt.broken
  dsimp only
  split
  · split
    · refine send_lkInv (s := { s with
        conns := s.conns.modify n fun k => { k with cancelled := true }
        connMap := PyDict.erase s.connMap a
        dialMap := PyDict.erase s.dialMap a }) ?_ hc hd _ _
      exact LkInv.forget h a
    · exact sendFailed_lkInv (s := { s with
        conns := s.conns.modify n fun k => { k with cancelled := true }
        connMap := PyDict.erase s.connMap a }) h hc hd
  · exact sendFailed_lkInv (s := { s with conns := s.conns.modify n fun k => { k with cancelled := true } }) h hc hd

/-- the end of a dial, whatever comes next -/
theorem release_lkInv {s s' : ASt} (h : s.LkInv) {i r : Nat} {a : Addr} {l : Nat} {c : ACall} (hc : s.calls[i]? = some c)
    (hp : c.pc = .dialing r a l) {pc : CallPc} (hn : pc.isDialing = false) (hw : ∀ r a l, pc ≠ .locking r a l)
    (e1 : s'.dialMap = s.dialMap) (e2 : s'.locks = s.locks.set l false) (e3 : s'.calls = s.calls) : (s'.setPc i pc).LkInv := by
  have h0 : s.dv.pcs[i]? = some (.dialing r a l) := by rw [← hp]; exact pcs_get hc
  refine setPc_lk ?_
  have e4 : s'.dv.pcs = s.dv.pcs := by show s'.calls.map _ = s.calls.map _; rw [e3]
  rw [e1, e2, e4]
  exact LkInv.free h i r a l pc h0 hn hw

theorem sendFailed_release {s : ASt} (h : s.LkInv) {i r : Nat} {a : Addr} {l : Nat} {c : ACall} (hc : s.calls[i]? = some c)
    (hp : c.pc = .dialing r a l) (d : ACall) : ((s.setLock l false).sendFailed i d).LkInv := by
  unfold ASt.sendFailed
  split
  · exact release_lkInv h hc hp rfl (by intro _ _ _ e; cases e) rfl rfl rfl
  · exact release_lkInv h hc hp rfl (by intro _ _ _ e; cases e) rfl rfl rfl

theorem lkInv_same {s s' : ASt} (h : s.LkInv) (e : s'.dv = s.dv) : s'.LkInv := by
  have e1 : s'.dialMap = s.dialMap := congrArg DV.dialMap e
  have e2 : s'.locks = s.locks := congrArg DV.locks e
  unfold ASt.LkInv
  rw [e1, e2, e]
  exact h

theorem astep_lkInv (v : PyVer) (s : ASt) (e : AEv) (h : s.LkInv) : (astep v s e).LkInv := by
  cases e with
  | call req =>
    have e : (astep v s (.call req)).dv.pcs = s.dv.pcs ++ [.new] := List.map_append
    have back : ∀ {i : Nat} {pc : CallPc}, (s.dv.pcs ++ [CallPc.new])[i]? = some pc → pc ≠ .new → s.dv.pcs[i]? = some pc := by
      intro i pc hi hn
      rw [List.getElem?_append] at hi
      split at hi
      · exact hi
      · rcases Nat.eq_zero_or_pos (i - s.dv.pcs.length) with e | e
        · rw [e] at hi; exact absurd (Option.some.inj hi).symm hn
        · rw [List.getElem?_eq_none (by rw [List.length_singleton]; exact e)] at hi; cases hi
    unfold ASt.LkInv
    rw [e]
    show LkInv s.dialMap s.locks _
    refine ⟨h.dial, ?_, ?_, ?_, ?_⟩
    · exact fun i r a l hi => h.wait i r a l (back hi (by intro e; cases e))
    · exact fun i r a l hi => h.held i r a l (back hi (by intro e; cases e))
    · intro l hl
      obtain ⟨i, r, a, hi⟩ := h.holder l hl
      exact ⟨i, r, a, by rw [List.getElem?_append_left (List.getElem?_eq_some_iff.1 hi).1]; exact hi⟩
    · exact fun i j r r' a a' l hi hj => h.uniq i j r r' a a' l (back hi (by intro e; cases e)) (back hj (by intro e; cases e))
  | start i a =>
    simp only [astep, ASt.start]
    split
    · next c hc =>
      split
      · next hp =>
        exact send_lkInv (s := { s with reqs := PyDict.set s.reqs c.req.requestId i }) h hc (by rw [hp]; rfl) 3 a
      · exact h
    · exact h
  | lock i =>
    simp only [astep, ASt.lockTurn]
    split
    · next c hc =>
      split
      · next r a l hp =>
        have hd : c.pc.isDialing = false := by rw [hp]; rfl
        split
        · next hf =>
          split
          · exact setPc_lkInv h hc hd rfl (by intro _ _ _ e; cases e)
          · exact setPc_lk (LkInv.take h i c.pc r a l (pcs_get hc) hd hf)
        · exact h
      · exact h
    · exact h
  | dialed i ok =>
    simp only [astep, ASt.dialed]
    split
    · next c hc =>
      split
      · next r a l hp =>
        split
        · split
          · exact release_lkInv h hc hp rfl (by intro _ _ _ e; cases e) rfl rfl rfl
          · exact release_lkInv h hc hp rfl (by intro _ _ _ e; cases e) rfl rfl rfl
        · exact sendFailed_release h hc hp c
      · exact h
    · exact h
  | drained i ok =>
    simp only [astep, ASt.drained]
    split
    · next c hc =>
      split
      · next r a n hp =>
        have hd : c.pc.isDialing = false := by rw [hp]; rfl
        split
        · split
          · exact broken_lkInv h hc hd r a n
          · next bs hb =>
            exact setPc_lkInv (s := { s with
              conns := s.conns.modify n fun k => { k with sent := k.sent ++ [(i, bs)] }
              writes := s.writes ++ [(i, n)] }) h hc hd rfl (by intro _ _ _ e; cases e)
        · exact broken_lkInv h hc hd r a n
      · next r a n hp =>
        have hd : c.pc.isDialing = false := by rw [hp]; rfl
        split
        · split
          · exact setPc_lkInv h hc hd rfl (by intro _ _ _ e; cases e)
          · split
            · exact setPc_lkInv (s := { s with reqs := PyDict.erase s.reqs c.req.requestId }) h hc hd rfl (by intro _ _ _ e; cases e)
            · exact setPc_lkInv h hc hd rfl (by intro _ _ _ e; cases e)
        · exact broken_lkInv h hc hd r a n
      · exact h
    · exact h
  | wake i =>
    simp only [astep, ASt.wake]
    split
    · next c hc =>
      split
      · next ev hp =>
        have hd : c.pc.isDialing = false := by rw [hp]; rfl
        split
        · split
          · exact setPc_lkInv (s := { s with resps := PyDict.erase s.resps c.req.requestId }) h hc hd rfl (by intro _ _ _ e; cases e)
          · exact setPc_lkInv h hc hd rfl (by intro _ _ _ e; cases e)
        · exact h
      · exact h
    · exact h
  | cancel i =>
    simp only [astep, ASt.cancel]
    split
    · next c hc =>
      split
      · next hp => exact setPc_lkInv h hc (by rw [hp]; rfl) rfl (by intro _ _ _ e; cases e)
      · next hp =>
        split
        · exact sendFailed_lkInv h hc (by rw [hp]; rfl)
        · exact setPc_lkInv h hc (by rw [hp]; rfl) rfl (by intro _ _ _ e; cases e)
      · next hp =>
        split
        · exact sendFailed_release h hc hp c
        · exact release_lkInv h hc hp rfl (by intro _ _ _ e; cases e) rfl rfl rfl
      · next hp =>
        split
        · exact broken_lkInv h hc (by rw [hp]; rfl) _ _ _
        · exact setPc_lkInv h hc (by rw [hp]; rfl) rfl (by intro _ _ _ e; cases e)
      · next hp =>
        split
        · exact broken_lkInv h hc (by rw [hp]; rfl) _ _ _
        · exact setPc_lkInv h hc (by rw [hp]; rfl) rfl (by intro _ _ _ e; cases e)
      · next hp => exact setPc_lkInv h hc (by rw [hp]; rfl) rfl (by intro _ _ _ e; cases e)
      · exact h
    · exact h
  | recv n => exact lkInv_same h (recv_dv s n)
  | data n bs =>
    refine lkInv_same h (dv_conns (modify_fixed _ _ _ ?_))
    intro k
    split <;> rfl
  | eof n => exact lkInv_same h (dv_conns (modify_fixed _ _ _ fun _ => rfl))
  | reset n => exact lkInv_same h (dv_conns (modify_fixed _ _ _ fun _ => rfl))

theorem arun_lkInv (v : PyVer) (evs : List AEv) : (arun v evs).LkInv := by
  induction evs using snoc_induct with
  | nil =>
    refine ⟨?_, ?_, ?_, ?_, ?_⟩
    · intro p hp; cases hp
    · intro i r a l hi; cases hi
    · intro i r a l hi; cases hi
    · intro l hl; cases hl
    · intro i j r r' a a' l hi; cases hi
  | snoc evs e ih => rw [arun_snoc]; exact astep_lkInv v _ e ih

/-- the call at a place known by its state -/
theorem call_of_pcs {l : List ACall} {pcs : List CallPc} (h : l.map ACall.pc = pcs) {i : Nat} {pc : CallPc} (hi : pcs[i]? = some pc) :
    ∃ c, l[i]? = some c ∧ c.pc = pc := by
  rw [← h, List.getElem?_map] at hi
  cases hc : l[i]? with
  | none => rw [hc] at hi; cases hi
  | some c => rw [hc] at hi; exact ⟨c, rfl, Option.some.inj hi⟩

/-! ## C95 -/

/-- the call is connecting to the address -/
def Spec.Connecting (s : ASt) (i : Nat) (a : Addr) : Prop :=
  ∃ (c : ACall) (r l : Nat), s.calls[i]? = some c ∧ c.pc = .dialing r a l

/-- C95: at any time at most one call is connecting to an address. -/
def C95_full : Prop :=
  ∀ (v : PyVer) (evs : List AEv) (i j : Nat) (a : Addr), Connecting (arun v evs) i a → Connecting (arun v evs) j a → i = j

/-- Call 1 waits for call 0 to connect. The first flush of call 0 fails, it forgets the lock and connects again under a
new one, and call 1, having got the old lock, connects too. -/
def exTwoDials : List AEv :=
  [.call (exAReq 1), .call (exAReq 2), .start 0 exAddr, .start 1 exAddr, .dialed 0 true, .drained 0 false, .lock 1]

/-- C95 does not hold. -/
theorem C95_violated : ¬ C95_full := by
  intro h
  have e : (arun .from38 exTwoDials).calls.map ACall.pc = [.dialing 2 exAddr 1, .dialing 3 exAddr 0] := by decide +kernel
  obtain ⟨c, hc, hp⟩ := call_of_pcs e (i := 0) rfl
  obtain ⟨d, hd, hq⟩ := call_of_pcs e (i := 1) rfl
  have := h .from38 exTwoDials 0 1 exAddr ⟨c, 2, 1, hc, hp⟩ ⟨d, 3, 0, hd, hq⟩
  cases this

/-- C95, the part that holds. As long as no send has failed, at most one call is connecting to an address. -/
theorem C95_one_dial_partial (v : PyVer) (evs : List AEv) (h : NoSendFails v evs) (i j : Nat) (a : Addr)
    (hi : Connecting (arun v evs) i a) (hj : Connecting (arun v evs) j a) : i = j := by
  obtain ⟨hd, -⟩ := arun_dinv v evs h
  obtain ⟨c, r, l, hc, hp⟩ := hi
  obtain ⟨d, r', l', hc', hp'⟩ := hj
  have h1 := pcs_get hc
  have h2 := pcs_get hc'
  rw [hp] at h1
  rw [hp'] at h2
  have e1 := (hd.calls i _ h1).2.1
  have e2 := (hd.calls j _ h2).2.1
  rw [e1] at e2
  cases e2
  exact hd.uniq i j r r' a a l h1 h2

/-- C95, what holds of every schedule: no lock is had by two calls, and nobody waits for ever. A call that waits for a
lock goes on with its next turn, or the lock is had by a call that is connecting, which frees it when connecting ends,
well or not, or is cancelled. -/
theorem C95_nobody_stuck (v : PyVer) (evs : List AEv) (i r : Nat) (a : Addr) (l : Nat) (c : ACall)
    (hc : (arun v evs).calls[i]? = some c) (hp : c.pc = .locking r a l) :
    (∃ c', (astep v (arun v evs) (.lock i)).calls[i]? = some c' ∧
      ((∃ n, PyDict.get? (arun v evs).connMap a = some n ∧ c'.pc = .drain1 r a n) ∨ c'.pc = .dialing r a l)) ∨
    ∃ (j : Nat) (d : ACall) (r' : Nat) (a' : Addr), (arun v evs).calls[j]? = some d ∧ d.pc = .dialing r' a' l ∧
      (∀ (k : Nat) (x : ACall) (r'' : Nat) (a'' : Addr), (arun v evs).calls[k]? = some x → x.pc = .dialing r'' a'' l → k = j) ∧
      ∀ e, (∃ ok, e = .dialed j ok) ∨ e = .cancel j → (astep v (arun v evs) e).locks[l]? = some false := by
  have hinv := arun_lkInv v evs
  generalize arun v evs = s at hc hinv ⊢
  have hlen : l < s.locks.length := hinv.wait i r a l (by rw [← hp]; exact pcs_get hc)
  have hb : s.locks[l]? = some false ∨ s.locks[l]? = some true := by
    rw [List.getElem?_eq_getElem hlen]
    cases s.locks[l] <;> simp
  rcases hb with hb | hb
  · left
    simp only [astep, ASt.lockTurn, hc, hp, hb, if_true]
    split
    · next n hn =>
      obtain ⟨c', h1, h2⟩ := setPc_get hc (.drain1 r a n)
      exact ⟨c', h1, .inl ⟨n, hn, h2⟩⟩
    · obtain ⟨c', h1, h2⟩ := setPc_get (s := s.setLock l true) hc (.dialing r a l)
      exact ⟨c', h1, .inr h2⟩
  · right
    obtain ⟨j, r', a', hj⟩ := hinv.holder l hb
    obtain ⟨d, hd, hdp⟩ := call_of_pcs (l := s.calls) rfl hj
    refine ⟨j, d, r', a', hd, hdp, ?_, ?_⟩
    · intro k x r'' a'' hk hx
      exact hinv.uniq k j r'' r' a'' a' l (by rw [← hx]; exact pcs_get hk) hj
    · have hfree : (s.locks.set l false)[l]? = some false := by rw [List.getElem?_set, if_pos rfl, if_pos hlen]
      have hsf : ∀ (s' : ASt) (k : Nat) (x : ACall), (s'.sendFailed k x).locks = s'.locks := by
        intro s' k x
        unfold ASt.sendFailed
        split <;> rfl
      rintro e (⟨ok, rfl⟩ | rfl)
      · simp only [astep, ASt.dialed, hd, hdp]
        split
        · split
          · exact hfree
          · exact hfree
        · rw [hsf]; exact hfree
      · simp only [astep, ASt.cancel, hd, hdp]
        split
        · rw [hsf]; exact hfree
        · exact hfree

/-- a call that waits while another one connects -/
example : (arun .from38 (exTwoDials.take 4)).calls.map ACall.pc = [.dialing 3 exAddr 0, .locking 3 exAddr 0] := by decide +kernel

/-- a call that waits for a lock that is free -/
example : (arun .from38 (exTwoDials.take 5)).calls.map ACall.pc = [.drain1 3 exAddr 0, .locking 3 exAddr 0] ∧
    (arun .from38 (exTwoDials.take 5)).locks = [false] := by decide +kernel

/-! ## C96 -/

/-- the call is flushing the connection before or after writing, with `r` attempts left, this one included -/
def Spec.Flushing (s : ASt) (i r : Nat) (a : Addr) (n : Nat) : Prop :=
  ∃ c, s.calls[i]? = some c ∧ (c.pc = .drain1 r a n ∨ c.pc = .drain2 r a n)

/-- the call is on its next attempt: it has `r` left -/
def Spec.Retrying (s : ASt) (i r : Nat) (a : Addr) : Prop :=
  ∃ c, s.calls[i]? = some c ∧ ((∃ n, c.pc = .drain1 r a n) ∨ (∃ l, c.pc = .dialing r a l) ∨ ∃ l, c.pc = .locking r a l)

/-- C96: a send that fails is tried again while attempts are left. -/
def C96_full : Prop :=
  ∀ (v : PyVer) (evs : List AEv) (i r : Nat) (a : Addr) (n : Nat), Flushing (arun v evs) i r a n → 1 < r →
    Retrying (astep v (arun v evs) (.drained i false)) i (r - 1) a

theorem not_retrying {s : ASt} {i r : Nat} {a : Addr} {c : ACall} (hc : s.calls[i]? = some c) (hp : c.pc = .done .none) :
    ¬ Retrying s i r a := by
  rintro ⟨d, hd, hpc⟩
  rw [hc] at hd
  rw [← Option.some.inj hd, hp] at hpc
  rcases hpc with ⟨n, h⟩ | ⟨l, h⟩ | ⟨l, h⟩ <;> cases h

/-- two calls on one connection -/
def exTwoFlush : List AEv :=
  [.call (exAReq 1), .call (exAReq 2), .start 0 exAddr, .start 1 exAddr, .dialed 0 true, .lock 1]

/-- the connection breaks for the first of them -/
def exBroken : List AEv := exTwoFlush ++ [.drained 0 false]

/-- C96 does not hold: when the connection breaks, the second of the two calls that notice gets a KeyError from
`connection_mapping.pop` and gives up, with two attempts left. -/
theorem C96_violated : ¬ C96_full ∧
    (arun .from38 (exBroken ++ [.drained 1 false])).calls.map ACall.pc = [.dialing 2 exAddr 1, .done .none] := by
  have e0 : (arun .from38 exBroken).calls.map ACall.pc = [.dialing 2 exAddr 1, .drain1 3 exAddr 0] := by decide +kernel
  have e1 : (arun .from38 (exBroken ++ [.drained 1 false])).calls.map ACall.pc = [.dialing 2 exAddr 1, .done .none] := by
    decide +kernel
  refine ⟨?_, e1⟩
  intro h
  obtain ⟨c, hc, hp⟩ := call_of_pcs e0 (i := 1) (pc := .drain1 3 exAddr 0) rfl
  obtain ⟨c', hc', hp'⟩ := call_of_pcs e1 (i := 1) (pc := .done .none) rfl
  have h1 := h .from38 exBroken 1 3 exAddr 0 ⟨c, hc, .inl hp⟩ (by decide)
  rw [← arun_snoc] at h1
  exact not_retrying hc' hp' h1

theorem send_retrying {s : ASt} {i : Nat} {c d : ACall} (hc : s.calls[i]? = some c) {r : Nat} (hr : r ≠ 0) (a : Addr) :
    Retrying (s.send i d r a) i r a := by
  unfold ASt.send
  rw [if_neg hr]
  split
  · next n hn =>
    obtain ⟨c', h1, h2⟩ := setPc_get hc (.drain1 r a n)
    exact ⟨c', h1, .inl ⟨n, h2⟩⟩
  · split
    · next l hl =>
      split
      · obtain ⟨c', h1, h2⟩ := setPc_get (s := s.setLock l true) hc (.dialing r a l)
        exact ⟨c', h1, .inr (.inl ⟨l, h2⟩)⟩
      · obtain ⟨c', h1, h2⟩ := setPc_get hc (.locking r a l)
        exact ⟨c', h1, .inr (.inr ⟨l, h2⟩)⟩
    · obtain ⟨c', h1, h2⟩ := setPc_get (s := { s with
        dialMap := PyDict.set s.dialMap a s.locks.length, locks := s.locks ++ [true] }) hc (.dialing r a s.locks.length)
      exact ⟨c', h1, .inr (.inl ⟨_, h2⟩)⟩

theorem broken_retrying {s : ASt} {i : Nat} {c d : ACall} (hc : s.calls[i]? = some c) {r : Nat} (hr : 1 < r) (a : Addr) (n : Nat)
    (h1 : PyDict.contains s.connMap a = true) (h2 : PyDict.contains s.dialMap a = true) :
    Retrying (s.broken i d r a n) i (r - 1) a := by
  unfold ASt.broken
  dsimp only
  rw [if_pos h1, if_pos h2]
  exact send_retrying (s := { s with
        conns := s.conns.modify n fun k => { k with cancelled := true }
        connMap := PyDict.erase s.connMap a
        dialMap := PyDict.erase s.dialMap a }) hc (by omega) a

/-- when nothing has failed, the lock of an address with a connection is still there -/
theorem arun_lock_there (v : PyVer) (evs : List AEv) (h : NoSendFails v evs) (a : Addr) (n : Nat)
    (hn : PyDict.get? (arun v evs).connMap a = some n) : ∃ l, PyDict.get? (arun v evs).dialMap a = some l := by
  obtain ⟨hinv, -⟩ := arun_dinv v evs h
  induction evs using snoc_induct generalizing a n with
  | nil => cases hn
  | snoc evs e ih =>
    have hp : NoSendFails v evs := h.prefix
    obtain ⟨hd0, henc⟩ := arun_dinv v evs hp
    have ih := fun a n hn => ih hp a n hn hd0
    have hd : DInv (fun i a => .start i a ∈ evs ++ [e]) (arun v evs).dv := by
      refine ⟨hd0.conn, hd0.dialLt, hd0.dialInj, ?_, hd0.uniq, ?_⟩
      · intro i pc hi
        have := hd0.calls i pc hi
        cases pc with
        | locking r a l => exact ⟨List.mem_append_left _ this.1, this.2⟩
        | dialing r a l => exact ⟨List.mem_append_left _ this.1, this.2⟩
        | drain1 r a n => exact ⟨List.mem_append_left _ this.1, this.2⟩
        | drain2 r a n => exact ⟨List.mem_append_left _ this.1, this.2⟩
        | _ => trivial
      · intro w hw
        obtain ⟨a, h1, h2⟩ := hd0.writes w hw
        exact ⟨a, h1, List.mem_append_left _ h2⟩
    have hs : DStep (fun i a => .start i a ∈ evs ++ [e]) (arun v evs).dv (astep v (arun v evs) e).dv := by
      refine astep_dstep v _ e hd henc ?_ ?_ ?_
      · rintro i rfl
        exact h.drains i (by simp)
      · rintro hv i rfl
        exact h.cancels hv i (by simp)
      · rintro i a rfl
        simp
    rw [arun_snoc] at hn ⊢
    have hn : PyDict.get? (astep v (arun v evs) e).dv.connMap a = some n := hn
    have ih : ∀ a n, PyDict.get? (arun v evs).dv.connMap a = some n → ∃ l, PyDict.get? (arun v evs).dv.dialMap a = some l := ih
    show ∃ l, PyDict.get? (astep v (arun v evs) e).dv.dialMap a = some l
    generalize (astep v (arun v evs) e).dv = d' at hs hn ⊢
    generalize (arun v evs).dv = d at hs hd ih
    cases hs with
    | again i r a l m h0 hc =>
      have := (hd.calls i _ h0).2.2.2
      rw [hc] at this
      cases this
    | connect i r b l h0 =>
      have hl := (hd.calls i _ h0).2.1
      by_cases e : b = a
      · exact ⟨l, by rw [← e]; exact hl⟩
      · refine ih a n ?_
        have hn : PyDict.get? (PyDict.set d.connMap b d.addrs.length) a = some n := hn
        rw [PyDict.get?_set, if_neg e] at hn
        exact hn
    | dialNew i pc0 r b h0 _ hk hc hm =>
      show ∃ l, PyDict.get? (PyDict.set d.dialMap b d.locks.length) a = some l
      rw [PyDict.get?_set]
      split
      · exact ⟨_, rfl⟩
      · exact ih a n hn
    | _ => exact ih a n hn

/-- C96, the part that holds: a send that fails is tried again while attempts are left, if nobody has given up the address
meanwhile (the two entries are there), in particular if it is the first send that fails at all. -/
theorem C96_retried_partial (v : PyVer) (evs : List AEv) (i r : Nat) (a : Addr) (n : Nat) (hf : Flushing (arun v evs) i r a n)
    (hr : 1 < r)
    (h : (PyDict.contains (arun v evs).connMap a = true ∧ PyDict.contains (arun v evs).dialMap a = true) ∨ NoSendFails v evs) :
    Retrying (astep v (arun v evs) (.drained i false)) i (r - 1) a := by
  obtain ⟨c, hc, hp⟩ := hf
  have hh : PyDict.contains (arun v evs).connMap a = true ∧ PyDict.contains (arun v evs).dialMap a = true := by
    rcases h with h | h
    · exact h
    · obtain ⟨hd, -⟩ := arun_dinv v evs h
      have hcm : PyDict.get? (arun v evs).connMap a = some n := by
        have h1 := pcs_get hc
        rcases hp with hp | hp
        · rw [hp] at h1; exact (hd.calls i _ h1).2
        · rw [hp] at h1; exact (hd.calls i _ h1).2
      obtain ⟨l, hl⟩ := arun_lock_there v evs h a n hcm
      unfold PyDict.contains
      rw [hcm, hl]
      exact ⟨rfl, rfl⟩
  rcases hp with hp | hp
  · simp only [astep, ASt.drained, hc, hp, Bool.false_eq_true, if_false]
    exact broken_retrying hc hr a n hh.1 hh.2
  · simp only [astep, ASt.drained, hc, hp, Bool.false_eq_true, if_false]
    exact broken_retrying hc hr a n hh.1 hh.2

set_option maxRecDepth 20000 in
example : (∀ i, .drained i false ∉ exTwoFlush) ∧
    (arun .from38 exTwoFlush).calls.map ACall.pc = [.drain1 3 exAddr 0, .drain1 3 exAddr 0] := by
  refine ⟨?_, by decide +kernel⟩
  intro i h
  simp [exTwoFlush] at h

/-! ## C97 -/

/-- C97: giving up a connection changes nothing for the other connections: they are still used for new calls, and still
read. -/
def C97_full : Prop :=
  ∀ (v : PyVer) (evs : List AEv) (i r : Nat) (a : Addr) (n : Nat), Flushing (arun v evs) i r a n →
    ∀ (m : Nat), m ≠ n →
      (∀ b, PyDict.get? (arun v evs).connMap b = some m →
        PyDict.get? (astep v (arun v evs) (.drained i false)).connMap b = some m) ∧
      (astep v (arun v evs) (.drained i false)).conns[m]? = (arun v evs).conns[m]?

/-- and is replaced -/
def exReplaced : List AEv := exBroken ++ [.dialed 0 true]

/-- C97 does not hold: the second call that notices that connection 0 is broken removes connection 1 from the map, which
the first call has just made. Nobody uses it for new calls any more, and nobody closes it. -/
theorem C97_violated : ¬ C97_full ∧ (arun .from38 exReplaced).connMap = [(exAddr, 1)] ∧
    (arun .from38 (exReplaced ++ [.drained 1 false])).connMap = [] ∧
    (arun .from38 (exReplaced ++ [.drained 1 false])).conns.map (fun k => (k.cancelled, k.closed)) =
      [(true, false), (false, false)] := by
  have e0 : (arun .from38 exReplaced).connMap = [(exAddr, 1)] := by decide +kernel
  have e1 : (arun .from38 (exReplaced ++ [.drained 1 false])).connMap = [] := by decide +kernel
  refine ⟨?_, e0, e1, by decide +kernel⟩
  intro h
  have e2 : (arun .from38 exReplaced).calls.map ACall.pc = [.drain1 2 exAddr 1, .drain1 3 exAddr 0] := by decide +kernel
  obtain ⟨c, hc, hp⟩ := call_of_pcs e2 (i := 1) (pc := .drain1 3 exAddr 0) rfl
  have e3 : PyDict.get? (arun .from38 exReplaced).connMap exAddr = some 1 := by rw [e0]; decide +kernel
  have h1 := (h .from38 exReplaced 1 3 exAddr 0 ⟨c, hc, .inl hp⟩ 1 (by decide)).1 exAddr e3
  rw [← arun_snoc, e1] at h1
  exact absurd h1 (by decide)

theorem get?_erase_ne {K V : Type} [DecidableEq K] (d : PyDict K V) {k k2 : K} (h : k ≠ k2) :
    PyDict.get? (PyDict.erase d k) k2 = PyDict.get? d k2 := by
  induction d with
  | nil => rfl
  | cons q d ih =>
    obtain ⟨k', v'⟩ := q
    simp only [PyDict.erase]
    split
    · next e => rw [PyDict.get?_cons, if_neg (by rw [e]; exact h)]
    · rw [PyDict.get?_cons, PyDict.get?_cons, ih]

theorem send_connMap (s : ASt) (i : Nat) (c : ACall) (r : Nat) (a : Addr) : (s.send i c r a).connMap = s.connMap := by
  have hsf : ∀ (s' : ASt) (k : Nat) (x : ACall), (s'.sendFailed k x).connMap = s'.connMap := by
    intro s' k x
    unfold ASt.sendFailed
    split <;> rfl
  unfold ASt.send
  split
  · exact hsf ..
  · split
    · rfl
    · split
      · split <;> rfl
      · rfl

theorem broken_connMap (s : ASt) (i : Nat) (c : ACall) (r : Nat) (a : Addr) (n : Nat) :
    (s.broken i c r a n).connMap = PyDict.erase s.connMap a := by
  have hsf : ∀ (s' : ASt) (k : Nat) (x : ACall), (s'.sendFailed k x).connMap = s'.connMap := by
    intro s' k x
    unfold ASt.sendFailed
    split <;> rfl
  unfold ASt.broken
  dsimp only
  split
  · split
    · exact send_connMap ..
    · exact hsf ..
  · next h =>
    rw [hsf]
    refine (PyDict.erase_of_not_mem ?_).symm
    intro hm
    exact h ((PyDict.contains_iff _ _).2 hm)

/-- C97, the part that holds: the connections of other addresses stay in use; no other connection is touched in any
other way; the connection that is given up is read no more, and no longer in use for its address. -/
theorem C97_others_partial (v : PyVer) (evs : List AEv) (i r : Nat) (a : Addr) (n : Nat) (hf : Flushing (arun v evs) i r a n) :
    (∀ b, b ≠ a → PyDict.get? (astep v (arun v evs) (.drained i false)).connMap b = PyDict.get? (arun v evs).connMap b) ∧
    (∀ m, m ≠ n → (astep v (arun v evs) (.drained i false)).conns[m]? = (arun v evs).conns[m]?) ∧
    ∀ k, (astep v (arun v evs) (.drained i false)).conns[n]? = some k → k.cancelled = true := by
  obtain ⟨c, hc, hp⟩ := hf
  have e : astep v (arun v evs) (.drained i false) = (arun v evs).broken i c r a n := by
    rcases hp with hp | hp <;> simp only [astep, ASt.drained, hc, hp, Bool.false_eq_true, if_false]
  rw [e]
  refine ⟨?_, ?_, ?_⟩
  · intro b hb
    rw [broken_connMap]
    exact get?_erase_ne _ (Ne.symm hb)
  · intro m hm
    rw [broken_conns, List.getElem?_modify]
    cases (arun v evs).conns[m]? <;> simp [Ne.symm hm]
  · intro k hk
    rw [broken_conns, List.getElem?_modify] at hk
    cases hx : (arun v evs).conns[n]? with
    | none => rw [hx] at hk; cases hk
    | some x =>
      rw [hx] at hk
      simp only [if_true, Option.map_eq_map, Option.map_some, Option.some.injEq] at hk
      rw [← hk]

/-- giving up one of two connections -/
example : (arun .from38 (exTwoFlush ++ [.call (exAReq 3), .start 2 (py "g", 2), .dialed 2 true])).connMap = [(exAddr, 0), ((py "g", 2), 1)] ∧
    (arun .from38 (exTwoFlush ++ [.call (exAReq 3), .start 2 (py "g", 2), .dialed 2 true, .drained 0 false])).connMap = [((py "g", 2), 1)] := by
  decide +kernel

end Bolt
