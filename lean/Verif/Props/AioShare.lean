import Verif.Props.AioSend
/-! C61: calls to one address share one connection. -/
namespace Bolt
open Spec

/-- what matters for the connections -/
structure DV where
  connMap : PyDict Addr Nat
  dialMap : PyDict Addr Nat
  locks : List Bool
  addrs : List Addr
  writes : List (Nat × Nat)
  pcs : List CallPc

def ASt.dv (s : ASt) : DV := ⟨s.connMap, s.dialMap, s.locks, s.conns.map AConn.addr, s.writes, s.calls.map ACall.pc⟩

/-- the address the call uses -/
def CallPc.addr? : CallPc → Option Addr
  | .locking _ a _ | .dialing _ a _ | .drain1 _ a _ | .drain2 _ a _ => some a
  | _ => none

def CallPc.isDialing : CallPc → Bool
  | .dialing .. => true
  | _ => false

/-- the address was given when the call started, or the call uses it already -/
def KnowsAddr (St : Nat → Addr → Prop) (i : Nat) (pc0 : CallPc) (a : Addr) : Prop := St i a ∨ pc0.addr? = some a

/-- What can happen as long as no send fails. `St i a` says that call `i` was started for address `a`. -/
inductive DStep (St : Nat → Addr → Prop) : DV → DV → Prop
  | refl (d : DV) : DStep St d d
  | call (d : DV) : DStep St d { d with pcs := d.pcs ++ [.new] }
  | quiet (d : DV) (i : Nat) (pc0 pc : CallPc) (h0 : d.pcs[i]? = some pc0) (hd : pc0.isDialing = false)
      (h : pc.addr? = none) : DStep St d { d with pcs := d.pcs.set i pc }
  | release (d : DV) (i r : Nat) (a : Addr) (l : Nat) (pc : CallPc) (h0 : d.pcs[i]? = some (.dialing r a l))
      (h : pc.addr? = none) : DStep St d { d with pcs := d.pcs.set i pc, locks := d.locks.set l false }
  | use (d : DV) (i : Nat) (pc0 : CallPc) (r : Nat) (a : Addr) (n : Nat) (h0 : d.pcs[i]? = some pc0)
      (hd : pc0.isDialing = false) (hk : KnowsAddr St i pc0 a) (h : PyDict.get? d.connMap a = some n) :
      DStep St d { d with pcs := d.pcs.set i (.drain1 r a n) }
  | dial (d : DV) (i : Nat) (pc0 : CallPc) (r : Nat) (a : Addr) (l : Nat) (h0 : d.pcs[i]? = some pc0)
      (hd : pc0.isDialing = false) (hk : KnowsAddr St i pc0 a) (hc : PyDict.get? d.connMap a = none)
      (hm : PyDict.get? d.dialMap a = some l) (hl : d.locks[l]? = some false) :
      DStep St d { d with pcs := d.pcs.set i (.dialing r a l), locks := d.locks.set l true }
  | dialNew (d : DV) (i : Nat) (pc0 : CallPc) (r : Nat) (a : Addr) (h0 : d.pcs[i]? = some pc0)
      (hd : pc0.isDialing = false) (hk : KnowsAddr St i pc0 a) (hc : PyDict.get? d.connMap a = none)
      (hm : PyDict.get? d.dialMap a = none) :
      DStep St d { d with
        pcs := d.pcs.set i (.dialing r a d.locks.length)
        locks := d.locks ++ [true]
        dialMap := PyDict.set d.dialMap a d.locks.length }
  | lock (d : DV) (i : Nat) (pc0 : CallPc) (r : Nat) (a : Addr) (l : Nat) (h0 : d.pcs[i]? = some pc0)
      (hd : pc0.isDialing = false) (hk : KnowsAddr St i pc0 a) (hm : PyDict.get? d.dialMap a = some l) :
      DStep St d { d with pcs := d.pcs.set i (.locking r a l) }
  | again (d : DV) (i r : Nat) (a : Addr) (l m : Nat) (h0 : d.pcs[i]? = some (.dialing r a l))
      (hc : PyDict.get? d.connMap a = some m) (d' : DV) : DStep St d d'
  | connect (d : DV) (i r : Nat) (a : Addr) (l : Nat) (h0 : d.pcs[i]? = some (.dialing r a l)) :
      DStep St d { d with
        pcs := d.pcs.set i (.drain1 r a d.addrs.length)
        locks := d.locks.set l false
        addrs := d.addrs ++ [a]
        connMap := PyDict.set d.connMap a d.addrs.length }
  | write (d : DV) (i r : Nat) (a : Addr) (n : Nat) (h0 : d.pcs[i]? = some (.drain1 r a n)) :
      DStep St d { d with pcs := d.pcs.set i (.drain2 r a n), writes := d.writes ++ [(i, n)] }

/-- what holds of a call -/
def DCall (St : Nat → Addr → Prop) (d : DV) (i : Nat) : CallPc → Prop
  | .locking _ a l => St i a ∧ PyDict.get? d.dialMap a = some l
  | .dialing _ a l => St i a ∧ PyDict.get? d.dialMap a = some l ∧ d.locks[l]? = some true ∧ PyDict.get? d.connMap a = none
  | .drain1 _ a n | .drain2 _ a n => St i a ∧ PyDict.get? d.connMap a = some n
  | _ => True

structure DInv (St : Nat → Addr → Prop) (d : DV) : Prop where
  conn : ∀ a n, PyDict.get? d.connMap a = some n ↔ d.addrs[n]? = some a
  dialLt : ∀ a l, PyDict.get? d.dialMap a = some l → l < d.locks.length
  dialInj : ∀ a b l, PyDict.get? d.dialMap a = some l → PyDict.get? d.dialMap b = some l → a = b
  calls : ∀ (i : Nat) (pc : CallPc), d.pcs[i]? = some pc → DCall St d i pc
  uniq : ∀ (i j r r' : Nat) (a a' : Addr) (l : Nat), d.pcs[i]? = some (.dialing r a l) → d.pcs[j]? = some (.dialing r' a' l) → i = j
  writes : ∀ w ∈ d.writes, ∃ a, d.addrs[w.2]? = some a ∧ St w.1 a

theorem DCall.addr {St : Nat → Addr → Prop} {d : DV} {i : Nat} {pc : CallPc} (h : DCall St d i pc) {a : Addr}
    (ha : pc.addr? = some a) : St i a := by
  cases pc with
  | new => cases ha
  | waiting ev => cases ha
  | done r => cases ha
  | locking r b l => cases ha; exact h.1
  | dialing r b l => cases ha; exact h.1
  | drain1 r b n => cases ha; exact h.1
  | drain2 r b n => cases ha; exact h.1

theorem DInv.knows {St : Nat → Addr → Prop} {d : DV} (h : DInv St d) {i : Nat} {pc0 : CallPc} {a : Addr}
    (h0 : d.pcs[i]? = some pc0) (hk : KnowsAddr St i pc0 a) : St i a := by
  rcases hk with hk | hk
  · exact hk
  · exact (h.calls i pc0 h0).addr hk

theorem set_cases {α : Type} {l : List α} {i j : Nat} {x y : α} (h : (l.set i x)[j]? = some y) :
    (j = i ∧ y = x) ∨ (j ≠ i ∧ l[j]? = some y) := by
  rw [List.getElem?_set] at h
  by_cases e : i = j
  · rw [if_pos e] at h
    split at h
    · exact .inl ⟨e.symm, (Option.some.inj h).symm⟩
    · cases h
  · rw [if_neg e] at h
    exact .inr ⟨fun e' => e e'.symm, h⟩

/-- the step changes one call only, to something that is not dialing -/
theorem DInv.move {St : Nat → Addr → Prop} {d : DV} (h : DInv St d) (i : Nat) (pc : CallPc) (hp : DCall St d i pc)
    (hn : pc.isDialing = false) : DInv St { d with pcs := d.pcs.set i pc } := by
  refine ⟨h.conn, h.dialLt, h.dialInj, ?_, ?_, h.writes⟩
  · intro j pc' hj
    rcases set_cases hj with ⟨rfl, rfl⟩ | ⟨-, hj⟩
    · cases pc' <;> exact hp
    · have := h.calls j pc' hj
      cases pc' <;> exact this
  · intro j k r r' a a' l hj hk
    rcases set_cases hj with ⟨-, rfl⟩ | ⟨-, hj⟩
    · cases hn
    · rcases set_cases hk with ⟨-, rfl⟩ | ⟨-, hk⟩
      · cases hn
      · exact h.uniq j k r r' a a' l hj hk

theorem quiet_call {St : Nat → Addr → Prop} {d : DV} {i : Nat} {pc : CallPc} (h : pc.addr? = none) :
    DCall St d i pc ∧ pc.isDialing = false := by
  cases pc with
  | new => exact ⟨trivial, rfl⟩
  | waiting ev => exact ⟨trivial, rfl⟩
  | done r => exact ⟨trivial, rfl⟩
  | locking r b l => cases h
  | dialing r b l => cases h
  | drain1 r b n => cases h
  | drain2 r b n => cases h

/-- the lock is released by the call that has it -/
theorem DInv.free {St : Nat → Addr → Prop} {d : DV} (h : DInv St d) {i r : Nat} {a : Addr} {l : Nat} (pc : CallPc)
    (h0 : d.pcs[i]? = some (.dialing r a l)) (hp : DCall St d i pc) (hn : pc.isDialing = false) :
    DInv St { d with pcs := d.pcs.set i pc, locks := d.locks.set l false } := by
  have h1 := h.move i pc hp hn
  refine ⟨h1.conn, fun a l h => by rw [List.length_set]; exact h1.dialLt a l h, h1.dialInj, ?_, h1.uniq, h1.writes⟩
  intro j pc' hj
  have hc := h1.calls j pc' hj
  cases pc' with
  | dialing r' a' l' =>
    obtain ⟨c1, c2, c3, c4⟩ := hc
    refine ⟨c1, c2, ?_, c4⟩
    have : l ≠ l' := by
      rintro rfl
      rcases set_cases hj with ⟨-, rfl⟩ | ⟨hne, hj⟩
      · cases hn
      · exact hne (h.uniq j i r' r a' a l hj h0)
    show (d.locks.set l false)[l']? = some true
    rw [List.getElem?_set, if_neg this]
    exact c3
  | _ => exact hc

theorem DInv.step {St : Nat → Addr → Prop} {d d' : DV} (hs : DStep St d d') (h : DInv St d) : DInv St d' := by
  cases hs with
  | refl => exact h
  | call =>
    have old : ∀ (j : Nat) (pc : CallPc), (d.pcs ++ [.new])[j]? = some pc → d.pcs[j]? = some pc ∨ pc = .new := by
      intro j pc hj
      by_cases hl : j < d.pcs.length
      · rw [List.getElem?_append_left hl] at hj; exact .inl hj
      · rw [List.getElem?_append_right (Nat.le_of_not_lt hl)] at hj
        exact .inr (List.mem_singleton.1 (List.mem_of_getElem? hj))
    refine ⟨h.conn, h.dialLt, h.dialInj, ?_, ?_, h.writes⟩
    · intro j pc hj
      rcases old j pc hj with hj | rfl
      · have := h.calls j pc hj
        cases pc <;> exact this
      · trivial
    · intro i j r r' a a' l hi hj
      rcases old i _ hi with hi | hi
      · rcases old j _ hj with hj | hj
        · exact h.uniq i j r r' a a' l hi hj
        · cases hj
      · cases hi
  | quiet i pc0 pc h0 hd hq => exact h.move i pc (quiet_call hq).1 (quiet_call (St := St) (d := d) (i := i) hq).2
  | release i r a l pc h0 hq => exact h.free pc h0 (quiet_call hq).1 (quiet_call (St := St) (d := d) (i := i) hq).2
  | use i pc0 r a n h0 hd hk hc => exact h.move i _ ⟨h.knows h0 hk, hc⟩ rfl
  | lock i pc0 r a l h0 hd hk hm => exact h.move i _ ⟨h.knows h0 hk, hm⟩ rfl
  | dial i pc0 r a l h0 hd hk hc hm hl =>
    have held : ∀ (j : Nat) (r' : Nat) (a' : Addr), d.pcs[j]? = some (.dialing r' a' l) → False := by
      intro j r' a' hj
      have := (h.calls j _ hj).2.2.1
      rw [hl] at this
      cases this
    have hlt : l < d.locks.length := h.dialLt a l hm
    refine ⟨h.conn, fun a l h' => by rw [List.length_set]; exact h.dialLt a l h', h.dialInj, ?_, ?_, h.writes⟩
    · intro j pc hj
      rcases set_cases hj with ⟨rfl, rfl⟩ | ⟨-, hj⟩
      · refine ⟨h.knows h0 hk, hm, ?_, hc⟩
        show (d.locks.set l true)[l]? = some true
        rw [List.getElem?_set, if_pos rfl, if_pos hlt]
      · have hcj := h.calls j pc hj
        cases pc with
        | dialing r' a' l' =>
          obtain ⟨c1, c2, c3, c4⟩ := hcj
          refine ⟨c1, c2, ?_, c4⟩
          have : l ≠ l' := by
            rintro rfl
            exact held j r' a' hj
          show (d.locks.set l true)[l']? = some true
          rw [List.getElem?_set, if_neg this]
          exact c3
        | _ => exact hcj
    · intro j k r1 r2 a1 a2 l' hj hk'
      rcases set_cases hj with ⟨rfl, e⟩ | ⟨-, hj2⟩
      · cases e
        rcases set_cases hk' with ⟨rfl, -⟩ | ⟨-, hk'⟩
        · rfl
        · exact (held k r2 a2 hk').elim
      · rcases set_cases hk' with ⟨rfl, e⟩ | ⟨-, hk2⟩
        · cases e
          exact (held j r1 a1 hj2).elim
        · exact h.uniq j k r1 r2 a1 a2 l' hj2 hk2
  | dialNew i pc0 r a h0 hd hk hc hm =>
    have held : ∀ (j : Nat) (r' : Nat) (a' : Addr), d.pcs[j]? = some (.dialing r' a' d.locks.length) → False := by
      intro j r' a' hj
      have := h.dialLt _ _ (h.calls j _ hj).2.1
      exact Nat.lt_irrefl _ this
    have dm : ∀ b l, PyDict.get? d.dialMap b = some l →
        PyDict.get? (PyDict.set d.dialMap a d.locks.length) b = some l := by
      intro b l hb
      rw [PyDict.get?_set, if_neg]
      · exact hb
      · rintro rfl
        rw [hm] at hb
        cases hb
    have dm' : ∀ b l, PyDict.get? (PyDict.set d.dialMap a d.locks.length) b = some l →
        (b = a ∧ l = d.locks.length) ∨ PyDict.get? d.dialMap b = some l := by
      intro b l hb
      rw [PyDict.get?_set] at hb
      by_cases e : a = b
      · rw [if_pos e] at hb
        exact .inl ⟨e.symm, (Option.some.inj hb).symm⟩
      · rw [if_neg e] at hb
        exact .inr hb
    refine ⟨h.conn, ?_, ?_, ?_, ?_, h.writes⟩
    · intro b l hb
      show l < (d.locks ++ [true]).length
      rw [List.length_append]
      rcases dm' b l hb with ⟨-, rfl⟩ | hb
      · exact Nat.lt_succ_self _
      · exact Nat.lt_succ_of_lt (h.dialLt b l hb)
    · intro b b' l hb hb'
      rcases dm' b l hb with ⟨rfl, rfl⟩ | hb2
      · rcases dm' b' _ hb' with ⟨rfl, -⟩ | hb3
        · rfl
        · exact absurd (h.dialLt _ _ hb3) (Nat.lt_irrefl _)
      · rcases dm' b' _ hb' with ⟨rfl, rfl⟩ | hb3
        · exact absurd (h.dialLt _ _ hb2) (Nat.lt_irrefl _)
        · exact h.dialInj b b' l hb2 hb3
    · intro j pc hj
      rcases set_cases hj with ⟨rfl, rfl⟩ | ⟨-, hj⟩
      · refine ⟨h.knows h0 hk, ?_, ?_, hc⟩
        · show PyDict.get? (PyDict.set _ _ _) _ = _
          rw [PyDict.get?_set, if_pos rfl]
        · show (d.locks ++ [true])[d.locks.length]? = some true
          rw [List.getElem?_append_right (Nat.le_refl _), Nat.sub_self]
          rfl
      · have hcj := h.calls j pc hj
        cases pc with
        | dialing r' a' l' =>
          obtain ⟨c1, c2, c3, c4⟩ := hcj
          refine ⟨c1, dm _ _ c2, ?_, c4⟩
          show (d.locks ++ [true])[l']? = some true
          rw [List.getElem?_append_left (List.getElem?_eq_some_iff.1 c3).1]
          exact c3
        | locking r' a' l' => exact ⟨hcj.1, dm _ _ hcj.2⟩
        | _ => exact hcj
    · intro j k r1 r2 a1 a2 l' hj hk'
      rcases set_cases hj with ⟨rfl, e⟩ | ⟨-, hj2⟩
      · cases e
        rcases set_cases hk' with ⟨rfl, -⟩ | ⟨-, hk'⟩
        · rfl
        · exact (held k r2 a2 hk').elim
      · rcases set_cases hk' with ⟨rfl, e⟩ | ⟨-, hk2⟩
        · cases e
          exact (held j r1 a1 hj2).elim
        · exact h.uniq j k r1 r2 a1 a2 l' hj2 hk2
  | again i r a l m h0 hc =>
    have := (h.calls i _ h0).2.2.2
    rw [hc] at this
    cases this
  | connect i r a l h0 =>
    obtain ⟨c1, c2, c3, c4⟩ := h.calls i _ h0
    have hcm : ∀ b n, PyDict.get? d.connMap b = some n → PyDict.get? (PyDict.set d.connMap a d.addrs.length) b = some n := by
      intro b n hb
      rw [PyDict.get?_set, if_neg]
      · exact hb
      · rintro rfl
        rw [c4] at hb
        cases hb
    -- first the lock, then the connection
    have h1 := h.free (.done .none) h0 trivial rfl
    refine ⟨?_, h1.dialLt, h1.dialInj, ?_, ?_, ?_⟩
    · intro b n
      show PyDict.get? (PyDict.set d.connMap a d.addrs.length) b = some n ↔ (d.addrs ++ [a])[n]? = some b
      rw [PyDict.get?_set]
      by_cases e : a = b
      · subst e
        rw [if_pos rfl]
        constructor
        · intro e
          cases e
          rw [List.getElem?_append_right (Nat.le_refl _), Nat.sub_self]
          rfl
        · intro e
          by_cases hl : n < d.addrs.length
          · rw [List.getElem?_append_left hl] at e
            rw [(h.conn a n).2 e] at c4
            cases c4
          · have := (List.getElem?_eq_some_iff.1 e).1
            rw [List.length_append, List.length_singleton] at this
            rw [show n = d.addrs.length by omega]
      · rw [if_neg e, h.conn]
        by_cases hl : n < d.addrs.length
        · rw [List.getElem?_append_left hl]
        · rw [List.getElem?_append_right (Nat.le_of_not_lt hl), List.getElem?_eq_none (Nat.le_of_not_lt hl)]
          constructor
          · intro e'; cases e'
          · intro e'
            exact absurd (List.mem_singleton.1 (List.mem_of_getElem? e')).symm e
    · intro j pc hj
      rcases set_cases hj with ⟨rfl, rfl⟩ | ⟨hne, hj⟩
      · refine ⟨c1, ?_⟩
        show PyDict.get? (PyDict.set _ _ _) _ = _
        rw [PyDict.get?_set, if_pos rfl]
      · have hcj := h1.calls j pc (by
          show (d.pcs.set i _)[j]? = some pc
          rw [List.getElem?_set, if_neg (fun e => hne e.symm)]
          exact hj)
        cases pc with
        | dialing r' a' l' =>
          obtain ⟨k1, k2, k3, k4⟩ := hcj
          refine ⟨k1, k2, k3, ?_⟩
          show PyDict.get? (PyDict.set d.connMap a _) a' = none
          rw [PyDict.get?_set, if_neg]
          · exact k4
          · rintro rfl
            have k2 : PyDict.get? d.dialMap a = some l' := k2
            rw [c2] at k2
            cases k2
            exact hne (h.uniq j i r' r a a l hj h0)
        | drain1 r' a' n => exact ⟨hcj.1, hcm _ _ hcj.2⟩
        | drain2 r' a' n => exact ⟨hcj.1, hcm _ _ hcj.2⟩
        | _ => exact hcj
    · intro j k r1 r2 a1 a2 l' hj hk'
      rcases set_cases hj with ⟨-, e⟩ | ⟨-, hj⟩
      · cases e
      · rcases set_cases hk' with ⟨-, e⟩ | ⟨-, hk'⟩
        · cases e
        · exact h.uniq j k r1 r2 a1 a2 l' hj hk'
    · intro w hw
      obtain ⟨b, b1, b2⟩ := h.writes w hw
      refine ⟨b, ?_, b2⟩
      show (d.addrs ++ [a])[w.2]? = some b
      rw [List.getElem?_append_left (List.getElem?_eq_some_iff.1 b1).1]
      exact b1
  | write i r a n h0 =>
    have hc := h.calls i _ h0
    have h1 := h.move i (.drain2 r a n) hc rfl
    refine ⟨h1.conn, h1.dialLt, h1.dialInj, ?_, h1.uniq, ?_⟩
    · intro j pc hj
      have := h1.calls j pc hj
      cases pc <;> exact this
    · intro w hw
      rcases List.mem_append.1 hw with hw | hw
      · exact h.writes w hw
      · rw [List.mem_singleton.1 hw]
        exact ⟨a, (h.conn a n).1 hc.2, hc.1⟩

/-! ### the events are such steps -/

theorem modify_pc (l : List ACall) (i : Nat) (pc : CallPc) :
    (l.modify i fun c => { c with pc := pc }).map ACall.pc = (l.map ACall.pc).set i pc := by
  apply List.ext_getElem?
  intro j
  rw [List.getElem?_map, List.getElem?_modify, List.getElem?_set, List.getElem?_map, List.length_map]
  by_cases e : i = j
  · subst e
    rw [if_pos rfl]
    by_cases hl : i < l.length
    · rw [if_pos hl, List.getElem?_eq_getElem hl]; simp
    · rw [if_neg hl, List.getElem?_eq_none (Nat.le_of_not_lt hl)]; rfl
  · rw [if_neg e]
    cases l[j]? <;> simp [e]

theorem modify_set (l : List ACall) (i : Nat) :
    (l.modify i fun c => { c with set := true }).map ACall.pc = l.map ACall.pc := by
  apply List.ext_getElem?
  intro j
  rw [List.getElem?_map, List.getElem?_modify, List.getElem?_map]
  by_cases e : i = j
  · cases l[j]? <;> simp [e]
  · cases l[j]? <;> simp [e]

theorem dv_setPc (s : ASt) (i : Nat) (pc : CallPc) : (s.setPc i pc).dv = { s.dv with pcs := s.dv.pcs.set i pc } := by
  show DV.mk _ _ _ _ _ _ = DV.mk _ _ _ _ _ _
  congr 1
  exact modify_pc s.calls i pc

theorem pcs_get {s : ASt} {i : Nat} {c : ACall} (h : s.calls[i]? = some c) : s.dv.pcs[i]? = some c.pc := by
  show (s.calls.map ACall.pc)[i]? = _
  rw [List.getElem?_map, h]
  rfl

theorem addrs_fixed (s : ASt) : s.conns.map AConn.addr = (s.conns.map AConn.fixed).map Prod.fst := by
  rw [List.map_map]
  rfl

/-- how `_send` goes on while nothing fails -/
theorem send_dstep {St : Nat → Addr → Prop} (s : ASt) (i : Nat) (c : ACall) (r : Nat) (a : Addr) (hr : r ≠ 0)
    {pc0 : CallPc} (h0 : s.dv.pcs[i]? = some pc0) (hd : pc0.isDialing = false) (hk : KnowsAddr St i pc0 a) :
    DStep St s.dv (s.send i c r a).dv := by
  unfold ASt.send
  rw [if_neg hr]
  split
  · next n hn =>
    rw [dv_setPc]
    exact .use s.dv i pc0 r a n h0 hd hk hn
  · next hn =>
    split
    · next l hl =>
      split
      · next hf =>
        rw [dv_setPc]
        exact .dial s.dv i pc0 r a l h0 hd hk hn hl hf
      · rw [dv_setPc]
        exact .lock s.dv i pc0 r a l h0 hd hk hl
    · next hl =>
      dsimp only
      rw [dv_setPc]
      exact .dialNew s.dv i pc0 r a h0 hd hk hn hl

/-- nothing is done about connections -/
theorem dstep_same {St : Nat → Addr → Prop} {s s' : ASt} (h : s'.dv = s.dv) : DStep St s.dv s'.dv := by
  rw [h]
  exact .refl _

theorem sendFailed_dv (s : ASt) (i : Nat) (c : ACall) : ∃ r, (s.sendFailed i c).dv = { s.dv with pcs := s.dv.pcs.set i (.done r) } := by
  unfold ASt.sendFailed
  split
  · exact ⟨.none, dv_setPc _ _ _⟩
  · exact ⟨.raised .keyError, dv_setPc _ _ _⟩

theorem onPkg_dv (s : ASt) (p : Pkg) : (s.onPkg p).dv = s.dv := by
  have h : ∀ (s : ASt) (id : PyObj), (s.notify id).dv = s.dv := by
    intro s id
    unfold ASt.notify
    split
    · show DV.mk _ _ _ _ _ _ = DV.mk _ _ _ _ _ _
      congr 1
      exact modify_set _ _
    · rfl
  unfold ASt.onPkg
  split
  · exact h ..
  · split
    · exact h ..
    · split
      · exact h ..
      · split
        · exact h ..
        · split
          · exact h ..
          · exact h ..

theorem dv_conns {s : ASt} {cs : List AConn} (h : cs.map AConn.fixed = s.conns.map AConn.fixed) :
    ({ s with conns := cs } : ASt).dv = s.dv := by
  show DV.mk _ _ _ _ _ _ = DV.mk _ _ _ _ _ _
  congr 1
  show cs.map AConn.addr = s.conns.map AConn.addr
  have e : ∀ l : List AConn, l.map AConn.addr = (l.map AConn.fixed).map Prod.fst := by
    intro l; rw [List.map_map]; rfl
  rw [e, e, h]

theorem recv_dv (s : ASt) (n : Nat) : (s.recv n).dv = s.dv := by
  unfold ASt.recv
  split
  · rfl
  · next k hk =>
    split
    · rfl
    · split <;> exact dv_conns (set_fixed hk rfl)
    · split
      · exact dv_conns (set_fixed hk rfl)
      · dsimp only
        split
        · split <;> exact dv_conns (set_fixed hk rfl)
        · split
          · exact dv_conns (set_fixed hk rfl)
          · rfl
    · split
      · exact dv_conns (set_fixed hk rfl)
      · split
        · exact dv_conns (set_fixed hk rfl)
        · split
          · dsimp only
            split
            · exact dv_conns (set_fixed hk rfl)
            · rw [onPkg_dv]
              exact dv_conns (set_fixed hk rfl)
          · split
            · exact dv_conns (set_fixed hk rfl)
            · rfl

/-- no send fails: no `drain` raises (nor is interrupted by a cancellation that the `except` clause catches), and every
request can be encoded -/
structure Spec.NoSendFails (v : PyVer) (evs : List AEv) : Prop where
  drains : ∀ i, .drained i false ∉ evs
  requests : ∀ req, .call req ∈ evs → ∃ bs, req.toStream = .ok bs
  cancels : v = .upTo37 → ∀ i, .cancel i ∉ evs

theorem astep_dstep {St : Nat → Addr → Prop} (v : PyVer) (s : ASt) (e : AEv) (hi : DInv St s.dv)
    (henc : ∀ c ∈ s.calls, ∃ bs, c.req.toStream = .ok bs) (h1 : ∀ i, e ≠ .drained i false)
    (h2 : v = .upTo37 → ∀ i, e ≠ .cancel i) (hst : ∀ i a, e = .start i a → St i a) :
    DStep St s.dv (astep v s e).dv := by
  cases e with
  | call req =>
    have : (astep v s (.call req)).dv = { s.dv with pcs := s.dv.pcs ++ [.new] } := by
      show DV.mk _ _ _ _ _ _ = DV.mk _ _ _ _ _ _
      congr 1
      exact List.map_append
    rw [this]
    exact .call _
  | start i a =>
    simp only [astep, ASt.start]
    split
    · next c hc =>
      split
      · next hp =>
        exact send_dstep { s with reqs := PyDict.set s.reqs c.req.requestId i } i c 3 a (by decide) (pc0 := .new)
          (by rw [← hp]; exact pcs_get hc) rfl (.inl (hst i a rfl))
      · exact .refl _
    · exact .refl _
  | lock i =>
    simp only [astep, ASt.lockTurn]
    split
    · next c hc =>
      split
      · next r a l hp =>
        have h0 : s.dv.pcs[i]? = some (.locking r a l) := by rw [← hp]; exact pcs_get hc
        split
        · next hf =>
          split
          · next n hn =>
            rw [dv_setPc]
            exact .use s.dv i _ r a n h0 rfl (.inr rfl) hn
          · next hn =>
            rw [dv_setPc]
            -- the lock is still the one of the address
            exact .dial s.dv i _ r a l h0 rfl (.inr rfl) hn (hi.calls i _ h0).2 hf
        · exact .refl _
      · exact .refl _
    · exact .refl _
  | dialed i ok =>
    simp only [astep, ASt.dialed]
    split
    · next c hc =>
      split
      · next r a l hp =>
        have h0 : s.dv.pcs[i]? = some (.dialing r a l) := by rw [← hp]; exact pcs_get hc
        split
        · split
          · next m hm => exact .again s.dv i r a l m h0 hm _
          · have h := DStep.connect (St := St) s.dv i r a l h0
            rw [dv_setPc]
            have e : (s.setLock l false).conns.length = s.dv.addrs.length := (List.length_map _).symm
            rw [e]
            have e2 : (s.conns ++ [({ addr := a } : AConn)]).map AConn.addr = s.dv.addrs ++ [a] := List.map_append
            rw [← e2] at h
            exact h
        · obtain ⟨r', e⟩ := sendFailed_dv (s.setLock l false) i c
          rw [e]
          exact .release s.dv i r a l (.done r') h0 rfl
      · exact .refl _
    · exact .refl _
  | drained i ok =>
    have hok : ok = true := by
      cases ok with
      | true => rfl
      | false => exact absurd rfl (h1 i)
    subst hok
    simp only [astep, ASt.drained]
    split
    · next c hc =>
      split
      · next r a n hp =>
        have h0 : s.dv.pcs[i]? = some (.drain1 r a n) := by rw [← hp]; exact pcs_get hc
        rw [if_pos trivial]
        split
        · next er he =>
          obtain ⟨bs, hb⟩ := henc c (List.mem_of_getElem? hc)
          rw [he] at hb
          cases hb
        · next bs hb =>
          rw [dv_setPc]
          have h := DStep.write (St := St) s.dv i r a n h0
          have e : ∀ l : List AConn, (l.modify n (AConn.put i bs)).map AConn.addr = l.map AConn.addr := by
            intro l
            apply List.ext_getElem?
            intro j
            rw [List.getElem?_map, List.getElem?_map, List.getElem?_modify]
            cases l[j]? with
            | none => rfl
            | some k =>
              by_cases e : n = j
              · simp only [e, if_true, Option.map_eq_map, Option.map_some, AConn.put]
              · simp [e]
          have e2 := e s.conns
          rw [show s.dv.addrs = s.conns.map AConn.addr from rfl, ← e2] at h
          exact h
      · next r a n hp =>
        have h0 : s.dv.pcs[i]? = some (.drain2 r a n) := by rw [← hp]; exact pcs_get hc
        rw [if_pos trivial]
        split
        · rw [dv_setPc]; exact .quiet s.dv i _ _ h0 rfl rfl
        · split
          · rw [dv_setPc]; exact .quiet s.dv i _ _ h0 rfl rfl
          · rw [dv_setPc]; exact .quiet s.dv i _ _ h0 rfl rfl
      · exact .refl _
    · exact .refl _
  | wake i =>
    simp only [astep, ASt.wake]
    split
    · next c hc =>
      split
      · next ev hp =>
        have h0 : s.dv.pcs[i]? = some (.waiting ev) := by rw [← hp]; exact pcs_get hc
        split
        · split
          · rw [dv_setPc]; exact .quiet s.dv i _ _ h0 rfl rfl
          · rw [dv_setPc]; exact .quiet s.dv i _ _ h0 rfl rfl
        · exact .refl _
      · exact .refl _
    · exact .refl _
  | cancel i =>
    have hv : v ≠ .upTo37 := fun hv => h2 hv i rfl
    simp only [astep, ASt.cancel]
    split
    · next c hc =>
      split
      · next hp =>
        rw [dv_setPc]
        exact .quiet s.dv i _ _ (pcs_get hc) (by rw [hp]; rfl) rfl
      · next hp =>
        rw [if_neg hv, dv_setPc]
        exact .quiet s.dv i _ _ (pcs_get hc) (by rw [hp]; rfl) rfl
      · next r a l hp =>
        rw [if_neg hv, dv_setPc]
        exact .release s.dv i r a l _ (by rw [← hp]; exact pcs_get hc) rfl
      · next hp =>
        rw [if_neg hv, dv_setPc]
        exact .quiet s.dv i _ _ (pcs_get hc) (by rw [hp]; rfl) rfl
      · next hp =>
        rw [if_neg hv, dv_setPc]
        exact .quiet s.dv i _ _ (pcs_get hc) (by rw [hp]; rfl) rfl
      · next hp =>
        rw [dv_setPc]
        exact .quiet s.dv i _ _ (pcs_get hc) (by rw [hp]; rfl) rfl
      · exact .refl _
    · exact .refl _
  | recv n => exact dstep_same (recv_dv s n)
  | data n bs =>
    refine dstep_same (dv_conns (modify_fixed _ _ _ ?_))
    intro k
    split <;> rfl
  | eof n => exact dstep_same (dv_conns (modify_fixed _ _ _ fun _ => rfl))
  | reset n => exact dstep_same (dv_conns (modify_fixed _ _ _ fun _ => rfl))

theorem Spec.NoSendFails.prefix {v : PyVer} {evs more : List AEv} (h : NoSendFails v (evs ++ more)) : NoSendFails v evs :=
  ⟨fun i hi => h.drains i (List.mem_append_left _ hi), fun r hr => h.requests r (List.mem_append_left _ hr),
    fun hv i hi => h.cancels hv i (List.mem_append_left _ hi)⟩

theorem arun_dinv (v : PyVer) (evs : List AEv) (h : NoSendFails v evs) :
    DInv (fun i a => .start i a ∈ evs) (arun v evs).dv ∧ ∀ c ∈ (arun v evs).calls, ∃ bs, c.req.toStream = .ok bs := by
  induction evs using snoc_induct with
  | nil =>
    refine ⟨⟨?_, ?_, ?_, ?_, ?_, ?_⟩, fun c h => by simp [arun] at h⟩
    · intro a n
      constructor
      · intro h; cases h
      · intro h; simp [arun, ASt.dv] at h
    · intro a l h; cases h
    · intro a b l h; cases h
    · intro i pc h; simp [arun, ASt.dv] at h
    · intro i j r r' a a' l h; simp [arun, ASt.dv] at h
    · intro w h; simp [arun, ASt.dv] at h
  | snoc evs e ih =>
    obtain ⟨i1, i2⟩ := ih h.prefix
    have mono : DInv (fun i a => .start i a ∈ evs ++ [e]) (arun v evs).dv := by
      refine ⟨i1.conn, i1.dialLt, i1.dialInj, ?_, i1.uniq, ?_⟩
      · intro i pc hpc
        have := i1.calls i pc hpc
        cases pc with
        | locking r a l => exact ⟨List.mem_append_left _ this.1, this.2⟩
        | dialing r a l => exact ⟨List.mem_append_left _ this.1, this.2⟩
        | drain1 r a l => exact ⟨List.mem_append_left _ this.1, this.2⟩
        | drain2 r a l => exact ⟨List.mem_append_left _ this.1, this.2⟩
        | _ => trivial
      · intro w hw
        obtain ⟨a, h1, h2⟩ := i1.writes w hw
        exact ⟨a, h1, List.mem_append_left _ h2⟩
    have last : e ∈ evs ++ [e] := List.mem_append_right _ (List.mem_singleton.2 rfl)
    constructor
    · rw [arun_snoc]
      refine mono.step (astep_dstep v _ e mono i2 ?_ ?_ ?_)
      · intro i he
        subst he
        exact h.drains i last
      · intro hv i he
        subst he
        exact h.cancels hv i last
      · intro i a he
        subst he
        exact last
    · have all : ∀ b, BSteps (fun r => e = .call r) (Receives (arun v evs) e) (arun v evs).bk b →
          ∀ c ∈ b.calls, ∃ bs, c.req.toStream = .ok bs := by
        intro b hs
        induction hs with
        | refl => exact i2
        | snoc _ h2 ih =>
          have md : ∀ (l : List ACall) (j : Nat) (f : ACall → ACall), (∀ c, (f c).req = c.req) →
              (∀ c ∈ l, ∃ bs, c.req.toStream = .ok bs) → ∀ c ∈ l.modify j f, ∃ bs, c.req.toStream = .ok bs := by
            intro l j f hf hl
            exact modify_forall (P := fun c : ACall => ∃ bs, c.req.toStream = .ok bs) hl fun c h => by rw [hf]; exact h
          cases h2 with
          | call req hm =>
            intro c hc
            rcases List.mem_append.1 hc with hc | hc
            · exact ih c hc
            · rw [List.mem_singleton.1 hc]
              exact h.requests req (by rw [← hm]; exact last)
          | notify p ev hp hr => exact md _ _ _ (fun _ => rfl) ih
          | _ => exact md _ _ _ (fun _ => rfl) ih
      exact all _ (arun_bk v evs e)

/-- C61. As long as no send fails, there is at most one connection to an address, the one in `connection_mapping`; and
every write of a call goes to a connection to the address the call was started for. Dials may fail. -/
theorem C61_one_connection (v : PyVer) (evs : List AEv) (h : NoSendFails v evs) :
    (∀ (n m : Nat) (k k' : AConn), (arun v evs).conns[n]? = some k → (arun v evs).conns[m]? = some k' → k.addr = k'.addr →
      n = m) ∧
    (∀ (n : Nat) (k : AConn), (arun v evs).conns[n]? = some k → PyDict.get? (arun v evs).connMap k.addr = some n) ∧
    ∀ i n, (i, n) ∈ (arun v evs).writes → ∃ k, (arun v evs).conns[n]? = some k ∧ .start i k.addr ∈ evs := by
  obtain ⟨hi, -⟩ := arun_dinv v evs h
  have addr : ∀ (n : Nat) (k : AConn), (arun v evs).conns[n]? = some k → (arun v evs).dv.addrs[n]? = some k.addr := by
    intro n k hk
    show ((arun v evs).conns.map AConn.addr)[n]? = _
    rw [List.getElem?_map, hk]
    rfl
  have h2 : ∀ (n : Nat) (k : AConn), (arun v evs).conns[n]? = some k → PyDict.get? (arun v evs).connMap k.addr = some n :=
    fun n k hk => (hi.conn k.addr n).2 (addr n k hk)
  refine ⟨?_, h2, ?_⟩
  · intro n m k k' hk hk' he
    have h1 := h2 n k hk
    rw [he, h2 m k' hk'] at h1
    exact (Option.some.inj h1).symm
  · intro i n hw
    obtain ⟨a, h1, h2⟩ := hi.writes (i, n) hw
    have h1 : ((arun v evs).conns.map AConn.addr)[n]? = some a := h1
    rw [List.getElem?_map] at h1
    cases hk : (arun v evs).conns[n]? with
    | none => rw [hk] at h1; cases h1
    | some k =>
      rw [hk] at h1
      cases h1
      exact ⟨k, rfl, h2⟩

/-- three calls, two addresses; one dial fails -/
def exShare : List AEv :=
  [.call (exAReq 1), .call (exAReq 2), .call (exAReq 3), .start 0 exAddr, .start 1 exAddr, .start 2 (py "g", 2),
   .dialed 0 false, .lock 1, .dialed 2 true, .dialed 1 true, .drained 1 true, .call (exAReq 4), .start 3 exAddr,
   .drained 3 true, .drained 2 true]

set_option maxRecDepth 20000 in
example : (∀ i, .drained i false ∉ exShare) ∧ (∀ i, .cancel i ∉ exShare) ∧
    (∀ c ∈ (arun .upTo37 exShare).calls, (match c.req.toStream with | .ok _ => true | .error _ => false) = true) ∧
    (arun .upTo37 exShare).writes = [(1, 1), (3, 1), (2, 0)] := by
  refine ⟨?_, ?_, by decide +kernel, by decide +kernel⟩ <;> (intro i h; simp [exShare] at h)

/-- a failing flush of one call makes a second connection -/
example : (arun .from38 (exToWait (exAReq 1) ++ [.call (exAReq 2), .start 1 exAddr, .drained 1 false, .dialed 1 true])).conns.map
    AConn.addr = [exAddr, exAddr] := by decide +kernel

end Bolt
