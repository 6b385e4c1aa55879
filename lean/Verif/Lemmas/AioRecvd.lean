import Verif.Props.AioFail
/-!
# What a connection of the asyncio client has received is never taken back
-/
namespace Bolt
open Spec

/-- the bytes received begin with `pre` -/
def AConn.got (pre : Bytes) (k : AConn) : Prop := pre <+: k.recvd

section
variable {pre : Bytes}

theorem set_got {l : List AConn} {n m : Nat} {k k' : AConn} (hk : l[n]? = some k) (h : k.got pre → k'.got pre)
    {x : AConn} (hx : l[m]? = some x) (hd : x.got pre) : ∃ y, (l.set n k')[m]? = some y ∧ y.got pre := by
  by_cases e : n = m
  · subst e
    rw [hk] at hx
    cases hx
    exact ⟨k', by rw [List.getElem?_set, if_pos rfl, if_pos (List.getElem?_eq_some_iff.1 hk).1], h hd⟩
  · exact ⟨x, by rw [List.getElem?_set, if_neg e]; exact hx, hd⟩

theorem modify_got {l : List AConn} {n m : Nat} {f : AConn → AConn} (h : ∀ k, k.got pre → (f k).got pre)
    {x : AConn} (hx : l[m]? = some x) (hd : x.got pre) : ∃ y, (l.modify n f)[m]? = some y ∧ y.got pre := by
  by_cases e : n = m
  · subst e
    exact ⟨_, modify_self hx, h x hd⟩
  · exact ⟨x, by rw [modify_other e]; exact hx, hd⟩

theorem recv_got (s : ASt) (n : Nat) {m : Nat} {x : AConn} (hx : s.conns[m]? = some x) (hd : x.got pre) :
    ∃ y, (s.recv n).conns[m]? = some y ∧ y.got pre := by
  unfold ASt.recv
  split
  · exact ⟨x, hx, hd⟩
  · next k hk =>
    split
    · exact ⟨x, hx, hd⟩
    · next hp =>
      split
      · exact set_got hk id hx hd
      · exact set_got hk id hx hd
    · next hp =>
      split
      · exact set_got hk id hx hd
      · dsimp only
        split
        · split
          · exact set_got hk id hx hd
          · exact set_got hk id hx hd
        · split
          · exact set_got hk id hx hd
          · exact ⟨x, hx, hd⟩
    · next h hp =>
      split
      · exact set_got hk id hx hd
      · split
        · exact set_got hk id hx hd
        · split
          · dsimp only
            split
            · exact set_got hk id hx hd
            · rw [onPkg_conns]
              exact set_got hk id hx hd
          · split
            · exact set_got hk id hx hd
            · exact ⟨x, hx, hd⟩

theorem astep_got (v : PyVer) (s : ASt) (e : AEv) {m : Nat} {x : AConn} (hx : s.conns[m]? = some x) (hd : x.got pre) :
    ∃ y, (astep v s e).conns[m]? = some y ∧ y.got pre := by
  have brk : ∀ i c r a n, ∃ y, (s.broken i c r a n).conns[m]? = some y ∧ y.got pre := by
    intro i c r a n
    rw [broken_conns]
    exact modify_got (fun _ h => h) hx hd
  cases e with
  | call req => exact ⟨x, hx, hd⟩
  | start i addr =>
    simp only [astep, ASt.start]
    split
    · split
      · rw [send_conns]; exact ⟨x, hx, hd⟩
      · exact ⟨x, hx, hd⟩
    · exact ⟨x, hx, hd⟩
  | lock i =>
    simp only [astep, ASt.lockTurn]
    split
    · split
      · split
        · split <;> exact ⟨x, hx, hd⟩
        · exact ⟨x, hx, hd⟩
      · exact ⟨x, hx, hd⟩
    · exact ⟨x, hx, hd⟩
  | dialed i ok =>
    simp only [astep, ASt.dialed]
    split
    · split
      · next r a l hp =>
        split
        · have : (s.conns ++ [({ addr := a } : AConn)])[m]? = some x := by
            rw [List.getElem?_append_left (List.getElem?_eq_some_iff.1 hx).1]
            exact hx
          split <;> exact ⟨x, this, hd⟩
        · rw [sendFailed_conns]; exact ⟨x, hx, hd⟩
      · exact ⟨x, hx, hd⟩
    · exact ⟨x, hx, hd⟩
  | drained i ok =>
    simp only [astep, ASt.drained]
    split
    · split
      · split
        · split
          · exact brk ..
          · refine modify_got (l := s.conns) ?_ hx hd
            exact fun k hk => hk
        · exact brk ..
      · split
        · split
          · exact ⟨x, hx, hd⟩
          · split <;> exact ⟨x, hx, hd⟩
        · exact brk ..
      · exact ⟨x, hx, hd⟩
    · exact ⟨x, hx, hd⟩
  | wake i =>
    simp only [astep, ASt.wake]
    split
    · split
      · split
        · split <;> exact ⟨x, hx, hd⟩
        · exact ⟨x, hx, hd⟩
      · exact ⟨x, hx, hd⟩
    · exact ⟨x, hx, hd⟩
  | cancel i =>
    simp only [astep, ASt.cancel]
    split
    · split
      · exact ⟨x, hx, hd⟩
      · split
        · rw [sendFailed_conns]; exact ⟨x, hx, hd⟩
        · exact ⟨x, hx, hd⟩
      · split
        · rw [sendFailed_conns]; exact ⟨x, hx, hd⟩
        · exact ⟨x, hx, hd⟩
      · split
        · exact brk ..
        · exact ⟨x, hx, hd⟩
      · split
        · exact brk ..
        · exact ⟨x, hx, hd⟩
      · exact ⟨x, hx, hd⟩
      · exact ⟨x, hx, hd⟩
    · exact ⟨x, hx, hd⟩
  | recv n => exact recv_got s n hx hd
  | data n bs =>
    refine modify_got (l := s.conns) ?_ hx hd
    intro k hk
    split
    · exact hk
    · exact hk.trans (List.prefix_append _ _)
  | eof n => exact modify_got (l := s.conns) (fun _ h => h) hx hd
  | reset n => exact modify_got (l := s.conns) (fun _ h => h) hx hd

theorem arun_got (v : PyVer) (evs more : List AEv) {m : Nat} {x : AConn} (hx : (arun v evs).conns[m]? = some x)
    (hd : x.got pre) : ∃ y, (arun v (evs ++ more)).conns[m]? = some y ∧ y.got pre := by
  induction more using snoc_induct with
  | nil => rw [List.append_nil]; exact ⟨x, hx, hd⟩
  | snoc more e ih =>
    obtain ⟨y, h1, h2⟩ := ih
    rw [← List.append_assoc, arun_snoc]
    exact astep_got v _ e h1 h2

end

end Bolt
