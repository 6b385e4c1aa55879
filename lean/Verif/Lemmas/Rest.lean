import Verif.Props.Quiet
/-!
# A measure that goes down whenever something happens in a system of a client and listeners
-/
namespace Bolt
open Spec

/-! ## Sums -/

def sumTo (f : Nat → Nat) : Nat → Nat
  | 0 => 0
  | n + 1 => sumTo f n + f n

theorem sumTo_congr {f g : Nat → Nat} {N : Nat} (h : ∀ m, m < N → g m = f m) : sumTo g N = sumTo f N := by
  induction N with
  | zero => rfl
  | succ N ih =>
    simp only [sumTo]
    rw [ih fun m hm => h m (by omega), h N (by omega)]

theorem sumTo_lt {f g : Nat → Nat} {N n : Nat} (hn : n < N) (h : ∀ m, m < N → m ≠ n → g m = f m) (hlt : g n < f n) :
    sumTo g N < sumTo f N := by
  induction N with
  | zero => omega
  | succ N ih =>
    simp only [sumTo]
    by_cases e : n = N
    · subst e
      have := sumTo_congr (f := f) (g := g) (N := n) fun m hm => h m (by omega) (by omega)
      omega
    · have := ih (by omega) fun m hm => h m (by omega)
      have := h N (by omega) (by omega)
      omega

def sumBy {α : Type} (f : α → Nat) (l : List α) : Nat := (l.map f).sum

theorem sumBy_snoc {α : Type} (f : α → Nat) (l : List α) (x : α) : sumBy f (l ++ [x]) = sumBy f l + f x := by
  simp [sumBy]

theorem sumBy_modify_eq {α : Type} (f : α → Nat) (l : List α) (i : Nat) (g : α → α) (h : ∀ x, f (g x) = f x) :
    sumBy f (l.modify i g) = sumBy f l := by
  induction l generalizing i with
  | nil => simp
  | cons x l ih =>
    cases i with
    | zero => simp [sumBy, h]
    | succ i =>
      have := ih i
      simp only [sumBy, List.modify_succ_cons, List.map_cons, List.sum_cons] at *
      omega

theorem sumBy_set {α : Type} (f : α → Nat) {l : List α} {i : Nat} {x : α} (y : α) (h : l[i]? = some x) :
    sumBy f (l.set i y) + f x = sumBy f l + f y := by
  induction l generalizing i with
  | nil => cases h
  | cons z l ih =>
    cases i with
    | zero =>
      cases h
      simp [sumBy]
      omega
    | succ i =>
      have := ih (i := i) h
      simp only [sumBy, List.set_cons_succ, List.map_cons, List.sum_cons] at *
      omega

theorem sumBy_modify {α : Type} (f : α → Nat) {l : List α} {i : Nat} {x : α} (g : α → α) (h : l[i]? = some x) :
    sumBy f (l.modify i g) + f x = sumBy f l + f (g x) := by
  induction l generalizing i with
  | nil => cases h
  | cons z l ih =>
    cases i with
    | zero =>
      cases h
      simp [sumBy]
      omega
    | succ i =>
      have := ih (i := i) h
      simp only [sumBy, List.modify_succ_cons, List.map_cons, List.sum_cons] at *
      omega

/-! ## The calls -/

def CallPc.rank : CallPc → Nat
  | .new => 21
  | .locking r _ _ => 5 * r + 5
  | .dialing r _ _ => 5 * r + 4
  | .drain1 r _ _ => 5 * r + 3
  | .drain2 r _ _ => 5 * r + 2
  | .waiting _ => 1
  | .done _ => 0

def ASt.callsRank (s : ASt) : Nat := sumBy (fun c : ACall => c.pc.rank) s.calls

theorem setPc_rank {s s' : ASt} {i : Nat} {c : ACall} {pc : CallPc} (hs : s'.calls = s.calls) (hc : s.calls[i]? = some c)
    (h : pc.rank < c.pc.rank) : (s'.setPc i pc).callsRank < s.callsRank := by
  unfold ASt.callsRank ASt.setPc
  dsimp only
  rw [hs]
  have := sumBy_modify (fun c : ACall => c.pc.rank) (fun c : ACall => { c with pc := pc }) hc
  dsimp only at this
  omega

theorem sendFailed_rank {s s' : ASt} {i : Nat} {c : ACall} (hs : s'.calls = s.calls) (hc : s.calls[i]? = some c)
    (h : 0 < c.pc.rank) : (s'.sendFailed i c).callsRank < s.callsRank := by
  unfold ASt.sendFailed
  split <;> exact setPc_rank hs hc h

theorem asend_rank {s s' : ASt} {i : Nat} {c : ACall} {r : Nat} (a : Addr) (hs : s'.calls = s.calls) (hc : s.calls[i]? = some c)
    (h0 : 0 < c.pc.rank) (h : r ≠ 0 → 5 * r + 5 < c.pc.rank) : (s'.send i c r a).callsRank < s.callsRank := by
  unfold ASt.send
  split
  · exact sendFailed_rank hs hc h0
  · next hr =>
    have := h hr
    split
    · exact setPc_rank hs hc (show 5 * r + 3 < _ by omega)
    · split
      · split
        · exact setPc_rank hs hc (show 5 * r + 4 < _ by omega)
        · exact setPc_rank hs hc (show 5 * r + 5 < _ by omega)
      · exact setPc_rank hs hc (show 5 * r + 4 < _ by omega)

theorem broken_rank {s s' : ASt} {i : Nat} {c : ACall} {r : Nat} (a : Addr) (n : Nat) (hs : s'.calls = s.calls)
    (hc : s.calls[i]? = some c) (h : 5 * r + 2 ≤ c.pc.rank) : (s'.broken i c r a n).callsRank < s.callsRank := by
  unfold ASt.broken
  dsimp only
  split
  · split
    · exact asend_rank a hs hc (by omega) (by omega)
    · exact sendFailed_rank hs hc (by omega)
  · exact sendFailed_rank hs hc (by omega)

theorem start_rank {s : ASt} {i : Nat} {c : ACall} (a : Addr) (hc : s.calls[i]? = some c) (h : c.pc = .new) :
    (s.start i a).callsRank < s.callsRank := by
  unfold ASt.start
  simp only [hc, h]
  refine asend_rank a rfl hc ?_ ?_ <;> simp [h, CallPc.rank]

theorem dialed_rank {s : ASt} {i : Nat} {c : ACall} (ok : Bool) {r l : Nat} {a : Addr} (hc : s.calls[i]? = some c)
    (h : c.pc = .dialing r a l) : (s.dialed i ok).callsRank < s.callsRank := by
  unfold ASt.dialed
  simp only [hc, h]
  split
  · split
    · exact setPc_rank rfl hc (by simp [h, CallPc.rank])
    · exact setPc_rank rfl hc (by simp [h, CallPc.rank])
  · exact sendFailed_rank rfl hc (by simp [h, CallPc.rank])

theorem drained1_rank {s : ASt} {i : Nat} {c : ACall} (ok : Bool) {r n : Nat} {a : Addr} (hc : s.calls[i]? = some c)
    (h : c.pc = .drain1 r a n) : (s.drained i ok).callsRank < s.callsRank := by
  unfold ASt.drained
  simp only [hc, h]
  have hb := broken_rank (s := s) (s' := s) (r := r) a n rfl hc (by rw [h]; simp only [CallPc.rank]; omega)
  split
  · split
    · exact hb
    · exact setPc_rank rfl hc (by simp [h, CallPc.rank])
  · exact hb

theorem drained2_rank {s : ASt} {i : Nat} {c : ACall} (ok : Bool) {r n : Nat} {a : Addr} (hc : s.calls[i]? = some c)
    (h : c.pc = .drain2 r a n) : (s.drained i ok).callsRank < s.callsRank := by
  unfold ASt.drained
  simp only [hc, h]
  have hb := broken_rank (s := s) (s' := s) (r := r) a n rfl hc (by rw [h]; simp only [CallPc.rank]; omega)
  split
  · split
    · exact setPc_rank rfl hc (by simp [h, CallPc.rank])
    · split
      · exact setPc_rank rfl hc (by simp [h, CallPc.rank])
      · exact setPc_rank rfl hc (by rw [h]; simp only [CallPc.rank]; omega)
  · exact hb

/-- an event of a call changes nothing, or brings the call further -/
theorem actor_rank (v : PyVer) (s : ASt) (e : AEv) {i : Nat} (h : e.actor = some i) :
    astep v s e = s ∨ (astep v s e).callsRank < s.callsRank := by
  cases hc : s.calls[i]? with
  | none => exact .inl (astep_nobody v s e h hc)
  | some c =>
    cases e with
    | call q => cases h
    | recv n => cases h
    | data n bs => cases h
    | eof n => cases h
    | reset n => cases h
    | start j a =>
      cases h
      cases hp : c.pc with
      | new => exact .inr (start_rank a hc hp)
      | _ => left; show s.start i a = s; unfold ASt.start; simp only [hc, hp]
    | lock j =>
      cases h
      cases hp : c.pc with
      | locking r a l =>
        show s.lockTurn i = s ∨ (s.lockTurn i).callsRank < _
        unfold ASt.lockTurn
        simp only [hc, hp]
        split
        · split
          · exact .inr (setPc_rank rfl hc (by simp [hp, CallPc.rank]))
          · exact .inr (setPc_rank rfl hc (by simp [hp, CallPc.rank]))
        · exact .inl rfl
      | _ => left; show s.lockTurn i = s; unfold ASt.lockTurn; simp only [hc, hp]
    | dialed j ok =>
      cases h
      cases hp : c.pc with
      | dialing r a l => exact .inr (dialed_rank ok hc hp)
      | _ => left; show s.dialed i ok = s; unfold ASt.dialed; simp only [hc, hp]
    | drained j ok =>
      cases h
      cases hp : c.pc with
      | drain1 r a l => exact .inr (drained1_rank ok hc hp)
      | drain2 r a l => exact .inr (drained2_rank ok hc hp)
      | _ => left; show s.drained i ok = s; unfold ASt.drained; simp only [hc, hp]
    | wake j =>
      cases h
      cases hp : c.pc with
      | waiting ev =>
        show s.wake i = s ∨ (s.wake i).callsRank < _
        unfold ASt.wake
        simp only [hc, hp]
        split
        · split
          · exact .inr (setPc_rank rfl hc (by simp [hp, CallPc.rank]))
          · exact .inr (setPc_rank rfl hc (by simp [hp, CallPc.rank]))
        · exact .inl rfl
      | _ => left; show s.wake i = s; unfold ASt.wake; simp only [hc, hp]
    | cancel j =>
      cases h
      show s.cancel v i = s ∨ (s.cancel v i).callsRank < _
      unfold ASt.cancel
      cases hp : c.pc with
      | done r => left; simp only [hc, hp]
      | new => right; simp only [hc, hp]; exact setPc_rank rfl hc (by simp [hp, CallPc.rank])
      | waiting ev => right; simp only [hc, hp]; exact setPc_rank rfl hc (by simp [hp, CallPc.rank])
      | locking r a l =>
        right
        simp only [hc, hp]
        split
        · exact sendFailed_rank rfl hc (by simp [hp, CallPc.rank])
        · exact setPc_rank rfl hc (by simp [hp, CallPc.rank])
      | dialing r a l =>
        right
        simp only [hc, hp]
        split
        · exact sendFailed_rank rfl hc (by simp [hp, CallPc.rank])
        · exact setPc_rank rfl hc (by simp [hp, CallPc.rank])
      | drain1 r a n =>
        right
        simp only [hc, hp]
        split
        · exact broken_rank a n rfl hc (by rw [hp]; simp only [CallPc.rank]; omega)
        · exact setPc_rank rfl hc (by simp [hp, CallPc.rank])
      | drain2 r a n =>
        right
        simp only [hc, hp]
        split
        · exact broken_rank a n rfl hc (by rw [hp]; simp only [CallPc.rank]; omega)
        · exact setPc_rank rfl hc (by simp [hp, CallPc.rank])

/-! ## The client's connections -/

def RecvPc.rank : RecvPc → Nat
  | .new => 4
  | .hdr => 1
  | .body _ => 2
  | .ended => 0

def flag (b : Bool) : Nat := if b then 0 else 1

/-- `written`: how many bytes the other side has written -/
def AConn.rank (written : Nat) (k : AConn) : Nat :=
  3 * (written - k.recvd.length) + 2 * k.buf.length + k.pc.rank + flag k.eof + flag k.lost

/-- The change of connection `n` to `k'`: what others see of it is the same, its rank goes down. -/
structure Falls (s s' : ASt) (n : Nat) (k k' : AConn) : Prop where
  was : s.conns[n]? = some k
  now : s'.conns = s.conns.set n k'
  sent : k'.sent = k.sent
  rank : ∀ w, k'.rank w < k.rank w
  calls : s'.callsRank = s.callsRank

theorem notify_rank (s : ASt) (id : PyObj) : (s.notify id).callsRank = s.callsRank ∧ (s.notify id).conns = s.conns := by
  unfold ASt.notify
  split
  · refine ⟨?_, rfl⟩
    unfold ASt.callsRank
    exact sumBy_modify_eq _ _ _ _ fun _ => rfl
  · exact ⟨rfl, rfl⟩

theorem onPkg_rank (s : ASt) (p : Pkg) : (s.onPkg p).callsRank = s.callsRank ∧ (s.onPkg p).conns = s.conns := by
  unfold ASt.onPkg
  repeat' split
  all_goals first | exact notify_rank _ _ | exact notify_rank { s with resps := PyDict.set s.resps p.requestId p } p.requestId

theorem recv_rank (s : ASt) (n : Nat) : s.recv n = s ∨ ∃ k k', Falls s (s.recv n) n k k' := by
  unfold ASt.recv
  split
  · exact .inl rfl
  · next k hk =>
    have key : ∀ k' : AConn, k'.sent = k.sent → (∀ w, k'.rank w < k.rank w) → s.setConn n k' = s ∨
        ∃ k₀ k₁, Falls s (s.setConn n k') n k₀ k₁ := fun k' h1 h2 => .inr ⟨k, k', hk, rfl, h1, h2, rfl⟩
    have hsize : PkgClass.boltResponse.headerSize = 20 := rfl
    split
    · exact .inl rfl
    · next hp =>
      split
      · refine key _ ?_ ?_ <;> first | rfl | (intro w; simp only [AConn.rank, hp, RecvPc.rank]; omega)
      · refine key _ ?_ ?_ <;> first | rfl | (intro w; simp only [AConn.rank, hp, RecvPc.rank]; omega)
    · next hp =>
      split
      · refine key _ ?_ ?_ <;> first | rfl | (intro w; simp only [AConn.rank, hp, RecvPc.rank]; omega)
      · dsimp only
        split
        · next hle =>
          rw [hsize] at hle
          have hlen : (k.buf.drop 20).length = k.buf.length - 20 := List.length_drop ..
          split
          · refine key _ ?_ ?_ <;> first | rfl | (intro w; simp only [AConn.rank, hp, RecvPc.rank, hsize, hlen]; omega)
          · refine key _ ?_ ?_ <;> first | rfl | (intro w; simp only [AConn.rank, hp, RecvPc.rank, hsize, hlen]; omega)
        · split
          · refine key _ ?_ ?_ <;> first | rfl | (intro w; simp only [AConn.rank, hp, RecvPc.rank]; omega)
          · exact .inl rfl
    · next h hp =>
      split
      · refine key _ ?_ ?_ <;> first | rfl | (intro w; simp only [AConn.rank, hp, RecvPc.rank]; omega)
      · split
        · refine key _ ?_ ?_ <;> first | rfl | (intro w; simp only [AConn.rank, hp, RecvPc.rank]; omega)
        · next size _ =>
          split
          · have hlen : (k.buf.drop size.toNat).length = k.buf.length - size.toNat := List.length_drop ..
            have hr : ∀ w, AConn.rank w { k with buf := k.buf.drop size.toNat, pc := .hdr } < AConn.rank w k := fun w => by
              simp only [AConn.rank, hp, RecvPc.rank, hlen]; omega
            dsimp only
            split
            · refine key _ ?_ ?_ <;> first | rfl | exact hr
            · next p _ =>
              obtain ⟨e1, e2⟩ := onPkg_rank (s.setConn n { k with buf := k.buf.drop size.toNat, pc := .hdr }) p
              exact .inr ⟨k, _, hk, e2, rfl, hr, e1⟩
          · split
            · refine key _ ?_ ?_ <;> first | rfl | (intro w; simp only [AConn.rank, hp, RecvPc.rank]; omega)
            · exact .inl rfl

theorem modify_none {α : Type} {l : List α} {n : Nat} (f : α → α) (h : l[n]? = none) : l.modify n f = l := by
  rw [List.modify_eq_self]
  exact List.getElem?_eq_none_iff.1 h

theorem modify_is_set {α : Type} {l : List α} {n : Nat} {x : α} (f : α → α) (h : l[n]? = some x) : l.modify n f = l.set n (f x) := by
  apply List.ext_getElem?
  intro m
  rw [List.getElem?_modify, List.getElem?_set]
  obtain ⟨hl, he⟩ := List.getElem?_eq_some_iff.1 h
  split
  · next e => subst e; simp [he, hl]
  · simp

theorem set_same {α : Type} {l : List α} {n : Nat} {x : α} (h : l[n]? = some x) : l.set n x = l := by
  apply List.ext_getElem?
  intro m
  rw [List.getElem?_set]
  obtain ⟨hl, he⟩ := List.getElem?_eq_some_iff.1 h
  split
  · next e => subst e; simp [he, hl]
  · rfl

theorem eof_rank (v : PyVer) (s : ASt) (n : Nat) : astep v s (.eof n) = s ∨ ∃ k k', Falls s (astep v s (.eof n)) n k k' := by
  cases hk : s.conns[n]? with
  | none => left; show { s with conns := _ } = s; rw [modify_none _ hk]
  | some k =>
    cases he : k.eof with
    | true =>
      left
      show { s with conns := _ } = s
      rw [modify_is_set _ hk, show ({ k with eof := true } : AConn) = k by cases k; cases he; rfl, set_same hk]
    | false => exact .inr ⟨k, _, hk, modify_is_set _ hk, rfl, fun w => by simp only [AConn.rank, he, flag]; simp, rfl⟩

theorem reset_rank (v : PyVer) (s : ASt) (n : Nat) : astep v s (.reset n) = s ∨ ∃ k k', Falls s (astep v s (.reset n)) n k k' := by
  cases hk : s.conns[n]? with
  | none => left; show { s with conns := _ } = s; rw [modify_none _ hk]
  | some k =>
    cases he : k.lost with
    | true =>
      left
      show { s with conns := _ } = s
      rw [modify_is_set _ hk, show ({ k with lost := true } : AConn) = k by cases k; cases he; rfl, set_same hk]
    | false => exact .inr ⟨k, _, hk, modify_is_set _ hk, rfl, fun w => by simp only [AConn.rank, he, flag]; simp, rfl⟩

/-! ## The listener's side of a connection -/

def RPhase.rank : RPhase → Nat
  | .hdr => 1
  | .cls _ => 4
  | .shdr _ _ => 3
  | .body _ _ _ => 2
  | .stopped => 0

def RTail.rank : RTail → Nat
  | .reading => 0
  | _ => 1

/-- `written`: how many bytes the client has written -/
def LSt.readRank (written : Nat) (s : LSt) : Nat :=
  3 * (written - s.recvd.length) + 2 * s.buf.length + 2 * s.rd.phase.rank + s.tail.rank + flag s.eof + flag s.lost + flag s.closed

def TaskSt.rank : TaskSt → Nat
  | .new => 6
  | .waiting _ => 3
  | .writing _ => 1
  | .ended => 0

def FutSt.rank : FutSt → Nat
  | .queued => 2
  | .running => 1
  | _ => 0

def LSt.workRank (s : LSt) : Nat := sumBy (fun t : Task => t.st.rank) s.tasks + sumBy (fun f : Fut => f.st.rank) s.futs

theorem readerIter_lower {r r' : ReadSt} {buf buf' : Bytes} {eof : Bool} {a : Option Act}
    (h : readerIter r buf eof = some (r', buf', a)) :
    2 * buf'.length + 2 * r'.phase.rank + 2 ≤ 2 * buf.length + 2 * r.phase.rank := by
  have hsize : PkgClass.boltRequest.headerSize = 22 := rfl
  have hn : ∀ x : Act, x.next.rank ≤ 1 := by intro x; cases x <;> simp [Act.next, RPhase.rank]
  unfold readerIter at h
  split at h
  · next hp =>
    dsimp only at h
    split at h
    · next hle =>
      rw [hsize] at hle h
      have hlen : (buf.drop 22).length = buf.length - 22 := List.length_drop ..
      split at h
      · next e _ =>
        cases h
        have := hn (onError e r.last)
        simp only [hp, RPhase.rank, hlen] at *
        omega
      · cases h
        simp only [hp, RPhase.rank, hlen] at *
        omega
    · split at h
      · cases h
        simp only [hp, RPhase.rank] at *
        omega
      · cases h
  · next h' hp =>
    dsimp only at h
    split at h
    · have hlen : (buf.drop h'.classLen.toNat).length = buf.length - h'.classLen.toNat := List.length_drop ..
      cases h
      simp only [hp, RPhase.rank, hlen] at *
      omega
    · split at h
      · cases h
        simp only [hp, RPhase.rank] at *
        omega
      · cases h
  · next h' cn hp =>
    dsimp only at h
    split at h
    · have hlen : (buf.drop h'.headerLen.toNat).length = buf.length - h'.headerLen.toNat := List.length_drop ..
      split at h
      · next e _ =>
        cases h
        have := hn (onError e r.last)
        simp only [hp, RPhase.rank, hlen] at *
        omega
      · cases h
        simp only [hp, RPhase.rank, hlen] at *
        omega
    · split at h
      · cases h
        simp only [hp, RPhase.rank] at *
        omega
      · cases h
  · next h' cn d hp =>
    dsimp only at h
    split at h
    · have hlen : (buf.drop h'.contentLen.toNat).length = buf.length - h'.contentLen.toNat := List.length_drop ..
      have := hn (handleFrame h' cn d (buf.take h'.contentLen.toNat))
      cases h
      simp only [hp, RPhase.rank, hlen] at *
      omega
    · split at h
      · cases h
        simp only [hp, RPhase.rank] at *
        omega
      · cases h
  · cases h

theorem perform_rank (w : Nat) (s : LSt) (a : Act) (ht : s.tail = .reading) : (s.perform a).readRank w ≤ s.readRank w + 1 := by
  unfold LSt.perform
  cases a with
  | dispatch r => dsimp only; unfold LSt.readRank; simp only [ht]; omega
  | heartbeat id =>
    dsimp only
    split <;> (unfold LSt.readRank; simp only [ht, RPhase.rank]; omega)
  | reject id st =>
    dsimp only
    split <;> (unfold LSt.readRank; simp only [ht, RPhase.rank, RTail.rank]; omega)
  | close id st => dsimp only; unfold LSt.readRank; simp only [ht, RTail.rank]; omega
  | crash => dsimp only; unfold LSt.readRank; simp only [ht]; omega

theorem idle_or_rank (s : LSt) : s.idle ∨ ∀ w, s.reader.readRank w < s.readRank w := by
  unfold LSt.reader LSt.idle
  split
  · next ht =>
    split
    · next hi => exact .inl ⟨ht, hi⟩
    · next rd buf hi =>
      right
      intro w
      have := readerIter_lower hi
      unfold LSt.readRank
      dsimp only
      omega
    · next rd buf a hi =>
      right
      intro w
      have h1 := readerIter_lower hi
      have h2 := perform_rank w { s with rd := rd, buf := buf } a ht
      unfold LSt.readRank at h2 ⊢
      dsimp only at h2
      omega
  · next m ht =>
    right
    intro w
    unfold LSt.write
    split <;> (unfold LSt.readRank; simp only [ht, RTail.rank]; omega)
  · next ht =>
    right
    intro w
    unfold LSt.readRank flag
    simp only [ht, RTail.rank, if_true]
    omega
  · next m ht =>
    right
    intro w
    unfold LSt.write
    split <;> (unfold LSt.readRank flag; simp only [ht, RTail.rank, if_true]; omega)

theorem reader_rank (s : LSt) : s.reader = s ∨ ∀ w, s.reader.readRank w < s.readRank w := by
  rcases idle_or_rank s with ⟨h1, h2⟩ | h
  · left
    unfold LSt.reader
    simp only [h1, h2]
  · exact .inr h

theorem leof_rank (svc : Services) (s : LSt) : lstep svc s .eof = s ∨ ∀ w, (lstep svc s .eof).readRank w < s.readRank w := by
  cases he : s.eof with
  | true => left; show { s with eof := true } = s; cases s; cases he; rfl
  | false =>
    right
    intro w
    show LSt.readRank w { s with eof := true } < _
    simp only [LSt.readRank, he, flag]
    simp

theorem lreset_rank (svc : Services) (s : LSt) :
    lstep svc s .reset = s ∨ ∀ w, (lstep svc s .reset).readRank w < s.readRank w := by
  by_cases h : s.lost = true ∧ s.closed = true ∧ s.tail = .reading ∧ s.rd.phase = .stopped
  · left
    obtain ⟨h1, h2, h3, h4⟩ := h
    show { s with lost := true, closed := true, tail := .reading, rd := { s.rd with phase := .stopped } } = s
    obtain ⟨recvd, buf, eof, ⟨phase, last⟩, tail, acts, tasks, futs, out, closed, lost, now, heap, reg⟩ := s
    cases h1; cases h2; cases h3; cases h4
    rfl
  · right
    intro w
    show LSt.readRank w { s with lost := true, closed := true, tail := .reading, rd := { s.rd with phase := .stopped } } < _
    have e1 : flag s.lost = 0 → s.lost = true := by unfold flag; cases s.lost <;> simp
    have e2 : flag s.closed = 0 → s.closed = true := by unfold flag; cases s.closed <;> simp
    have e3 : s.tail.rank = 0 → s.tail = .reading := by unfold RTail.rank; split <;> simp_all
    have e4 : s.rd.phase.rank = 0 → s.rd.phase = .stopped := by unfold RPhase.rank; split <;> simp_all
    have e5 : flag true = 0 := rfl
    have e6 : RTail.reading.rank = 0 := rfl
    have e7 : RPhase.stopped.rank = 0 := rfl
    simp only [LSt.readRank, e5, e6, e7]
    have h5 : ¬ (flag s.lost = 0 ∧ flag s.closed = 0 ∧ s.tail.rank = 0 ∧ s.rd.phase.rank = 0) :=
      fun ⟨a, b, c, d⟩ => h ⟨e1 a, e2 b, e3 c, e4 d⟩
    omega

/-- the fields that `readRank` depends on are the same -/
def SameRead (s s' : LSt) : Prop :=
  s'.recvd = s.recvd ∧ s'.buf = s.buf ∧ s'.rd = s.rd ∧ s'.tail = s.tail ∧ s'.eof = s.eof ∧ s'.lost = s.lost ∧ s'.closed = s.closed

theorem SameRead.rank {s s' : LSt} (h : SameRead s s') (w : Nat) : s'.readRank w = s.readRank w := by
  obtain ⟨e1, e2, e3, e4, e5, e6, e7⟩ := h
  unfold LSt.readRank
  rw [e1, e2, e3, e4, e5, e6, e7]

theorem SameRead.write {s : LSt} (o : Origin) (m : Bytes) : SameRead s (s.write o m) := by
  unfold LSt.write SameRead
  split <;> simp

theorem setTask_work {s s' : LSt} {i : Nat} {t u : Task} (e1 : s'.tasks = s.tasks) (ht : s.tasks[i]? = some t) :
    (s'.setTask i u).workRank + t.st.rank + sumBy (fun f : Fut => f.st.rank) s.futs =
      s.workRank + u.st.rank + sumBy (fun f : Fut => f.st.rank) s'.futs := by
  show sumBy (fun t : Task => t.st.rank) (s'.tasks.set i u) + sumBy (fun f : Fut => f.st.rank) s'.futs + t.st.rank +
    sumBy (fun f : Fut => f.st.rank) s.futs = sumBy (fun t : Task => t.st.rank) s.tasks + sumBy (fun f : Fut => f.st.rank) s.futs +
    u.st.rank + sumBy (fun f : Fut => f.st.rank) s'.futs
  rw [e1]
  have := sumBy_set (fun t : Task => t.st.rank) u ht
  omega

theorem toWrite_rank (m : Except PyExc Bytes) : (toWrite m).rank ≤ 1 := by
  unfold toWrite
  split <;> simp [TaskSt.rank]

theorem afterCall_rank (id : Int) (o : Outcome) : (afterCall id o).rank ≤ 1 := by
  unfold afterCall
  split
  · exact toWrite_rank _
  · exact toWrite_rank _
  · exact toWrite_rank _
  · split
    · exact toWrite_rank _
    · simp [TaskSt.rank]

theorem dispatch_rank (svc : Services) (s : LSt) {i : Nat} {t : Task} (r : Req) (fresh : PyStr) (ht : s.tasks[i]? = some t)
    (hst : t.st = .new) : SameRead s (s.dispatch svc i t r fresh) ∧ (s.dispatch svc i t r fresh).workRank < s.workRank := by
  have h6 : t.st.rank = 6 := by rw [hst]; rfl
  have key : ∀ (s' : LSt) (u : Task), SameRead s s' → s'.tasks = s.tasks →
      u.st.rank + sumBy (fun f : Fut => f.st.rank) s'.futs < 6 + sumBy (fun f : Fut => f.st.rank) s.futs →
      SameRead s (s'.setTask i u) ∧ (s'.setTask i u).workRank < s.workRank := by
    intro s' u h1 h2 h3
    refine ⟨h1, ?_⟩
    have := setTask_work (u := u) h2 ht
    omega
  have same : SameRead s s := ⟨rfl, rfl, rfl, rfl, rfl, rfl, rfl⟩
  have hw : ∀ m : Except PyExc Bytes, (toWrite m).rank + sumBy (fun f : Fut => f.st.rank) s.futs <
      6 + sumBy (fun f : Fut => f.st.rank) s.futs := fun m => by have := toWrite_rank m; omega
  unfold LSt.dispatch
  split
  · exact key s _ same rfl (hw _)
  · split
    · exact key s _ same rfl (hw _)
    · split
      · exact key s _ same rfl (by simp only [TaskSt.rank]; omega)
      · next heap ctx _ =>
        dsimp only
        split
        · exact key { s with heap := heap } _ same rfl (hw _)
        · exact key { s with heap := heap } _ same rfl (hw _)
        · next func _ =>
          have hf := sumBy_snoc (fun f : Fut => f.st.rank) s.futs ({ func := func, body := r.body, ctx := ctx, heap := heap } : Fut)
          have hq : FutSt.queued.rank = 2 := rfl
          dsimp only at hf
          split
          · exact key { s with heap := heap, futs := s.futs ++ [({ func := func, body := r.body, ctx := ctx, heap := heap } : Fut)] } _ same rfl
              (by dsimp only [TaskSt.rank]; omega)
          · exact key { s with heap := heap, futs := s.futs ++ [({ func := func, body := r.body, ctx := ctx, heap := heap } : Fut)] } _ same rfl
              (by dsimp only [TaskSt.rank]; omega)

theorem setFut_rank {s : LSt} {k : Nat} {a b : FutSt} (h : s.futSt k = some a) :
    sumBy (fun f : Fut => f.st.rank) (s.setFut k b).futs + a.rank = sumBy (fun f : Fut => f.st.rank) s.futs + b.rank := by
  unfold LSt.futSt at h
  rw [Option.map_eq_some_iff] at h
  obtain ⟨f, hf, rfl⟩ := h
  exact sumBy_modify (fun f : Fut => f.st.rank) (fun f : Fut => { f with st := b }) hf

/-- Work on the listener's side that is not the reader's: it changes nothing, or brings something further. -/
theorem work_rank (svc : Services) (s : LSt) (e : LEv)
    (h : (∃ i fresh, e = .run i fresh) ∨ (∃ i, e = .result i) ∨ (∃ i, e = .expire i) ∨ (∃ i, e = .write i) ∨
      (∃ k, e = .futStart k) ∨ ∃ k o, e = .futFinish k o) :
    lstep svc s e = s ∨ SameRead s (lstep svc s e) ∧ (lstep svc s e).workRank < s.workRank := by
  have same : SameRead s s := ⟨rfl, rfl, rfl, rfl, rfl, rfl, rfl⟩
  have w3 : ∀ d, (TaskSt.waiting d).rank = 3 := fun _ => rfl
  have w1 : ∀ m, (TaskSt.writing m).rank = 1 := fun _ => rfl
  have w0 : TaskSt.ended.rank = 0 := rfl
  have q2 : FutSt.queued.rank = 2 := rfl
  have q1 : FutSt.running.rank = 1 := rfl
  have q0 : FutSt.cancelled.rank = 0 := rfl
  have q0' : ∀ o, (FutSt.finished o).rank = 0 := fun _ => rfl
  rcases h with ⟨i, fresh, rfl⟩ | ⟨i, rfl⟩ | ⟨i, rfl⟩ | ⟨i, rfl⟩ | ⟨k, rfl⟩ | ⟨k, o, rfl⟩
  · simp only [lstep]
    split
    · next t ht =>
      split
      · next hst hk => exact .inr (dispatch_rank svc s _ fresh ht hst)
      · exact .inl rfl
    · exact .inl rfl
  · simp only [lstep]
    split
    · next t ht =>
      split
      · next d r k hst hk hf =>
        split
        · exact .inl rfl
        · next o _ ho =>
          right
          refine ⟨same, ?_⟩
          have := setTask_work (u := { t with st := afterCall r.id o, fate := some (.answered o) }) rfl ht
          have h1 := afterCall_rank r.id o
          rw [hst] at this
          simp only [w3] at this
          omega
        · exact .inl rfl
      · exact .inl rfl
    · exact .inl rfl
  · simp only [lstep]
    split
    · next t ht =>
      split
      · next d r k hst hk hf =>
        split
        · right
          have h1 := toWrite_rank (failMsg r.id .timeout)
          unfold LSt.cancelFut
          split
          · next hq =>
            have h2 := setFut_rank (b := .cancelled) hq
            have := setTask_work (s := s) (s' := s.setFut k .cancelled) (u := { t with st := toWrite (failMsg r.id .timeout), fate := some .expired }) rfl ht
            refine ⟨same, ?_⟩
            rw [hst] at this
            simp only [w3, q2, q0] at this h2
            omega
          · have := setTask_work (u := { t with st := toWrite (failMsg r.id .timeout), fate := some .expired }) rfl ht
            refine ⟨same, ?_⟩
            rw [hst] at this
            simp only [w3] at this
            omega
        · exact .inl rfl
      · exact .inl rfl
    · exact .inl rfl
  · simp only [lstep]
    split
    · next t ht =>
      split
      · next m hst =>
        right
        have e1 : (s.write (.task i) m).tasks = s.tasks := by unfold LSt.write; split <;> rfl
        have e2 : (s.write (.task i) m).futs = s.futs := by unfold LSt.write; split <;> rfl
        have := setTask_work (s' := s.write (.task i) m) (u := { t with st := .ended }) e1 ht
        refine ⟨SameRead.write _ _, ?_⟩
        rw [hst, e2] at this
        simp only [w1, w0] at this
        omega
      · exact .inl rfl
    · exact .inl rfl
  · simp only [lstep]
    split
    · next hq =>
      right
      have := setFut_rank (b := .running) hq
      refine ⟨same, ?_⟩
      unfold LSt.workRank
      simp only [q2, q1] at this ⊢
      rw [show (s.setFut k .running).tasks = s.tasks from rfl]
      omega
    · exact .inl rfl
  · simp only [lstep]
    split
    · next hq =>
      right
      have := setFut_rank (b := .finished o) hq
      refine ⟨same, ?_⟩
      unfold LSt.workRank
      simp only [q1, q0'] at this ⊢
      rw [show (s.setFut k (.finished o)).tasks = s.tasks from rfl]
      omega
    · exact .inl rfl

end Bolt
