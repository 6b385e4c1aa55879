import Verif.Props.AioClient
/-! C60, C61: how the asyncio client sends. -/
namespace Bolt
open Spec

/-! ## C60 -/

/-- how often the call can still be written -/
def CallPc.budget : CallPc → Nat
  | .new => 3
  | .locking r _ _ | .dialing r _ _ | .drain1 r _ _ => r
  | .drain2 r _ _ => r - 1
  | .waiting _ | .done _ => 0

/-- while it sends, the call has a try left -/
def CallPc.tries : CallPc → Prop
  | .locking r _ _ | .dialing r _ _ | .drain1 r _ _ | .drain2 r _ _ => 1 ≤ r
  | _ => True

/-- the number of times `writer.write` has been called for call `i` -/
def writesOf (s : ASt) (i : Nat) : Nat := s.writes.countP fun w => w.1 == i

/-- the number of frames of call `i` on all the connections -/
def sentOf (s : ASt) (i : Nat) : Nat := (s.conns.flatMap AConn.sent).countP fun w => w.1 == i

/-- where the call is after a piece of `_send`, which has written nothing -/
structure After (s s' : ASt) (i r : Nat) : Prop where
  writes : s'.writes = s.writes
  call : ∃ c', s'.calls[i]? = some c' ∧ c'.pc.budget ≤ r ∧ c'.pc.tries

theorem setPc_after {s : ASt} {i r : Nat} {c : ACall} (hc : s.calls[i]? = some c) {pc : CallPc} (hb : pc.budget ≤ r)
    (ht : pc.tries) : After s (s.setPc i pc) i r :=
  ⟨rfl, _, modify_self hc, hb, ht⟩

theorem After.via {s s' s'' : ASt} {i r : Nat} (h : After s' s'' i r) (hw : s'.writes = s.writes) : After s s'' i r :=
  ⟨h.writes.trans hw, h.call⟩

theorem setPc_at {s s0 : ASt} {i r : Nat} {c : ACall} {pc : CallPc} (hw : s0.writes = s.writes)
    (hc : s0.calls[i]? = some c) (hb : pc.budget ≤ r) (ht : pc.tries) : After s (s0.setPc i pc) i r :=
  (setPc_after hc hb ht).via hw

theorem sendFailed_after {s : ASt} {i : Nat} {c d : ACall} (hc : s.calls[i]? = some d) (r : Nat) :
    After s (s.sendFailed i c) i r := by
  unfold ASt.sendFailed
  split
  · exact setPc_at rfl hc (Nat.zero_le _) trivial
  · exact setPc_after hc (Nat.zero_le _) trivial

theorem send_after {s : ASt} {i : Nat} {c d : ACall} (hc : s.calls[i]? = some d) (r : Nat) (addr : Addr) :
    After s (s.send i c r addr) i r := by
  unfold ASt.send
  split
  · exact sendFailed_after hc r
  · next hr =>
    have hr : 1 ≤ r := Nat.one_le_iff_ne_zero.2 hr
    split
    · exact setPc_after hc (Nat.le_refl _) hr
    · split
      · next l _ =>
        split
        · exact setPc_at rfl hc (Nat.le_refl _) hr
        · exact setPc_after hc (Nat.le_refl _) hr
      · exact setPc_at rfl hc (Nat.le_refl _) hr

theorem broken_after {s : ASt} {i : Nat} {c d : ACall} (hc : s.calls[i]? = some d) (r : Nat) (addr : Addr) (n : Nat) :
    After s (s.broken i c r addr n) i (r - 1) := by
  unfold ASt.broken
  dsimp only
  split
  · split
    · exact (send_after (s := { s with
        conns := s.conns.modify n fun k => { k with cancelled := true }
        connMap := PyDict.erase s.connMap addr, dialMap := PyDict.erase s.dialMap addr }) hc (r - 1) addr).via rfl
    · exact (sendFailed_after (s := { s with
        conns := s.conns.modify n fun k => { k with cancelled := true }
        connMap := PyDict.erase s.connMap addr }) hc (r - 1)).via rfl
  · exact (sendFailed_after (s := { s with
        conns := s.conns.modify n fun k => { k with cancelled := true } }) hc (r - 1)).via rfl

/-- What an event of call `i` does: nothing is written and no tries are gained, or one write is made and paid for. -/
theorem actor_budget (v : PyVer) (s : ASt) (e : AEv) {i : Nat} {c : ACall} (hc : s.calls[i]? = some c)
    (ht : c.pc.tries) (ha : e.actor = some i) :
    After s (astep v s e) i c.pc.budget ∨
    (∃ n c', (astep v s e).writes = s.writes ++ [(i, n)] ∧ (astep v s e).calls[i]? = some c' ∧
      c'.pc.budget + 1 ≤ c.pc.budget ∧ c'.pc.tries) := by
  have same : ∀ s', s' = s → After s s' i c.pc.budget := by
    rintro _ rfl
    exact ⟨rfl, c, hc, Nat.le_refl _, ht⟩
  cases e with
  | call req => cases ha
  | start j addr =>
    cases ha
    left
    simp only [astep, ASt.start, hc]
    split
    · next hp =>
      rw [hp]
      exact (send_after (s := { s with reqs := PyDict.set s.reqs c.req.requestId i }) hc 3 addr).via rfl
    · exact same _ rfl
  | lock j =>
    cases ha
    left
    simp only [astep, ASt.lockTurn, hc]
    split
    · next r a l hp =>
      rw [hp] at ht ⊢
      split
      · split
        · exact setPc_after hc (Nat.le_refl _) ht
        · exact setPc_at rfl hc (Nat.le_refl _) ht
      · exact ⟨rfl, c, hc, by rw [hp]; exact Nat.le_refl _, by rw [hp]; exact ht⟩
    · exact same _ rfl
  | dialed j ok =>
    cases ha
    left
    simp only [astep, ASt.dialed, hc]
    split
    · next r a l hp =>
      rw [hp] at ht ⊢
      split
      · split
        · exact setPc_at rfl hc (Nat.le_refl _) ht
        · exact setPc_at rfl hc (Nat.le_refl _) ht
      · exact (sendFailed_after (s := s.setLock l false) hc _).via rfl
    · exact same _ rfl
  | drained j ok =>
    cases ha
    simp only [astep, ASt.drained, hc]
    split
    · next r a n hp =>
      rw [hp] at ht ⊢
      have lower : After s (s.broken i c r a n) i (CallPc.drain1 r a n).budget := by
        obtain ⟨w, d, d1, d2, d3⟩ := broken_after (c := c) hc r a n
        exact ⟨w, d, d1, Nat.le_trans d2 (Nat.sub_le _ _), d3⟩
      split
      · split
        · exact .inl lower
        · refine .inr ⟨n, _, rfl, modify_self (l := s.calls) hc, ?_, ht⟩
          have ht : 1 ≤ r := ht
          show r - 1 + 1 ≤ r
          omega
      · exact .inl lower
    · next r a n hp =>
      rw [hp] at ht ⊢
      left
      split
      · split
        · exact setPc_after hc (Nat.zero_le _) trivial
        · split
          · exact setPc_at rfl hc (Nat.zero_le _) trivial
          · exact setPc_after hc (Nat.zero_le _) trivial
      · exact broken_after hc r a n
    · exact .inl (same _ rfl)
  | wake j =>
    cases ha
    left
    simp only [astep, ASt.wake, hc]
    split
    · next ev hp =>
      split
      · split
        · exact setPc_at rfl hc (Nat.zero_le _) trivial
        · exact setPc_after hc (Nat.zero_le _) trivial
      · exact same _ rfl
    · exact same _ rfl
  | cancel j =>
    cases ha
    left
    simp only [astep, ASt.cancel, hc]
    split
    · exact setPc_after hc (Nat.zero_le _) trivial
    · split
      · exact sendFailed_after hc _
      · exact setPc_after hc (Nat.zero_le _) trivial
    · next l hp =>
      split
      · exact (sendFailed_after (s := s.setLock l false) hc _).via rfl
      · exact setPc_at rfl hc (Nat.zero_le _) trivial
    · next r a n hp =>
      rw [hp]
      split
      · obtain ⟨w, d, d1, d2, d3⟩ := broken_after (c := c) hc r a n
        exact ⟨w, d, d1, Nat.le_trans d2 (Nat.sub_le _ _), d3⟩
      · exact setPc_after hc (Nat.zero_le _) trivial
    · next r a n hp =>
      rw [hp]
      split
      · exact broken_after hc r a n
      · exact setPc_after hc (Nat.zero_le _) trivial
    · exact setPc_after hc (Nat.zero_le _) trivial
    · exact same _ rfl
  | recv n => cases ha
  | data n bs => cases ha
  | eof n => cases ha
  | reset n => cases ha

theorem onPkg_writes (s : ASt) (p : Pkg) : (s.onPkg p).writes = s.writes := by
  have h : ∀ (s : ASt) (id : PyObj), (s.notify id).writes = s.writes := by
    intro s id
    unfold ASt.notify
    split <;> rfl
  unfold ASt.onPkg
  split
  · exact h ..
  · split
    · exact h ..
    · split
      · exact h ..
      · split
        · exact h ..
        · split
          · exact h ..
          · exact h ..

theorem recv_writes (s : ASt) (n : Nat) : (s.recv n).writes = s.writes := by
  unfold ASt.recv
  split
  · rfl
  · split
    · rfl
    · split <;> rfl
    · split
      · rfl
      · dsimp only
        split
        · split <;> rfl
        · split <;> rfl
    · split
      · rfl
      · split
        · rfl
        · split
          · dsimp only
            split
            · rfl
            · exact onPkg_writes _ _
          · split <;> rfl

theorem passive_writes (v : PyVer) (s : ASt) (e : AEv) (ha : e.actor = none) : (astep v s e).writes = s.writes := by
  cases e with
  | recv n => exact recv_writes s n
  | call req => rfl
  | data n bs => rfl
  | eof n => rfl
  | reset n => rfl
  | _ => cases ha

/-- an event of a call that does not exist does nothing -/
theorem astep_nobody (v : PyVer) (s : ASt) (e : AEv) {i : Nat} (ha : e.actor = some i) (hc : s.calls[i]? = none) :
    astep v s e = s := by
  cases e with
  | start j addr => cases ha; simp only [astep, ASt.start, hc]
  | lock j => cases ha; simp only [astep, ASt.lockTurn, hc]
  | dialed j ok => cases ha; simp only [astep, ASt.dialed, hc]
  | drained j ok => cases ha; simp only [astep, ASt.drained, hc]
  | wake j => cases ha; simp only [astep, ASt.wake, hc]
  | cancel j => cases ha; simp only [astep, ASt.cancel, hc]
  | _ => cases ha

/-- the invariant: writes made and tries left are three at most -/
structure WInv (s : ASt) : Prop where
  calls : ∀ (i : Nat) (c : ACall), s.calls[i]? = some c → writesOf s i + c.pc.budget ≤ 3 ∧ c.pc.tries
  known : ∀ w ∈ s.writes, w.1 < s.calls.length

theorem keeps_length {s s' : ASt} (h : ∀ j, StaysAt s s' j) : s.calls.length ≤ s'.calls.length := by
  cases hl : s.calls.length with
  | zero => exact Nat.zero_le _
  | succ m =>
    have : m < s.calls.length := by omega
    obtain ⟨c', h1, -⟩ := h m s.calls[m] (List.getElem?_eq_getElem this)
    exact (List.getElem?_eq_some_iff.1 h1).1

theorem astep_length (v : PyVer) (s : ASt) (e : AEv) (hal : ∀ k ∈ s.conns, k.Aligned) :
    s.calls.length ≤ (astep v s e).calls.length := by
  cases hl : s.calls.length with
  | zero => exact Nat.zero_le _
  | succ m =>
    have : m < s.calls.length := by omega
    obtain ⟨c', h1, -⟩ := (astep_bk v s e hal).persist (i := m) (c := s.calls[m]) (List.getElem?_eq_getElem this)
    exact (List.getElem?_eq_some_iff.1 h1).1

/-- the number of writes never goes down, and does not change once the call is past sending -/
theorem astep_winv (v : PyVer) (s : ASt) (e : AEv) (hal : ∀ k ∈ s.conns, k.Aligned) (h : WInv s) :
    WInv (astep v s e) ∧ (∀ i, writesOf s i ≤ writesOf (astep v s e) i) ∧
    ∀ (i : Nat) (c : ACall), s.calls[i]? = some c → ∃ c', (astep v s e).calls[i]? = some c' ∧
      writesOf (astep v s e) i + c'.pc.budget ≤ writesOf s i + c.pc.budget ∧ c'.pc.tries := by
  cases ha : e.actor with
  | none =>
    have hw := passive_writes v s e ha
    have hwo : ∀ i, writesOf (astep v s e) i = writesOf s i := fun i => by unfold writesOf; rw [hw]
    have h3 : ∀ (i : Nat) (c : ACall), s.calls[i]? = some c → ∃ c', (astep v s e).calls[i]? = some c' ∧
        writesOf (astep v s e) i + c'.pc.budget ≤ writesOf s i + c.pc.budget ∧ c'.pc.tries := by
      intro i c hc
      obtain ⟨c', h1, h2, -⟩ := astep_keeps v s e i (by rw [ha]; intro e; cases e) c hc
      exact ⟨c', h1, by rw [hwo, h2]; exact Nat.le_refl _, by rw [h2]; exact (h.calls i c hc).2⟩
    refine ⟨⟨?_, ?_⟩, fun i => by rw [hwo]; exact Nat.le_refl _, h3⟩
    · intro i c' hc'
      cases hc : s.calls[i]? with
      | some c =>
        obtain ⟨d, d1, d2, d3⟩ := h3 i c hc
        rw [hc'] at d1
        cases d1
        exact ⟨Nat.le_trans d2 (h.calls i c hc).1, d3⟩
      | none =>
        have hz : writesOf s i = 0 := by
          unfold writesOf
          rw [List.countP_eq_zero]
          intro w hw he
          have := h.known w hw
          rw [beq_iff_eq] at he
          rw [he] at this
          rw [List.getElem?_eq_none_iff] at hc
          omega
        -- only a new call can appear
        cases e with
        | call req =>
          have hc' : (s.calls ++ [({ req := req } : ACall)])[i]? = some c' := hc'
          have := List.mem_of_getElem? hc'
          rw [List.getElem?_append_right (List.getElem?_eq_none_iff.1 hc)] at hc'
          have := List.mem_singleton.1 (List.mem_of_getElem? hc')
          subst this
          rw [hwo, hz]
          exact ⟨(show 0 + 3 ≤ 3 by decide), trivial⟩
        | recv n =>
          exfalso
          have hl : (astep v s (.recv n)).calls.length = s.calls.length := by
            show (s.recv n).calls.length = _
            rcases recv_cases s n hal with ⟨cs, e, -⟩ | ⟨k, p, cs, -, hn, -, e⟩
            · rw [e]
            · rw [e]
              cases hr : PyDict.get? s.reqs p.requestId with
              | none => rw [onPkg_none { s with conns := cs } _ hr]
              | some ev =>
                rw [onPkg_some { s with conns := cs } _ (nextFrame_cls hn) ev hr]
                simp
          have h1 := (List.getElem?_eq_some_iff.1 hc').1
          rw [List.getElem?_eq_none_iff] at hc
          omega
        | data n bs => exact absurd (hc'.symm.trans hc) (by simp)
        | eof n => exact absurd (hc'.symm.trans hc) (by simp)
        | reset n => exact absurd (hc'.symm.trans hc) (by simp)
        | _ => cases ha
    · intro w hw'
      rw [hw] at hw'
      exact Nat.lt_of_lt_of_le (h.known w hw') (astep_length v s e hal)
  | some i =>
    cases hc : s.calls[i]? with
    | none =>
      rw [astep_nobody v s e ha hc]
      exact ⟨h, fun _ => Nat.le_refl _, fun j c hj => ⟨c, hj, Nat.le_refl _, (h.calls j c hj).2⟩⟩
    | some c =>
      have hinv := h.calls i c hc
      -- the other calls
      have other : ∀ j, j ≠ i → ∀ c, s.calls[j]? = some c → ∃ c', (astep v s e).calls[j]? = some c' ∧ c'.pc = c.pc := by
        intro j hj c hc
        obtain ⟨c', h1, h2, -⟩ := astep_keeps v s e j (by rw [ha]; intro e; cases e; exact hj rfl) c hc
        exact ⟨c', h1, h2⟩
      have key : ∃ c', (astep v s e).calls[i]? = some c' ∧ c'.pc.tries ∧
          writesOf (astep v s e) i + c'.pc.budget ≤ writesOf s i + c.pc.budget ∧
          writesOf s i ≤ writesOf (astep v s e) i ∧
          (∀ j, j ≠ i → writesOf (astep v s e) j = writesOf s j) ∧
          ∀ w ∈ (astep v s e).writes, w ∈ s.writes ∨ w.1 = i := by
        rcases actor_budget v s e hc hinv.2 ha with ⟨hw, c', h1, h2, h3⟩ | ⟨n, c', hw, h1, h2, h3⟩
        · refine ⟨c', h1, h3, ?_, ?_, ?_, ?_⟩
          · simp only [writesOf, hw]; omega
          · simp only [writesOf, hw]; exact Nat.le_refl _
          · intro j _; simp only [writesOf, hw]
          · intro w h; rw [hw] at h; exact .inl h
        · refine ⟨c', h1, h3, ?_, ?_, ?_, ?_⟩
          · simp only [writesOf, hw, List.countP_append, List.countP_singleton, beq_self_eq_true, if_true]; omega
          · simp only [writesOf, hw, List.countP_append]; omega
          · intro j hj
            simp only [writesOf, hw, List.countP_append, List.countP_singleton]
            rw [if_neg (by rw [beq_iff_eq]; exact fun e => hj e.symm)]
            rfl
          · intro w h
            rw [hw] at h
            rcases List.mem_append.1 h with h | h
            · exact .inl h
            · rw [List.mem_singleton.1 h]; exact .inr rfl
      obtain ⟨c', h1, h2, h3, h4, h5, h6⟩ := key
      have hlen := astep_length v s e hal
      refine ⟨⟨?_, ?_⟩, ?_, ?_⟩
      · intro j d hd
        by_cases hj : j = i
        · subst hj
          rw [h1] at hd
          cases hd
          exact ⟨by omega, h2⟩
        · rw [h5 j hj]
          cases hcj : s.calls[j]? with
          | some cj =>
            obtain ⟨d', e1, e2⟩ := other j hj cj hcj
            rw [hd] at e1
            cases e1
            rw [e2]
            exact h.calls j cj hcj
          | none =>
            exfalso
            -- an event of a call makes no calls
            have hl : (astep v s e).calls.length = s.calls.length := by
              have hb : ∀ a b : Bk, BSteps (fun r => e = .call r) (Receives s e) a b → b.calls.length = a.calls.length := by
                intro a b hs
                induction hs with
                | refl => rfl
                | snoc _ h2 ih =>
                  rw [← ih]
                  cases h2 with
                  | call req hm => rw [hm] at ha; cases ha
                  | _ => simp [Bk.setPc]
              exact hb _ _ (astep_bk v s e hal)
            have h1 := (List.getElem?_eq_some_iff.1 hd).1
            rw [List.getElem?_eq_none_iff] at hcj
            omega
      · intro w hw
        rcases h6 w hw with hw | hw
        · exact Nat.lt_of_lt_of_le (h.known w hw) hlen
        · rw [hw]
          exact (List.getElem?_eq_some_iff.1 h1).1
      · intro j
        by_cases hj : j = i
        · subst hj; exact h4
        · rw [h5 j hj]; exact Nat.le_refl _
      · intro j d hd
        by_cases hj : j = i
        · subst hj
          rw [hc] at hd
          cases hd
          exact ⟨c', h1, h3, h2⟩
        · obtain ⟨d', e1, e2⟩ := other j hj d hd
          exact ⟨d', e1, by rw [h5 j hj, e2]; exact Nat.le_refl _, by rw [e2]; exact (h.calls j d hd).2⟩

theorem arun_winv (v : PyVer) (evs : List AEv) : WInv (arun v evs) := by
  induction evs using snoc_induct with
  | nil => exact ⟨fun i c h => by simp [arun] at h, fun w h => by simp [arun] at h⟩
  | snoc evs e ih =>
    rw [arun_snoc]
    exact (astep_winv v _ e (arun_aligned v evs) ih).1

/-- C60. Whatever fails, `writer.write` is called for one call at most three times. -/
theorem C60_three_writes (v : PyVer) (evs : List AEv) (i : Nat) : writesOf (arun v evs) i ≤ 3 := by
  have h := arun_winv v evs
  cases hc : (arun v evs).calls[i]? with
  | some c => have := (h.calls i c hc).1; omega
  | none =>
    have : writesOf (arun v evs) i = 0 := by
      unfold writesOf
      rw [List.countP_eq_zero]
      intro w hw he
      have := h.known w hw
      rw [beq_iff_eq] at he
      rw [he] at this
      rw [List.getElem?_eq_none_iff] at hc
      omega
    omega

/-- C60. When the second `drain` has returned (so that the call waits for the response, or has ended), nothing is written
for the call any more. -/
theorem C60_no_more (v : PyVer) (pre post : List AEv) (i : Nat) (c : ACall) (hc : (arun v pre).calls[i]? = some c)
    (h : (∃ ev, c.pc = .waiting ev) ∨ ∃ r, c.pc = .done r) :
    writesOf (arun v (pre ++ post)) i = writesOf (arun v pre) i := by
  have hb : c.pc.budget = 0 := by
    rcases h with ⟨ev, h⟩ | ⟨r, h⟩ <;> rw [h] <;> rfl
  have key : ∃ c', (arun v (pre ++ post)).calls[i]? = some c' ∧
      writesOf (arun v (pre ++ post)) i + c'.pc.budget ≤ writesOf (arun v pre) i ∧
      writesOf (arun v pre) i ≤ writesOf (arun v (pre ++ post)) i := by
    induction post using snoc_induct with
    | nil => rw [List.append_nil]; exact ⟨c, hc, by omega, Nat.le_refl _⟩
    | snoc post e ih =>
      obtain ⟨d, d1, d2, d3⟩ := ih
      rw [← List.append_assoc, arun_snoc]
      obtain ⟨-, h2, h3⟩ := astep_winv v _ e (arun_aligned v (pre ++ post)) (arun_winv v _)
      obtain ⟨d', e1, e2, -⟩ := h3 i d d1
      exact ⟨d', e1, by omega, Nat.le_trans d3 (h2 i)⟩
  obtain ⟨c', -, h1, h2⟩ := key
  omega

/-! ### the same on the wire -/

/-- what the reading task never changes about a connection -/
def AConn.fixed (k : AConn) : Addr × List (Nat × Bytes) := (k.addr, k.sent)

theorem modify_fixed (l : List AConn) (n : Nat) (f : AConn → AConn) (hf : ∀ k, (f k).fixed = k.fixed) :
    (l.modify n f).map AConn.fixed = l.map AConn.fixed := by
  apply List.ext_getElem?
  intro j
  rw [List.getElem?_map, List.getElem?_map, List.getElem?_modify]
  cases l[j]? with
  | none => rfl
  | some k =>
    by_cases e : n = j
    · simp [e, hf]
    · simp [e]

theorem set_fixed {l : List AConn} {n : Nat} {k k' : AConn} (hk : l[n]? = some k) (h : k'.fixed = k.fixed) :
    (l.set n k').map AConn.fixed = l.map AConn.fixed := by
  apply List.ext_getElem?
  intro j
  rw [List.getElem?_map, List.getElem?_map, List.getElem?_set]
  by_cases e : n = j
  · subst e
    rw [if_pos rfl, if_pos (List.getElem?_eq_some_iff.1 hk).1, hk]
    simp [h]
  · rw [if_neg e]

theorem recv_fixed (s : ASt) (n : Nat) : (s.recv n).conns.map AConn.fixed = s.conns.map AConn.fixed := by
  unfold ASt.recv
  split
  · rfl
  · next k hk =>
    split
    · rfl
    · split <;> exact set_fixed hk rfl
    · split
      · exact set_fixed hk rfl
      · dsimp only
        split
        · split <;> exact set_fixed hk rfl
        · split
          · exact set_fixed hk rfl
          · rfl
    · split
      · exact set_fixed hk rfl
      · split
        · exact set_fixed hk rfl
        · split
          · dsimp only
            split
            · exact set_fixed hk rfl
            · rw [onPkg_conns]
              exact set_fixed hk rfl
          · split
            · exact set_fixed hk rfl
            · rfl

/-- the connection gets a frame -/
def AConn.put (i : Nat) (bs : Bytes) (k : AConn) : AConn := { k with sent := k.sent ++ [(i, bs)] }

/-- Connections are made by a dial that succeeds, and written to by a first `drain` that succeeds. -/
theorem astep_fixed (v : PyVer) (s : ASt) (e : AEv) :
    (astep v s e).conns.map AConn.fixed = s.conns.map AConn.fixed ∨
    (∃ i c r a l, e = .dialed i true ∧ s.calls[i]? = some c ∧ c.pc = .dialing r a l ∧
      (astep v s e).conns.map AConn.fixed = s.conns.map AConn.fixed ++ [(a, [])]) ∨
    (∃ i c r a n bs, e = .drained i true ∧ s.calls[i]? = some c ∧ c.pc = .drain1 r a n ∧ c.req.toStream = .ok bs ∧
      (astep v s e).writes = s.writes ++ [(i, n)] ∧
      (astep v s e).conns = s.conns.modify n (AConn.put i bs)) := by
  have brk : ∀ i c r a n, (s.broken i c r a n).conns.map AConn.fixed = s.conns.map AConn.fixed := by
    intro i c r a n
    rw [broken_conns]
    exact modify_fixed _ _ _ fun _ => rfl
  cases e with
  | call req => exact .inl rfl
  | start i addr =>
    left
    simp only [astep, ASt.start]
    split
    · split
      · rw [send_conns]
      · rfl
    · rfl
  | lock i =>
    left
    simp only [astep, ASt.lockTurn]
    split
    · split
      · split
        · split <;> rfl
        · rfl
      · rfl
    · rfl
  | dialed i ok =>
    simp only [astep, ASt.dialed]
    split
    · next c hc =>
      split
      · next r a l hp =>
        split
        · next hok =>
          refine .inr (.inl ⟨i, c, r, a, l, by rw [hok], hc, hp, ?_⟩)
          split <;> exact List.map_append
        · left
          rw [sendFailed_conns]
          rfl
      · exact .inl rfl
    · exact .inl rfl
  | drained i ok =>
    simp only [astep, ASt.drained]
    split
    · next c hc =>
      split
      · next r a n hp =>
        split
        · next hok =>
          split
          · exact .inl (brk ..)
          · next bs hbs => exact .inr (.inr ⟨i, c, r, a, n, bs, by rw [hok], hc, hp, hbs, rfl, rfl⟩)
        · exact .inl (brk ..)
      · split
        · split
          · exact .inl rfl
          · split <;> exact .inl rfl
        · exact .inl (brk ..)
      · exact .inl rfl
    · exact .inl rfl
  | wake i =>
    left
    simp only [astep, ASt.wake]
    split
    · split
      · split
        · split <;> rfl
        · rfl
      · rfl
    · rfl
  | cancel i =>
    left
    simp only [astep, ASt.cancel]
    split
    · split
      · rfl
      · split
        · rw [sendFailed_conns]
        · rfl
      · split
        · rw [sendFailed_conns]; rfl
        · rfl
      · split
        · exact brk ..
        · rfl
      · split
        · exact brk ..
        · rfl
      · rfl
      · rfl
    · rfl
  | recv n => exact .inl (recv_fixed s n)
  | data n bs =>
    refine .inl (modify_fixed _ _ _ ?_)
    intro k
    split <;> rfl
  | eof n => exact .inl (modify_fixed _ _ _ fun _ => rfl)
  | reset n => exact .inl (modify_fixed _ _ _ fun _ => rfl)

theorem flatMap_fixed (l : List AConn) : l.flatMap AConn.sent = (l.map AConn.fixed).flatMap Prod.snd := by
  rw [List.flatMap_map]
  rfl

/-- putting one frame on a connection adds at most that frame -/
theorem flatMap_put (l : List AConn) (n i : Nat) (bs : Bytes) (P : Nat × Bytes → Bool) :
    ((l.modify n (AConn.put i bs)).flatMap AConn.sent).countP P ≤ (l.flatMap AConn.sent).countP P + [(i, bs)].countP P ∧
    ∀ w ∈ (l.modify n (AConn.put i bs)).flatMap AConn.sent, w ∈ l.flatMap AConn.sent ∨ w = (i, bs) := by
  induction l generalizing n with
  | nil => simp
  | cons k l ih =>
    cases n with
    | zero =>
      rw [List.modify_zero_cons, List.flatMap_cons, List.flatMap_cons]
      unfold AConn.put
      dsimp only
      constructor
      · simp only [List.countP_append]
        omega
      · intro w h
        simp only [List.mem_append, List.mem_singleton] at h ⊢
        rcases h with (h | h) | h
        · exact .inl (.inl h)
        · exact .inr h
        · exact .inl (.inr h)
    | succ n =>
      rw [List.modify_succ_cons, List.flatMap_cons, List.flatMap_cons]
      obtain ⟨h1, h2⟩ := ih n
      constructor
      · simp only [List.countP_append]
        omega
      · intro w h
        simp only [List.mem_append] at h ⊢
        rcases h with h | h
        · exact .inl (.inl h)
        · rcases h2 w h with h | h
          · exact .inl (.inr h)
          · exact .inr h

theorem arun_sent (v : PyVer) (evs : List AEv) :
    (∀ i, sentOf (arun v evs) i ≤ writesOf (arun v evs) i) ∧
    ∀ w ∈ (arun v evs).conns.flatMap AConn.sent, ∃ c, (arun v evs).calls[w.1]? = some c ∧ c.req.toStream = .ok w.2 := by
  induction evs using snoc_induct with
  | nil => exact ⟨fun i => by simp [arun, sentOf], fun w h => by simp [arun] at h⟩
  | snoc evs e ih =>
    obtain ⟨ih1, ih2⟩ := ih
    have hmono : ∀ i, writesOf (arun v evs) i ≤ writesOf (arun v (evs ++ [e])) i := by
      rw [arun_snoc]
      exact (astep_winv v _ e (arun_aligned v evs) (arun_winv v evs)).2.1
    have hkeep : ∀ (i : Nat) (c : ACall) (bs : Bytes), (arun v evs).calls[i]? = some c → c.req.toStream = .ok bs →
        ∃ c', (arun v (evs ++ [e])).calls[i]? = some c' ∧ c'.req.toStream = .ok bs := by
      intro i c bs hc hb
      obtain ⟨c', h1, h2, -⟩ := call_persist v evs [e] hc
      exact ⟨c', h1, by rw [h2]; exact hb⟩
    have same : (arun v (evs ++ [e])).conns.flatMap AConn.sent = (arun v evs).conns.flatMap AConn.sent →
        (∀ i, sentOf (arun v (evs ++ [e])) i ≤ writesOf (arun v (evs ++ [e])) i) ∧
        ∀ w ∈ (arun v (evs ++ [e])).conns.flatMap AConn.sent,
          ∃ c, (arun v (evs ++ [e])).calls[w.1]? = some c ∧ c.req.toStream = .ok w.2 := by
      intro hs
      constructor
      · intro i
        unfold sentOf
        rw [hs]
        exact Nat.le_trans (ih1 i) (hmono i)
      · intro w hw
        rw [hs] at hw
        obtain ⟨c, h1, h2⟩ := ih2 w hw
        exact hkeep _ c _ h1 h2
    rcases astep_fixed v (arun v evs) e with h | ⟨i, c, r, a, l, -, -, -, h⟩ | ⟨i, c, r, a, n, bs, -, hc, hp, hb, hw, h⟩
    · apply same
      rw [flatMap_fixed, flatMap_fixed, arun_snoc, h]
    · apply same
      rw [flatMap_fixed, flatMap_fixed, arun_snoc, h]
      simp
    · rw [← arun_snoc] at hw h
      constructor
      · intro j
        unfold sentOf writesOf
        rw [h, hw]
        have := (flatMap_put (arun v evs).conns n i bs fun w => w.1 == j).1
        have h1 := ih1 j
        unfold sentOf writesOf at h1
        simp only [List.countP_append, List.countP_singleton] at this ⊢
        omega
      · intro w hw
        rw [h] at hw
        rcases (flatMap_put (arun v evs).conns n i bs fun _ => true).2 w hw with h | h
        · obtain ⟨c, h1, h2⟩ := ih2 w h
          exact hkeep _ c _ h1 h2
        · rw [h]
          exact hkeep i c bs hc hb

/-- C60. On all the connections together there are at most three frames of one call, each of them the encoding of its
request. -/
theorem C60_on_the_wire (v : PyVer) (evs : List AEv) (i : Nat) : sentOf (arun v evs) i ≤ 3 ∧
    ∀ k ∈ (arun v evs).conns, ∀ bs, (i, bs) ∈ k.sent → ∃ c, (arun v evs).calls[i]? = some c ∧ c.req.toStream = .ok bs := by
  refine ⟨Nat.le_trans ((arun_sent v evs).1 i) (C60_three_writes v evs i), ?_⟩
  intro k hk bs hb
  exact (arun_sent v evs).2 (i, bs) (List.mem_flatMap.2 ⟨k, hk, hb⟩)

/-- every flush fails after the write -/
def exThree : List AEv :=
  [.call (exAReq 1), .start 0 exAddr, .dialed 0 true, .drained 0 true, .drained 0 false, .dialed 0 true, .drained 0 true,
   .drained 0 false, .dialed 0 true, .drained 0 true, .drained 0 false]

set_option maxRecDepth 20000 in
example : writesOf (arun .from38 exThree) 0 = 3 ∧ sentOf (arun .from38 exThree) 0 = 3 ∧
    (arun .from38 exThree).calls.map ACall.pc = [.done .none] ∧
    writesOf (arun .from38 (exToWait (exAReq 1))) 0 = 1 ∧ (arun .from38 (exToWait (exAReq 1))).calls.map ACall.pc = [.waiting 0] := by
  decide +kernel

end Bolt
