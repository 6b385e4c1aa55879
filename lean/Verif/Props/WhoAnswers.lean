import Verif.Props.Quiet
/-!
# C185: who answers a call of the asyncio client

`request_mapping` (aio_client.py:54) is one dictionary for all connections of the client: the response that a reading task
processes completes the call with its id (241-243, 257-260), whichever connection the request was written to.
-/
namespace Bolt
open Spec

/-! ## Connections whose reading task has been cancelled -/

theorem modify_cancelled {l : List AConn} {n m : Nat} {f : AConn → AConn} (h : ∀ k : AConn, k.cancelled = true → (f k).cancelled = true)
    {x : AConn} (hx : l[m]? = some x) : ∃ y, (l.modify n f)[m]? = some y ∧ (x.cancelled = true → y.cancelled = true) := by
  by_cases e : n = m
  · subst e
    exact ⟨_, modify_self hx, h x⟩
  · exact ⟨x, by rw [modify_other e]; exact hx, id⟩

theorem recv_cancelled (s : ASt) (n : Nat) {x : AConn} (hx : s.conns[n]? = some x) : ∃ y, (s.recv n).conns[n]? = some y ∧
    (x.cancelled = true → y.cancelled = true) := by
  have key : ∀ k' : AConn, (x.cancelled = true → k'.cancelled = true) →
      ∃ y, (s.conns.set n k')[n]? = some y ∧ (x.cancelled = true → y.cancelled = true) := by
    intro k' h1
    exact ⟨k', by rw [List.getElem?_set, if_pos rfl, if_pos (List.getElem?_eq_some_iff.1 hx).1], h1⟩
  unfold ASt.recv
  rw [hx]
  dsimp only
  split
  · exact ⟨x, hx, id⟩
  · split <;> exact key _ id
  · split
    · exact key _ id
    · split
      · split <;> exact key _ id
      · split
        · exact key _ id
        · exact ⟨x, hx, id⟩
  · split
    · exact key _ id
    · split
      · exact key _ id
      · split
        · split
          · exact key _ id
          · rw [onPkg_conns]; exact key _ id
        · split
          · exact key _ id
          · exact ⟨x, hx, id⟩

/-- a cancelled connection stays cancelled -/
theorem astep_cancelled (v : PyVer) (s : ASt) (e : AEv) {m : Nat} {x : AConn} (hx : s.conns[m]? = some x) :
    ∃ y, (astep v s e).conns[m]? = some y ∧ (x.cancelled = true → y.cancelled = true) := by
  have brk : ∀ i c r a n, ∃ y, (s.broken i c r a n).conns[m]? = some y ∧ (x.cancelled = true → y.cancelled = true) := by
    intro i c r a n
    rw [broken_conns]
    exact modify_cancelled (fun _ _ => rfl) hx
  have same : ∃ y, s.conns[m]? = some y ∧ (x.cancelled = true → y.cancelled = true) := ⟨x, hx, id⟩
  cases e with
  | call req => exact same
  | start i addr =>
    simp only [astep, ASt.start]
    split
    · split
      · rw [send_conns]; exact same
      · exact same
    · exact same
  | lock i =>
    simp only [astep, ASt.lockTurn]
    split
    · split
      · split
        · split <;> exact same
        · exact same
      · exact same
    · exact same
  | dialed i ok =>
    simp only [astep, ASt.dialed]
    split
    · split
      · next r a l hp =>
        split
        · have : (s.conns ++ [({ addr := a } : AConn)])[m]? = some x := by
            rw [List.getElem?_append_left (List.getElem?_eq_some_iff.1 hx).1]
            exact hx
          split <;> exact ⟨x, this, id⟩
        · rw [sendFailed_conns]; exact same
      · exact same
    · exact same
  | drained i ok =>
    simp only [astep, ASt.drained]
    split
    · split
      · split
        · split
          · exact brk ..
          · refine modify_cancelled (l := s.conns) ?_ hx
            exact fun k => id
        · exact brk ..
      · split
        · split
          · exact same
          · split <;> exact same
        · exact brk ..
      · exact same
    · exact same
  | wake i =>
    simp only [astep, ASt.wake]
    split
    · split
      · split
        · split <;> exact same
        · exact same
      · exact same
    · exact same
  | cancel i =>
    simp only [astep, ASt.cancel]
    split
    · split
      · exact same
      · split
        · rw [sendFailed_conns]; exact same
        · exact same
      · split
        · rw [sendFailed_conns]; exact same
        · exact same
      · split
        · exact brk ..
        · exact same
      · split
        · exact brk ..
        · exact same
      · exact same
      · exact same
    · exact same
  | recv n =>
    by_cases e : n = m
    · subst e
      exact recv_cancelled s n hx
    · exact ⟨x, by rw [← hx]; exact recv_other s e, id⟩
  | data n bs =>
    refine modify_cancelled (l := s.conns) ?_ hx
    intro k
    split <;> exact id
  | eof n => exact modify_cancelled (l := s.conns) (fun _ h => by exact h) hx
  | reset n => exact modify_cancelled (l := s.conns) (fun _ h => by exact h) hx

/-! ### the connections that calls hold exist -/

/-! ## The addresses of the connections that calls write to -/

/-- `St i a`: call `i` was started for the address `a` -/
structure AdInv (St : Nat → Addr → Prop) (cm : PyDict Addr Nat) (addrs : List Addr) (writes : List (Nat × Nat))
    (pcs : List CallPc) : Prop where
  map : ∀ p ∈ cm, addrs[p.2]? = some p.1
  started : ∀ (i : Nat) (pc : CallPc) (a : Addr), pcs[i]? = some pc → pc.addr? = some a → St i a
  drain : ∀ (i r : Nat) (a : Addr) (n : Nat), pcs[i]? = some (.drain1 r a n) → addrs[n]? = some a
  writes : ∀ w ∈ writes, ∃ a, addrs[w.2]? = some a ∧ St w.1 a

def ASt.AdInv (St : Nat → Addr → Prop) (s : ASt) : Prop :=
  Bolt.AdInv St s.connMap (s.conns.map AConn.addr) s.writes s.dv.pcs

variable {St : Nat → Addr → Prop}

theorem setPc_ad {s : ASt} (h : s.AdInv St) (i : Nat) {pc : CallPc} (ha : ∀ a, pc.addr? = some a → St i a)
    (hp : ∀ r a n, pc = .drain1 r a n → (s.conns.map AConn.addr)[n]? = some a) : (s.setPc i pc).AdInv St := by
  unfold ASt.AdInv
  rw [dv_setPc]
  refine ⟨h.map, ?_, ?_, h.writes⟩
  · intro j pc' a hj hpc
    rcases set_cases hj with ⟨rfl, e⟩ | ⟨-, hj⟩
    · subst e; exact ha a hpc
    · exact h.started j pc' a hj hpc
  · intro j r a n hj
    rcases set_cases hj with ⟨-, e⟩ | ⟨-, hj⟩
    · exact hp r a n e.symm
    · exact h.drain j r a n hj

/-- a call comes to a point at which it uses no address -/
theorem setPc_ad' {s : ASt} (h : s.AdInv St) (i : Nat) {pc : CallPc} (ha : pc.addr? = none) : (s.setPc i pc).AdInv St := by
  refine setPc_ad h i ?_ ?_
  · intro a e; rw [ha] at e; cases e
  · intro r a n e; rw [e] at ha; cases ha

theorem sendFailed_ad {s : ASt} (h : s.AdInv St) (i : Nat) (d : ACall) : (s.sendFailed i d).AdInv St := by
  unfold ASt.sendFailed
  split
  · exact setPc_ad' (s := { s with reqs := PyDict.erase s.reqs d.req.requestId }) h i rfl
  · exact setPc_ad' h i rfl

theorem send_ad {s : ASt} (h : s.AdInv St) (i : Nat) (d : ACall) (r : Nat) (a : Addr) (hs : St i a) :
    (s.send i d r a).AdInv St := by
  have ha : ∀ b, some a = some b → St i b := by
    intro b e
    cases e
    exact hs
  unfold ASt.send
  split
  · exact sendFailed_ad h i d
  · split
    · next n hn =>
      refine setPc_ad h i ha ?_
      intro _ _ _ e
      cases e
      exact h.map (a, n) (PyDict.get?_mem hn)
    · split
      · next l hl =>
        split
        · exact setPc_ad (s := s.setLock l true) h i ha (by intro _ _ _ e; cases e)
        · exact setPc_ad h i ha (by intro _ _ _ e; cases e)
      · exact setPc_ad (s := { s with dialMap := PyDict.set s.dialMap a s.locks.length, locks := s.locks ++ [true] }) h i ha
          (by intro _ _ _ e; cases e)

theorem modify_addr (l : List AConn) (n : Nat) (f : AConn → AConn) (hf : ∀ k, (f k).addr = k.addr) :
    (l.modify n f).map AConn.addr = l.map AConn.addr := by
  apply List.ext_getElem?
  intro j
  rw [List.getElem?_map, List.getElem?_map, List.getElem?_modify]
  cases l[j]? with
  | none => rfl
  | some k =>
    by_cases e : n = j
    · simp [e, hf]
    · simp [e]

theorem broken_ad {s : ASt} (h : s.AdInv St) (i : Nat) (d : ACall) (r : Nat) (a : Addr) (n : Nat) (hs : St i a) :
    (s.broken i d r a n).AdInv St := by
  have hc : ({ s with conns := s.conns.modify n fun k => { k with cancelled := true } } : ASt).AdInv St := by
    unfold ASt.AdInv at *
    dsimp only
    rw [modify_addr s.conns n (fun k => { k with cancelled := true }) fun _ => rfl]
    exact h
  have he : ({ s with conns := s.conns.modify n fun k => { k with cancelled := true }, connMap := PyDict.erase s.connMap a } : ASt).AdInv St :=
    ⟨fun p hp => hc.map p (mem_of_mem_erase hp), hc.started, hc.drain, hc.writes⟩
  unfold ASt.broken
  dsimp only
  split
  · split
    · exact send_ad (s := { s with conns := s.conns.modify n fun k => { k with cancelled := true }, connMap := PyDict.erase s.connMap a, dialMap := PyDict.erase s.dialMap a }) he i d _ _ hs
    · exact sendFailed_ad he i d
  · exact sendFailed_ad hc i d

theorem ad_same {s s' : ASt} (h : s.AdInv St) (e : s'.dv = s.dv) : s'.AdInv St := by
  have e1 : s'.connMap = s.connMap := congrArg DV.connMap e
  have e2 : s'.conns.map AConn.addr = s.conns.map AConn.addr := congrArg DV.addrs e
  have e3 : s'.writes = s.writes := congrArg DV.writes e
  unfold ASt.AdInv
  rw [e1, e2, e3, e]
  exact h

theorem astep_ad (v : PyVer) (s : ASt) (e : AEv) (hst : ∀ i a, e = .start i a → St i a) (h : s.AdInv St) :
    (astep v s e).AdInv St := by
  have adr : ∀ {i : Nat} {c : ACall} {a : Addr}, s.calls[i]? = some c → c.pc.addr? = some a → St i a := by
    intro i c a hc ha
    exact h.started i c.pc a (pcs_get hc) ha
  have one : ∀ {i : Nat} {a : Addr}, St i a → ∀ b, some a = some b → St i b := by
    intro i a hs b e
    cases e
    exact hs
  cases e with
  | call req =>
    have e : (astep v s (.call req)).dv.pcs = s.dv.pcs ++ [.new] := List.map_append
    unfold ASt.AdInv
    rw [e]
    have old : ∀ (i : Nat) (pc : CallPc), (s.dv.pcs ++ [.new])[i]? = some pc → s.dv.pcs[i]? = some pc ∨ pc = .new := by
      intro i pc hi
      rw [List.getElem?_append] at hi
      split at hi
      · exact .inl hi
      · have := List.mem_of_getElem? hi
        exact .inr (by simpa using this)
    refine ⟨h.map, ?_, ?_, h.writes⟩
    · intro i pc a hi ha
      rcases old i pc hi with hi | rfl
      · exact h.started i pc a hi ha
      · cases ha
    · intro i r a n hi
      rcases old i _ hi with hi | hi
      · exact h.drain i r a n hi
      · cases hi
  | start i a =>
    simp only [astep, ASt.start]
    split
    · next c hc =>
      split
      · exact send_ad (s := { s with reqs := PyDict.set s.reqs c.req.requestId i }) h i c 3 a (hst i a rfl)
      · exact h
    · exact h
  | lock i =>
    simp only [astep, ASt.lockTurn]
    split
    · next c hc =>
      split
      · next r a l hp =>
        have hs : St i a := adr hc (by rw [hp]; rfl)
        split
        · split
          · next n hn =>
            refine setPc_ad h i (one hs) ?_
            intro _ _ _ e
            cases e
            exact h.map (a, n) (PyDict.get?_mem hn)
          · exact setPc_ad (s := s.setLock l true) h i (one hs) (by intro _ _ _ e; cases e)
        · exact h
      · exact h
    · exact h
  | dialed i ok =>
    simp only [astep, ASt.dialed]
    split
    · next c hc =>
      split
      · next r a l hp =>
        have hs : St i a := adr hc (by rw [hp]; rfl)
        split
        · have hl : ∀ (x : Nat) (b : Addr), (s.conns.map AConn.addr)[x]? = some b →
              ((s.conns ++ [({ addr := a } : AConn)]).map AConn.addr)[x]? = some b := by
            intro x b hx
            rw [List.map_append, List.getElem?_append_left (List.getElem?_eq_some_iff.1 hx).1]
            exact hx
          have h1 : ({ s.setLock l false with conns := s.conns ++ [({ addr := a } : AConn)] } : ASt).AdInv St := by
            refine ⟨fun p hp => hl _ _ (h.map p hp), h.started, fun j r' a' n hj => hl _ _ (h.drain j r' a' n hj), ?_⟩
            intro w hw
            obtain ⟨b, h1, h2⟩ := h.writes w hw
            exact ⟨b, hl _ _ h1, h2⟩
          split
          · next m hm =>
            refine setPc_ad h1 i (one hs) ?_
            intro _ _ _ e
            cases e
            exact h1.map (a, m) (PyDict.get?_mem hm)
          · have hlt : ((s.conns ++ [({ addr := a } : AConn)]).map AConn.addr)[s.conns.length]? = some a := by simp
            refine setPc_ad (s := { s.setLock l false with conns := s.conns ++ [({ addr := a } : AConn)], connMap := PyDict.set s.connMap a s.conns.length }) ?_ i (one hs) ?_
            · refine ⟨?_, h1.started, h1.drain, h1.writes⟩
              intro p hp
              rcases mem_of_mem_set hp with hp | rfl
              · exact h1.map p hp
              · exact hlt
            · intro _ _ _ e
              cases e
              exact hlt
        · exact sendFailed_ad (s := s.setLock l false) h i c
      · exact h
    · exact h
  | drained i ok =>
    simp only [astep, ASt.drained]
    split
    · next c hc =>
      split
      · next r a n hp =>
        have hs : St i a := adr hc (by rw [hp]; rfl)
        split
        · split
          · exact broken_ad h _ _ _ _ _ hs
          · next bs hb =>
            have hm : (s.conns.modify n fun k => { k with sent := k.sent ++ [(i, bs)] }).map AConn.addr = s.conns.map AConn.addr :=
              modify_addr _ _ _ fun _ => rfl
            refine setPc_ad (s := { s with
              conns := s.conns.modify n fun k => { k with sent := k.sent ++ [(i, bs)] }
              writes := s.writes ++ [(i, n)] }) ?_ i (one hs) (by intro _ _ _ e; cases e)
            unfold ASt.AdInv at *
            dsimp only
            rw [hm]
            refine ⟨h.map, h.started, h.drain, ?_⟩
            intro w hw
            rcases List.mem_append.1 hw with hw | hw
            · exact h.writes w hw
            · cases List.mem_singleton.1 hw
              exact ⟨a, h.drain i r a n (by rw [← hp]; exact pcs_get hc), hs⟩
        · exact broken_ad h _ _ _ _ _ hs
      · next r a n hp =>
        have hs : St i a := adr hc (by rw [hp]; rfl)
        split
        · split
          · exact setPc_ad' h i rfl
          · split
            · exact setPc_ad' (s := { s with reqs := PyDict.erase s.reqs c.req.requestId }) h i rfl
            · exact setPc_ad' h i rfl
        · exact broken_ad h _ _ _ _ _ hs
      · exact h
    · exact h
  | wake i =>
    simp only [astep, ASt.wake]
    split
    · next c hc =>
      split
      · split
        · split
          · exact setPc_ad' (s := { s with resps := PyDict.erase s.resps c.req.requestId }) h i rfl
          · exact setPc_ad' h i rfl
        · exact h
      · exact h
    · exact h
  | cancel i =>
    simp only [astep, ASt.cancel]
    split
    · next c hc =>
      split
      · exact setPc_ad' h i rfl
      · split
        · exact sendFailed_ad h ..
        · exact setPc_ad' h i rfl
      · next l hp =>
        split
        · exact sendFailed_ad (s := s.setLock l false) h ..
        · exact setPc_ad' (s := s.setLock l false) h i rfl
      · next r a n hp =>
        split
        · exact broken_ad h _ _ _ _ _ (adr hc (by rw [hp]; rfl))
        · exact setPc_ad' h i rfl
      · next r a n hp =>
        split
        · exact broken_ad h _ _ _ _ _ (adr hc (by rw [hp]; rfl))
        · exact setPc_ad' h i rfl
      · exact setPc_ad' h i rfl
      · exact h
    · exact h
  | recv n => exact ad_same h (recv_dv s n)
  | data n bs =>
    refine ad_same h (dv_conns (modify_fixed _ _ _ ?_))
    intro k
    split <;> rfl
  | eof n => exact ad_same h (dv_conns (modify_fixed _ _ _ fun _ => rfl))
  | reset n => exact ad_same h (dv_conns (modify_fixed _ _ _ fun _ => rfl))

theorem ASt.AdInv.mono {St' : Nat → Addr → Prop} (hm : ∀ i a, St i a → St' i a) {s : ASt} (h : s.AdInv St) : s.AdInv St' := by
  refine ⟨h.map, fun i pc a h1 h2 => hm _ _ (h.started i pc a h1 h2), h.drain, ?_⟩
  intro w hw
  obtain ⟨a, h1, h2⟩ := h.writes w hw
  exact ⟨a, h1, hm _ _ h2⟩

theorem arun_ad (v : PyVer) (evs : List AEv) : (arun v evs).AdInv fun i a => .start i a ∈ evs := by
  induction evs using snoc_induct with
  | nil =>
    refine ⟨?_, ?_, ?_, ?_⟩
    · intro p hp; cases hp
    · intro i pc a hi; cases hi
    · intro i r a n hi; cases hi
    · intro w hw; cases hw
  | snoc evs e ih =>
    rw [arun_snoc]
    refine astep_ad v _ e ?_ (ih.mono fun i a h => List.mem_append_left _ h)
    rintro i a rfl
    exact List.mem_append_right _ (List.mem_singleton.2 rfl)

/-- C185, where requests go: whatever fails, every write of a call goes to a connection to an address for which the call
was started. -/
theorem C185_address (v : PyVer) (evs : List AEv) (i n : Nat) (h : (i, n) ∈ (arun v evs).writes) :
    ∃ k, (arun v evs).conns[n]? = some k ∧ .start i k.addr ∈ evs := by
  obtain ⟨a, h1, h2⟩ := (arun_ad v evs).writes (i, n) h
  rw [List.getElem?_map] at h1
  obtain ⟨k, hk, rfl⟩ := Option.map_eq_some_iff.1 h1
  exact ⟨k, hk, h2⟩

/-! ## The connections a call has left -/

theorem sendFailed_writes (s : ASt) (i : Nat) (d : ACall) : (s.sendFailed i d).writes = s.writes := by
  unfold ASt.sendFailed
  split <;> rfl

theorem send_writes (s : ASt) (i : Nat) (d : ACall) (r : Nat) (a : Addr) : (s.send i d r a).writes = s.writes := by
  unfold ASt.send
  split
  · exact sendFailed_writes s i d
  · split
    · rfl
    · split
      · split <;> rfl
      · rfl

theorem broken_writes (s : ASt) (i : Nat) (d : ACall) (r : Nat) (a : Addr) (n : Nat) : (s.broken i d r a n).writes = s.writes := by
  unfold ASt.broken
  dsimp only
  split
  · split
    · exact send_writes ..
    · exact sendFailed_writes ..
  · exact sendFailed_writes ..

/-- A call that writes is past the write then. -/
theorem write_wrote (v : PyVer) (s : ASt) (e : AEv) {i : Nat} {c : ACall} (hc : s.calls[i]? = some c) (ha : e.actor = some i) :
    (astep v s e).writes = s.writes ∨ ∃ n r a c', (astep v s e).writes = s.writes ++ [(i, n)] ∧ c.pc = .drain1 r a n ∧
      (astep v s e).calls[i]? = some c' ∧ c'.pc = .drain2 r a n := by
  cases e with
  | call req => cases ha
  | recv n => cases ha
  | data n bs => cases ha
  | eof n => cases ha
  | reset n => cases ha
  | start j addr =>
    cases ha
    left
    simp only [astep, ASt.start, hc]
    split
    · exact send_writes ..
    · rfl
  | lock j =>
    cases ha
    left
    simp only [astep, ASt.lockTurn, hc]
    split
    · split
      · split <;> rfl
      · rfl
    · rfl
  | dialed j ok =>
    cases ha
    left
    simp only [astep, ASt.dialed, hc]
    split
    · split
      · split <;> rfl
      · exact sendFailed_writes ..
    · rfl
  | drained j ok =>
    cases ha
    simp only [astep, ASt.drained, hc]
    split
    · next r a n hp =>
      split
      · split
        · exact .inl (broken_writes ..)
        · exact .inr ⟨n, r, a, _, rfl, hp, modify_self (l := s.calls) hc, rfl⟩
      · exact .inl (broken_writes ..)
    · left
      split
      · split
        · rfl
        · split <;> rfl
      · exact broken_writes ..
    · exact .inl rfl
  | wake j =>
    cases ha
    left
    simp only [astep, ASt.wake, hc]
    split
    · split
      · split <;> rfl
      · rfl
    · rfl
  | cancel j =>
    cases ha
    left
    simp only [astep, ASt.cancel, hc]
    split
    · rfl
    · split
      · exact sendFailed_writes ..
      · rfl
    · split
      · exact sendFailed_writes ..
      · rfl
    · split
      · exact broken_writes ..
      · rfl
    · split
      · exact broken_writes ..
      · rfl
    · rfl
    · rfl

/-- A call that has written stays past its write, ends, or gives its connection up. -/
theorem wrote_to (v : PyVer) (s : ASt) (e : AEv) {i : Nat} {c c' : ACall} (hc : s.calls[i]? = some c)
    (hc' : (astep v s e).calls[i]? = some c') (ha : e.actor = some i) (hw : c.pc.wrote = true) :
    c'.pc.wrote = true ∨ c'.pc.isDone = true ∨ ∃ r a n, c.pc = .drain2 r a n ∧
      (astep v s e).conns = s.conns.modify n fun k => { k with cancelled := true } := by
  have fin : ∀ (x : ASt) (pc : CallPc), x.calls = s.calls → (x.setPc i pc).calls[i]? = some c' → c'.pc = pc := by
    intro x pc hx h1
    have := modify_self (l := x.calls) (by rw [hx]; exact hc) (f := fun c => { c with pc := pc })
    rw [show (x.calls.modify i fun c => { c with pc := pc })[i]? = some c' from h1] at this
    cases this
    rfl
  have same : ∀ x : ASt, x = s → x.calls[i]? = some c' → c'.pc.wrote = true := by
    rintro _ rfl h1
    rw [hc] at h1
    cases h1
    exact hw
  cases hp : c.pc with
  | drain2 r a n =>
    cases e with
    | call req => cases ha
    | recv n => cases ha
    | data n bs => cases ha
    | eof n => cases ha
    | reset n => cases ha
    | start j addr => cases ha; exact .inl (same _ (by simp only [astep, ASt.start, hc, hp]) hc')
    | lock j => cases ha; exact .inl (same _ (by simp only [astep, ASt.lockTurn, hc, hp]) hc')
    | dialed j ok => cases ha; exact .inl (same _ (by simp only [astep, ASt.dialed, hc, hp]) hc')
    | drained j ok =>
      cases ha
      revert hc'
      simp only [astep, ASt.drained, hc, hp]
      split
      · split
        · intro hc'; rw [fin s _ rfl hc']; exact .inr (.inl rfl)
        · split
          · intro hc'; rw [fin { s with reqs := PyDict.erase s.reqs c.req.requestId } _ rfl hc']; exact .inr (.inl rfl)
          · intro hc'; rw [fin s _ rfl hc']; exact .inl rfl
      · exact fun _ => .inr (.inr ⟨r, a, n, rfl, broken_conns ..⟩)
    | wake j => cases ha; exact .inl (same _ (by simp only [astep, ASt.wake, hc, hp]) hc')
    | cancel j =>
      cases ha
      revert hc'
      simp only [astep, ASt.cancel, hc, hp]
      split
      · exact fun _ => .inr (.inr ⟨r, a, n, rfl, broken_conns ..⟩)
      · intro hc'; rw [fin s _ rfl hc']; exact .inr (.inl rfl)
  | waiting ev =>
    cases e with
    | call req => cases ha
    | recv n => cases ha
    | data n bs => cases ha
    | eof n => cases ha
    | reset n => cases ha
    | start j addr => cases ha; exact .inl (same _ (by simp only [astep, ASt.start, hc, hp]) hc')
    | lock j => cases ha; exact .inl (same _ (by simp only [astep, ASt.lockTurn, hc, hp]) hc')
    | dialed j ok => cases ha; exact .inl (same _ (by simp only [astep, ASt.dialed, hc, hp]) hc')
    | drained j ok => cases ha; exact .inl (same _ (by simp only [astep, ASt.drained, hc, hp]) hc')
    | wake j =>
      cases ha
      revert hc'
      simp only [astep, ASt.wake, hc, hp]
      split
      · split
        · next p hq => intro hc'; rw [fin { s with resps := PyDict.erase s.resps c.req.requestId } _ rfl hc']; exact .inr (.inl rfl)
        · intro hc'; rw [fin s _ rfl hc']; exact .inr (.inl rfl)
      · exact fun hc' => .inl (same _ rfl hc')
    | cancel j =>
      cases ha
      revert hc'
      simp only [astep, ASt.cancel, hc, hp]
      intro hc'; rw [fin s _ rfl hc']; exact .inr (.inl rfl)
  | _ => rw [hp] at hw; cases hw

/-- the reading task of connection `n` has been cancelled -/
def Spec.GivenUp (s : ASt) (n : Nat) : Prop := ∃ k, s.conns[n]? = some k ∧ k.cancelled = true

/-- The connections a call that goes on has written to are given up, except for the last one. -/
theorem arun_left (v : PyVer) (evs : List AEv) (i n : Nat) (c : ACall) (hc : (arun v evs).calls[i]? = some c)
    (hw : (i, n) ∈ (arun v evs).writes) (hd : c.pc.isDone = false) :
    GivenUp (arun v evs) n ∨ lastConn (arun v evs) i = some n ∧ c.pc.wrote = true := by
  induction evs using snoc_induct generalizing i n c with
  | nil => cases hc
  | snoc evs e ih =>
    rw [arun_snoc] at hc hw ⊢
    have keep : ∀ m, GivenUp (arun v evs) m → GivenUp (astep v (arun v evs) e) m := by
      rintro m ⟨k, hk, hcan⟩
      obtain ⟨y, h1, h2⟩ := astep_cancelled v (arun v evs) e hk
      exact ⟨y, h1, h2 hcan⟩
    cases h0 : (arun v evs).calls[i]? with
    | none =>
      obtain ⟨req, rfl, -⟩ := astep_new v _ e (arun_aligned v evs) h0 hc
      have := (arun_winv v evs).known (i, n) hw
      rw [List.getElem?_eq_none_iff] at h0
      exact absurd this (by omega)
    | some c0 =>
      by_cases ha : e.actor = some i
      · rcases write_wrote v (arun v evs) e h0 ha with hws | ⟨m, r, a, c1, hws, hp, hc1, hp1⟩
        · rw [hws] at hw
          have hd0 : c0.pc.isDone = false := by
            cases hpc : c0.pc with
            | done r =>
              obtain ⟨c2, e1, -, -, -, e5⟩ := call_persist v evs [e] h0
              rw [arun_snoc, hc] at e1
              cases e1
              rw [e5 r hpc] at hd
              cases hd
            | _ => rfl
          rcases ih i n c0 h0 hw hd0 with h | ⟨h1, h2⟩
          · exact .inl (keep n h)
          · rcases wrote_to v _ e h0 hc ha h2 with h | h | ⟨r, a, m, hp, hcs⟩
            · exact .inr ⟨by rw [lastConn_same hws]; exact h1, h⟩
            · rw [hd] at h; cases h
            · obtain ⟨h3, k, hk, -⟩ := (arun_put v evs).drain i c0 r a m h0 hp
              rw [h1] at h3
              cases h3
              exact .inl ⟨_, by rw [hcs]; exact modify_self hk, rfl⟩
        · rw [hc] at hc1
          cases hc1
          rw [hws] at hw
          rcases List.mem_append.1 hw with hw | hw
          · rcases ih i n c0 h0 hw (by rw [hp]; rfl) with h | ⟨-, h2⟩
            · exact .inl (keep n h)
            · rw [hp] at h2; cases h2
          · cases List.mem_singleton.1 hw
            exact .inr ⟨by rw [lastConn_snoc hws, if_pos rfl], by rw [hp1]; rfl⟩
      · have hst : c.pc = c0.pc := by
          obtain ⟨d, h1, h2, -⟩ := astep_keeps v (arun v evs) e i ha c0 h0
          rw [h1] at hc
          cases hc
          exact h2
        have hw0 : (i, n) ∈ (arun v evs).writes := by
          cases hx : e.actor with
          | none => rw [passive_writes v _ e hx] at hw; exact hw
          | some j =>
            cases hj : (arun v evs).calls[j]? with
            | none => rw [astep_nobody v _ e hx hj] at hw; exact hw
            | some d =>
              rcases write_wrote v (arun v evs) e hj hx with h | ⟨m, r, a, c1, h, -⟩
              · rw [h] at hw; exact hw
              · rw [h] at hw
                rcases List.mem_append.1 hw with hw | hw
                · exact hw
                · cases List.mem_singleton.1 hw
                  exact absurd hx ha
        rw [hst] at hd
        rcases ih i n c0 h0 hw0 hd with h | ⟨h1, h2⟩
        · exact .inl (keep n h)
        · exact .inr ⟨by rw [lastConn_other v evs e i ha]; exact h1, by rw [hst]; exact h2⟩

/-! ## The connection that answers -/

/-- a request with the id `id` was written to connection `n` -/
def Spec.Asked (s : ASt) (n : Nat) (id : PyObj) : Prop :=
  ∃ (j : Nat) (d : ACall), (j, n) ∈ s.writes ∧ s.calls[j]? = some d ∧ d.req.requestId = id

/-- the package `p` is processed by the reading task of some connection -/
def Handles (s : ASt) (e : AEv) (b : Bk) (p : Pkg) : Prop := b = s.bk ∧ ∃ n, e = .recv n ∧ Processes s n p

theorem astep_handles (v : PyVer) (s : ASt) (e : AEv) : BSteps (fun r => e = .call r) (Handles s e) s.bk (astep v s e).bk := by
  cases e with
  | call req => exact .one (.call s.bk req rfl)
  | start i addr => exact start_bk s i addr
  | lock i => exact lockTurn_bk s i
  | dialed i ok => exact dialed_bk s i ok
  | drained i ok => exact drained_bk s i ok
  | wake i => exact wake_bk s i
  | cancel i => exact cancel_bk v s i
  | recv n =>
    show BSteps _ _ s.bk (s.recv n).bk
    rcases recv_quiet s n with ⟨cs, e⟩ | ⟨p, hp⟩
    · rw [e]; exact .refl _
    · obtain ⟨k', e⟩ := recv_processes hp
      rw [e]
      cases hr : PyDict.get? s.reqs p.requestId with
      | none => rw [onPkg_none { s with conns := s.conns.set n k' } _ hr]; exact .refl _
      | some ev =>
        rw [onPkg_some { s with conns := s.conns.set n k' } _ (processes_cls hp) ev hr]
        exact .one (.notify s.bk p ev ⟨rfl, n, rfl, hp⟩ hr)
  | data n bs => exact .refl _
  | eof n => exact .refl _
  | reset n => exact .refl _

/-- `p` is a successful answer, processed when the call `i` had started and its event was not yet set -/
def HandledFor (v : PyVer) (evs : List AEv) (i : Nat) (p : Pkg) : Prop :=
  ∃ (pre post : List AEv) (n : Nat) (c : ACall), evs = pre ++ .recv n :: post ∧ Processes (arun v pre) n p ∧
    (arun v pre).calls[i]? = some c ∧ c.req.requestId = p.requestId ∧ c.pc ≠ .new ∧ c.set = false

theorem arun_handled (v : PyVer) (evs : List AEv) (h : DistinctIds evs) : BInv (HandledFor v evs) (arun v evs).bk := by
  induction evs using snoc_induct with
  | nil =>
    refine ⟨List.nodup_nil, List.nodup_nil, ?_, ?_, ?_⟩
    · intro id ev e; cases e
    · intro id p e; cases e
    · intro i c e; cases e
  | snoc evs e ih =>
    have hs : BSteps (fun r => e = .call r) (Handles (arun v evs) e) (arun v evs).bk (arun v (evs ++ [e])).bk := by
      rw [arun_snoc]; exact astep_handles v _ e
    refine BInv.steps hs (distinct_of h) ?_ ((ih h.prefix).mono ?_)
    · rintro x p ev c ⟨rfl, n, rfl, hp⟩ - hc hid hnew hset
      exact ⟨evs, [], n, c, rfl, hp, hc, hid, hnew, hset⟩
    · rintro i p ⟨pre, post, n, c, rfl, rest⟩
      exact ⟨pre, post ++ [e], n, c, by simp, rest⟩

/-- C185 as listed: a response that completes a waiting call has come on a connection to which the request was written. -/
def C185_full : Prop :=
  ∀ (v : PyVer) (pre : List AEv) (n i ev : Nat) (p : Pkg) (c c' : ACall), DistinctIds pre → Processes (arun v pre) n p →
    (arun v pre).calls[i]? = some c → c.pc = .waiting ev → c.set = false →
    (arun v (pre ++ [.recv n, .wake i])).calls[i]? = some c' → c'.pc = .done (.resp p) →
    (i, n) ∈ (arun v pre).writes

/-- another server -/
def exAddr2 : Addr := (py "evil", 2)

/-- a call of each of two servers; the second server answers the call of the first -/
def exHijack : List AEv :=
  [.call (exAReq 1), .call (exAReq 2), .start 0 exAddr, .start 1 exAddr2, .dialed 0 true, .dialed 1 true, .drained 0 true,
   .drained 1 true, .drained 0 true, .drained 1 true, .recv 0, .recv 1, .data 1 (reply 1 0 [66]), .recv 1]

set_option maxRecDepth 20000 in
theorem C185_violated : ¬ C185_full := by
  intro h
  have := h .from38 exHijack 1 0 0 _ _ _ (by decide +kernel)
    ⟨_, _, _, rfl, rfl, rfl, rfl, rfl, by decide +kernel, rfl⟩ rfl rfl rfl rfl rfl
  revert this
  decide +kernel

/-- What happens instead, always: whichever connection a SUCCESS response with the id of a waiting call is processed on,
the call returns it. -/
theorem C185_always (v : PyVer) (pre : List AEv) (n i ev : Nat) (p : Pkg) (c : ACall) (hd : DistinctIds pre)
    (hp : Processes (arun v pre) n p) (hgood : p.cmdcode = .response ∧ p.respstatus = .success)
    (hc : (arun v pre).calls[i]? = some c) (hid : c.req.requestId = p.requestId) (hw : c.pc = .waiting ev)
    (hset : c.set = false) :
    ∃ c', (arun v (pre ++ [.recv n, .wake i])).calls[i]? = some c' ∧ c'.pc = .done (.resp p) := by
  have hd' : DistinctIds (pre ++ [.recv n, .wake i]) := by
    unfold DistinctIds at *
    rw [requests_append]
    simpa [requests] using hd
  obtain ⟨c', h1, -, h3⟩ := C59_waiting_partial v pre [.wake i] n hd' p hp hgood i ev c hc hid hw hset (by simp)
  exact ⟨c', h1, h3 (by simp)⟩

/-- C185, what holds: a call that returns a response was waiting when some connection processed it, and if a request with
that id had been written to that connection at all, then it was this one, the connection is the last one it was written to,
and leads to an address the call was made for: responses on connections that a call has left do not reach it. Missing:
a peer that was not asked can answer as well (`C185_always`). -/
theorem C185_asked_partial (v : PyVer) (evs : List AEv) (hd : DistinctIds evs) (i : Nat) (c : ACall) (p : Pkg)
    (hc : (arun v evs).calls[i]? = some c) (hr : c.pc = .done (.resp p)) :
    ∃ (pre post : List AEv) (n : Nat) (c' : ACall) (ev : Nat), evs = pre ++ .recv n :: post ∧ Processes (arun v pre) n p ∧
      (arun v pre).calls[i]? = some c' ∧ c'.pc = .waiting ev ∧ c'.set = false ∧ p.requestId = c.req.requestId ∧
      (Asked (arun v pre) n c.req.requestId → (i, n) ∈ (arun v pre).writes ∧ lastConn (arun v pre) i = some n ∧
        ∃ k, (arun v pre).conns[n]? = some k ∧ .start i k.addr ∈ evs) := by
  obtain ⟨⟨pre, post, n, c', rfl, hp, hc', hid', hnew, hset⟩, hid, -⟩ := ((arun_handled v evs hd).calls i c hc).delivered p hr
  have hwait : ∃ ev, c'.pc = .waiting ev := by
    have early : c'.pc.sending = true → False := by
      intro hs
      obtain ⟨c2, h1, h2⟩ := C59_early v pre post n hd p hp i c' hc' hid' hs hset
      rw [hc] at h1
      cases h1
      rw [hr] at h2
      rcases h2 with h | h | h <;> cases h
    cases hpc : c'.pc with
    | waiting ev => exact ⟨ev, rfl⟩
    | new => exact absurd hpc hnew
    | done r =>
      obtain ⟨c2, e1, -, -, -, e5⟩ := call_persist v pre (.recv n :: post) hc'
      rw [hc] at e1
      cases e1
      have := e5 r hpc
      rw [hr] at this
      cases this
      have := ((arun_inv v pre hd.prefix).calls i c' hc').delivered p hpc
      rw [hset] at this
      cases this.2.2
    | _ => exact (early (by rw [hpc]; rfl)).elim
  obtain ⟨ev, hw⟩ := hwait
  refine ⟨pre, post, n, c', ev, rfl, hp, hc', hw, hset, hid, ?_⟩
  rintro ⟨j, d, hj, hdj, hjd⟩
  have : j = i := by
    refine (distinct_of hd.prefix).eq hdj hc' ?_
    rw [hjd, ← hid, hid']
  subst this
  have hl : lastConn (arun v pre) j = some n := by
    rcases arun_left v pre j n c' hc' hj (by rw [hw]; rfl) with ⟨k, hk, hcan⟩ | h
    · obtain ⟨k2, -, -, hk2, -, hcan2, -⟩ := hp
      rw [hk] at hk2
      cases hk2
      rw [hcan] at hcan2
      cases hcan2
    · exact h.1
  obtain ⟨k, hk, hs⟩ := C185_address v pre j n hj
  exact ⟨hj, hl, k, hk, List.mem_append_left _ hs⟩

/-- the peers answer only what they were asked -/
def Spec.FaithfulPeers (v : PyVer) (evs : List AEv) : Prop :=
  ∀ (pre post : List AEv) (n : Nat) (p : Pkg), evs = pre ++ .recv n :: post → Processes (arun v pre) n p →
    Asked (arun v pre) n p.requestId

/-- C185 for peers that answer only what they were asked: a call returns what came on the last connection it was written
to, a connection to an address the call was made for. -/
theorem C185_faithful (v : PyVer) (evs : List AEv) (hd : DistinctIds evs) (hf : FaithfulPeers v evs) (i : Nat) (c : ACall)
    (p : Pkg) (hc : (arun v evs).calls[i]? = some c) (hr : c.pc = .done (.resp p)) :
    ∃ (pre post : List AEv) (n : Nat) (k : AConn), evs = pre ++ .recv n :: post ∧ Processes (arun v pre) n p ∧
      lastConn (arun v pre) i = some n ∧ (arun v pre).conns[n]? = some k ∧ .start i k.addr ∈ evs := by
  obtain ⟨pre, post, n, c', ev, rfl, hp, -, -, -, hid, h⟩ := C185_asked_partial v evs hd i c p hc hr
  have := hf pre post n p rfl hp
  rw [hid] at this
  obtain ⟨-, h1, k, h2, h3⟩ := h this
  exact ⟨pre, post, n, k, rfl, hp, h1, h2, h3⟩

/-! ### examples -/

/-- The first connection breaks after the write, the call is written again on a second one; the first peer answers as well,
in vain. -/
def exRewritten : List AEv :=
  [.call (exAReq 1), .start 0 exAddr, .dialed 0 true, .drained 0 true, .drained 0 false, .dialed 0 true, .drained 0 true,
   .drained 0 true, .recv 0, .recv 1, .data 0 (reply 1 0 [5]), .recv 0, .data 1 (reply 1 0 [7]), .recv 1, .recv 1, .wake 0]

set_option maxRecDepth 20000 in
example : DistinctIds exRewritten ∧ (arun .from38 exRewritten).writes = [(0, 0), (0, 1)] ∧
    lastConn (arun .from38 exRewritten) 0 = some 1 ∧
    ((arun .from38 exRewritten).calls.map fun c => match c.pc with | .done r => syncResult r | _ => .error .other) =
      [.ok (.bytes [7])] ∧
    (arun .from38 exRewritten).conns.map (fun k => (k.cancelled, k.addr)) = [(true, exAddr), (false, exAddr)] := by
  decide +kernel

/-- the id of the package that connection `n` is about to process -/
def aboutToProcess (s : ASt) (n : Nat) : Option PyObj :=
  match s.conns[n]? with
  | some k => match k.pc with
    | .body h => match bodySize h with
      | .ok size => match boltContentFromStream .boltResponse (k.buf.take size.toNat) h with
        | .ok p => some p.requestId
        | .error _ => none
      | .error _ => none
    | _ => none
  | none => none

/-- every package of the schedule was asked for -/
def faithful (v : PyVer) (evs : List AEv) : Bool :=
  (List.range evs.length).all fun m => match evs[m]? with
    | some (.recv n) => match aboutToProcess (arun v (evs.take m)) n with
      | some id => (arun v (evs.take m)).writes.any fun w => w.2 == n && match (arun v (evs.take m)).calls[w.1]? with
        | some d => d.req.requestId == id
        | none => false
      | none => true
    | _ => true

theorem faithful_peers {v : PyVer} {evs : List AEv} (h : faithful v evs = true) : FaithfulPeers v evs := by
  rintro pre post n p rfl hp
  have ha : aboutToProcess (arun v pre) n = some p.requestId := by
    obtain ⟨k, hd, size, h1, h2, -, -, h3, -, h4⟩ := hp
    unfold aboutToProcess
    simp only [h1, h2, h3, h4]
  have := List.all_eq_true.1 h pre.length (List.mem_range.2 (by simp))
  have e1 : (pre ++ AEv.recv n :: post)[pre.length]? = some (.recv n) := by simp
  have e2 : (pre ++ AEv.recv n :: post).take pre.length = pre := by simp
  simp only [e1, e2, ha] at this
  obtain ⟨⟨j, m⟩, hw, hm⟩ := List.any_eq_true.1 this
  rw [Bool.and_eq_true] at hm
  obtain ⟨hm1, hm2⟩ := hm
  cases eq_of_beq hm1
  cases hj : (arun v pre).calls[j]? with
  | none => rw [hj] at hm2; cases hm2
  | some d =>
    rw [hj] at hm2
    exact ⟨j, d, hw, hj, eq_of_beq hm2⟩

set_option maxRecDepth 20000 in
example : FaithfulPeers .from38 exRewritten := faithful_peers (by decide +kernel)

set_option maxRecDepth 20000 in
example : faithful .from38 (exHijack ++ [.recv 1]) = false := by decide +kernel

set_option maxRecDepth 20000 in
example : DistinctIds exHijack ∧
    ((arun .from38 (exHijack ++ [.recv 1, .wake 0])).calls.map fun c => match c.pc with | .done r => syncResult r | _ => .error .other) =
      [.ok (.bytes [66]), .error .other] ∧
    (arun .from38 exHijack).writes = [(0, 0), (1, 1)] := by
  decide +kernel

end Bolt
