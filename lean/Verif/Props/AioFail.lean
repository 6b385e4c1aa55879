import Verif.Props.AioShare
import Verif.Props.Wire
/-! C62-C65: what goes wrong in the asyncio client, and what does not. -/
namespace Bolt
open Spec

/-! ## A connection whose reading task is cancelled or has ended -/

/-- nothing is read from the connection any more -/
def AConn.deaf (k : AConn) : Prop := k.cancelled = true ∨ k.pc = .ended

theorem set_deaf {l : List AConn} {n m : Nat} {k k' : AConn} (hk : l[n]? = some k) (h : k.deaf → k'.deaf)
    {x : AConn} (hx : l[m]? = some x) (hd : x.deaf) : ∃ y, (l.set n k')[m]? = some y ∧ y.deaf := by
  by_cases e : n = m
  · subst e
    rw [hk] at hx
    cases hx
    exact ⟨k', by rw [List.getElem?_set, if_pos rfl, if_pos (List.getElem?_eq_some_iff.1 hk).1], h hd⟩
  · exact ⟨x, by rw [List.getElem?_set, if_neg e]; exact hx, hd⟩

theorem modify_deaf {l : List AConn} {n m : Nat} {f : AConn → AConn} (h : ∀ k, k.deaf → (f k).deaf)
    {x : AConn} (hx : l[m]? = some x) (hd : x.deaf) : ∃ y, (l.modify n f)[m]? = some y ∧ y.deaf := by
  by_cases e : n = m
  · subst e
    exact ⟨_, modify_self hx, h x hd⟩
  · exact ⟨x, by rw [modify_other e]; exact hx, hd⟩

theorem recv_deaf (s : ASt) (n : Nat) {m : Nat} {x : AConn} (hx : s.conns[m]? = some x) (hd : x.deaf) :
    ∃ y, (s.recv n).conns[m]? = some y ∧ y.deaf := by
  unfold ASt.recv
  split
  · exact ⟨x, hx, hd⟩
  · next k hk =>
    split
    · exact ⟨x, hx, hd⟩
    · next hp =>
      split
      · exact set_deaf hk (fun _ => .inr rfl) hx hd
      · refine set_deaf hk ?_ hx hd
        rintro (h | h)
        · exact .inl h
        · rw [hp] at h; cases h
    · next hp =>
      have keep : ∀ k' : AConn, k'.cancelled = k.cancelled → k.deaf → k'.deaf := by
        rintro k' e (h | h)
        · exact .inl (e.trans h)
        · rw [hp] at h; cases h
      split
      · exact set_deaf hk (fun _ => .inr rfl) hx hd
      · dsimp only
        split
        · split
          · exact set_deaf hk (keep _ rfl) hx hd
          · exact set_deaf hk (keep _ rfl) hx hd
        · split
          · exact set_deaf hk (fun _ => .inr rfl) hx hd
          · exact ⟨x, hx, hd⟩
    · next h hp =>
      have keep : ∀ k' : AConn, k'.cancelled = k.cancelled → k.deaf → k'.deaf := by
        rintro k' e (h | h)
        · exact .inl (e.trans h)
        · rw [hp] at h; cases h
      split
      · exact set_deaf hk (fun _ => .inr rfl) hx hd
      · split
        · exact set_deaf hk (fun _ => .inr rfl) hx hd
        · split
          · dsimp only
            split
            · exact set_deaf hk (keep _ rfl) hx hd
            · rw [onPkg_conns]
              exact set_deaf hk (keep _ rfl) hx hd
          · split
            · exact set_deaf hk (fun _ => .inr rfl) hx hd
            · exact ⟨x, hx, hd⟩

theorem astep_deaf (v : PyVer) (s : ASt) (e : AEv) {m : Nat} {x : AConn} (hx : s.conns[m]? = some x) (hd : x.deaf) :
    ∃ y, (astep v s e).conns[m]? = some y ∧ y.deaf := by
  have brk : ∀ i c r a n, ∃ y, (s.broken i c r a n).conns[m]? = some y ∧ y.deaf := by
    intro i c r a n
    rw [broken_conns]
    exact modify_deaf (fun _ _ => .inl rfl) hx hd
  cases e with
  | call req => exact ⟨x, hx, hd⟩
  | start i addr =>
    simp only [astep, ASt.start]
    split
    · split
      · rw [send_conns]; exact ⟨x, hx, hd⟩
      · exact ⟨x, hx, hd⟩
    · exact ⟨x, hx, hd⟩
  | lock i =>
    simp only [astep, ASt.lockTurn]
    split
    · split
      · split
        · split <;> exact ⟨x, hx, hd⟩
        · exact ⟨x, hx, hd⟩
      · exact ⟨x, hx, hd⟩
    · exact ⟨x, hx, hd⟩
  | dialed i ok =>
    simp only [astep, ASt.dialed]
    split
    · split
      · next r a l hp =>
        split
        · have : (s.conns ++ [({ addr := a } : AConn)])[m]? = some x := by
            rw [List.getElem?_append_left (List.getElem?_eq_some_iff.1 hx).1]
            exact hx
          split <;> exact ⟨x, this, hd⟩
        · rw [sendFailed_conns]; exact ⟨x, hx, hd⟩
      · exact ⟨x, hx, hd⟩
    · exact ⟨x, hx, hd⟩
  | drained i ok =>
    simp only [astep, ASt.drained]
    split
    · split
      · split
        · split
          · exact brk ..
          · refine modify_deaf (l := s.conns) ?_ hx hd
            exact fun k hk => hk
        · exact brk ..
      · split
        · split
          · exact ⟨x, hx, hd⟩
          · split <;> exact ⟨x, hx, hd⟩
        · exact brk ..
      · exact ⟨x, hx, hd⟩
    · exact ⟨x, hx, hd⟩
  | wake i =>
    simp only [astep, ASt.wake]
    split
    · split
      · split
        · split <;> exact ⟨x, hx, hd⟩
        · exact ⟨x, hx, hd⟩
      · exact ⟨x, hx, hd⟩
    · exact ⟨x, hx, hd⟩
  | cancel i =>
    simp only [astep, ASt.cancel]
    split
    · split
      · exact ⟨x, hx, hd⟩
      · split
        · rw [sendFailed_conns]; exact ⟨x, hx, hd⟩
        · exact ⟨x, hx, hd⟩
      · split
        · rw [sendFailed_conns]; exact ⟨x, hx, hd⟩
        · exact ⟨x, hx, hd⟩
      · split
        · exact brk ..
        · exact ⟨x, hx, hd⟩
      · split
        · exact brk ..
        · exact ⟨x, hx, hd⟩
      · exact ⟨x, hx, hd⟩
      · exact ⟨x, hx, hd⟩
    · exact ⟨x, hx, hd⟩
  | recv n => exact recv_deaf s n hx hd
  | data n bs =>
    refine modify_deaf (l := s.conns) ?_ hx hd
    intro k hk
    split
    · exact hk
    · exact hk
  | eof n => exact modify_deaf (l := s.conns) (fun _ h => h) hx hd
  | reset n => exact modify_deaf (l := s.conns) (fun _ h => h) hx hd

theorem arun_deaf (v : PyVer) (evs more : List AEv) {m : Nat} {x : AConn} (hx : (arun v evs).conns[m]? = some x)
    (hd : x.deaf) : ∃ y, (arun v (evs ++ more)).conns[m]? = some y ∧ y.deaf := by
  induction more using snoc_induct with
  | nil => rw [List.append_nil]; exact ⟨x, hx, hd⟩
  | snoc more e ih =>
    obtain ⟨y, h1, h2⟩ := ih
    rw [← List.append_assoc, arun_snoc]
    exact astep_deaf v _ e h1 h2

theorem deaf_silent {s : ASt} {m : Nat} {x : AConn} (hx : s.conns[m]? = some x) (hd : x.deaf) (p : Pkg) :
    ¬ Processes s m p := by
  rintro ⟨k, h, size, h1, h2, h3, -⟩
  rw [hx] at h1
  cases h1
  rcases hd with hd | hd
  · rw [hd] at h3; cases h3
  · rw [hd] at h2; cases h2

/-- calls are made by `.call` only -/
theorem astep_new (v : PyVer) (s : ASt) (e : AEv) (hal : ∀ k ∈ s.conns, k.Aligned) {i : Nat} {c : ACall}
    (h0 : s.calls[i]? = none) (hc : (astep v s e).calls[i]? = some c) : ∃ req, e = .call req ∧ c = { req := req } := by
  by_cases hcall : ∃ r, e = .call r
  · obtain ⟨r, rfl⟩ := hcall
    have hc : (s.calls ++ [({ req := r } : ACall)])[i]? = some c := hc
    rw [List.getElem?_append_right (List.getElem?_eq_none_iff.1 h0)] at hc
    exact ⟨r, rfl, List.mem_singleton.1 (List.mem_of_getElem? hc)⟩
  · exfalso
    have hb : ∀ a b : Bk, BSteps (fun r => e = .call r) (Receives s e) a b → b.calls.length = a.calls.length := by
      intro a b hs
      induction hs with
      | refl => rfl
      | snoc _ h2 ih =>
        rw [← ih]
        cases h2 with
        | call req hm => exact absurd ⟨req, hm⟩ hcall
        | _ => simp [Bk.setPc]
    have hl : (astep v s e).calls.length = s.calls.length := hb _ _ (astep_bk v s e hal)
    have h1 := (List.getElem?_eq_some_iff.1 hc).1
    rw [List.getElem?_eq_none_iff] at h0
    omega

/-! ## C62 -/

/-- C62 as listed: when a call finds that its request cannot be encoded, the reading tasks and the mapping of the
connections stay as they are. -/
def C62_full : Prop :=
  ∀ (v : PyVer) (evs : List AEv) (i : Nat) (c : ACall) (r : Nat) (a : Addr) (n : Nat) (e : PyExc),
    (arun v evs).calls[i]? = some c → c.pc = .drain1 r a n → c.req.toStream = .error e →
    (arun v (evs ++ [.drained i true])).conns.map AConn.cancelled = (arun v evs).conns.map AConn.cancelled ∧
    (arun v (evs ++ [.drained i true])).connMap = (arun v evs).connMap

/-- a request whose content is a `str` -/
def exBadReq (id : Int) : Pkg := { exAReq id with content := .str (py "x") }

/-- one call waits; another one has got as far as the write, on the same connection -/
def exShared : List AEv := exToWait (exAReq 1) ++ [.call (exBadReq 2), .start 1 exAddr]

/-- What happens instead, always: the reading task of the connection is cancelled and nothing is read from it any more, so
that no response can reach the calls waiting for theirs. -/
theorem C62_always (v : PyVer) (evs post : List AEv) (i : Nat) (c : ACall) (r : Nat) (a : Addr) (n : Nat) (e : PyExc)
    (k : AConn) (hk : (arun v evs).conns[n]? = some k)
    (hc : (arun v evs).calls[i]? = some c) (hp : c.pc = .drain1 r a n) (he : c.req.toStream = .error e) :
    (∃ k', (arun v (evs ++ [.drained i true])).conns[n]? = some k' ∧ k'.cancelled = true) ∧
    ∀ p, ¬ Processes (arun v (evs ++ .drained i true :: post)) n p := by
  have h1 : (arun v (evs ++ [.drained i true])).conns[n]? = some { k with cancelled := true } := by
    rw [arun_snoc]
    have : astep v (arun v evs) (.drained i true) = (arun v evs).broken i c r a n := by
      simp only [astep, ASt.drained, hc, hp, he, if_true]
    rw [this, broken_conns]
    exact modify_self hk
  refine ⟨⟨_, h1, rfl⟩, ?_⟩
  intro p
  have hl : evs ++ .drained i true :: post = (evs ++ [.drained i true]) ++ post := by simp
  rw [hl]
  obtain ⟨y, y1, y2⟩ := arun_deaf v (evs ++ [.drained i true]) post h1 (.inl rfl)
  exact deaf_silent y1 y2 p

set_option maxRecDepth 20000 in
theorem C62_violated : ¬ C62_full := by
  intro h
  have := h .from38 exShared 1 _ 3 exAddr 0 .paramTypeError rfl rfl (by decide +kernel)
  revert this
  decide +kernel

/-- not past the first write -/
def CallPc.before : CallPc → Bool
  | .drain2 .. | .waiting _ | .done (.resp _) => false
  | _ => true

theorem setPc_get {s : ASt} {i : Nat} {c : ACall} (hc : s.calls[i]? = some c) (pc : CallPc) :
    ∃ c', (s.setPc i pc).calls[i]? = some c' ∧ c'.pc = pc := ⟨_, modify_self hc, rfl⟩

theorem sendFailed_before {s : ASt} {i : Nat} {c d : ACall} (hc : s.calls[i]? = some d) :
    ∃ c', (s.sendFailed i c).calls[i]? = some c' ∧ c'.pc.before = true := by
  unfold ASt.sendFailed
  split
  · exact ⟨_, modify_self (l := s.calls) hc, rfl⟩
  · exact ⟨_, modify_self hc, rfl⟩

theorem send_before {s : ASt} {i : Nat} {c d : ACall} (hc : s.calls[i]? = some d) (r : Nat) (a : Addr) :
    ∃ c', (s.send i c r a).calls[i]? = some c' ∧ c'.pc.before = true := by
  unfold ASt.send
  split
  · exact sendFailed_before hc
  · split
    · exact ⟨_, modify_self hc, rfl⟩
    · split
      · split
        · exact ⟨_, modify_self (l := s.calls) hc, rfl⟩
        · exact ⟨_, modify_self hc, rfl⟩
      · exact ⟨_, modify_self (l := s.calls) hc, rfl⟩

theorem broken_before {s : ASt} {i : Nat} {c d : ACall} (hc : s.calls[i]? = some d) (r : Nat) (a : Addr) (n : Nat) :
    ∃ c', (s.broken i c r a n).calls[i]? = some c' ∧ c'.pc.before = true := by
  unfold ASt.broken
  dsimp only
  split
  · split
    · exact send_before (s := { s with
        conns := s.conns.modify n fun k => { k with cancelled := true }
        connMap := PyDict.erase s.connMap a, dialMap := PyDict.erase s.dialMap a }) hc _ _
    · exact sendFailed_before (s := { s with
        conns := s.conns.modify n fun k => { k with cancelled := true }
        connMap := PyDict.erase s.connMap a }) hc
  · exact sendFailed_before (s := { s with conns := s.conns.modify n fun k => { k with cancelled := true } }) hc

/-- a call that cannot be encoded does not get past the write -/
theorem actor_before (v : PyVer) (s : ASt) (e : AEv) {i : Nat} {c : ACall} (hc : s.calls[i]? = some c)
    {er : PyExc} (he : c.req.toStream = .error er) (hb : c.pc.before = true) (ha : e.actor = some i) :
    ∃ c', (astep v s e).calls[i]? = some c' ∧ c'.pc.before = true := by
  cases e with
  | call req => cases ha
  | start j a =>
    cases ha
    simp only [astep, ASt.start, hc]
    split
    · exact send_before (s := { s with reqs := PyDict.set s.reqs c.req.requestId i }) hc _ _
    · exact ⟨c, hc, hb⟩
  | lock j =>
    cases ha
    simp only [astep, ASt.lockTurn, hc]
    split
    · split
      · split
        · exact ⟨_, modify_self hc, rfl⟩
        · exact ⟨_, modify_self (l := s.calls) hc, rfl⟩
      · exact ⟨c, hc, hb⟩
    · exact ⟨c, hc, hb⟩
  | dialed j ok =>
    cases ha
    simp only [astep, ASt.dialed, hc]
    split
    · next r a l hp =>
      split
      · split
        · exact ⟨_, modify_self (l := s.calls) hc, rfl⟩
        · exact ⟨_, modify_self (l := s.calls) hc, rfl⟩
      · exact sendFailed_before (s := s.setLock l false) hc
    · exact ⟨c, hc, hb⟩
  | drained j ok =>
    cases ha
    simp only [astep, ASt.drained, hc]
    split
    · split
      · rw [he]
        exact broken_before hc _ _ _
      · exact broken_before hc _ _ _
    · next hp => rw [hp] at hb; cases hb
    · exact ⟨c, hc, hb⟩
  | wake j =>
    cases ha
    simp only [astep, ASt.wake, hc]
    split
    · next hp => rw [hp] at hb; cases hb
    · exact ⟨c, hc, hb⟩
  | cancel j =>
    cases ha
    simp only [astep, ASt.cancel, hc]
    split
    · exact ⟨_, modify_self hc, rfl⟩
    · split
      · exact sendFailed_before hc
      · exact ⟨_, modify_self hc, rfl⟩
    · next l hp =>
      split
      · exact sendFailed_before (s := s.setLock l false) hc
      · exact ⟨_, modify_self (l := s.calls) hc, rfl⟩
    · split
      · exact broken_before hc _ _ _
      · exact ⟨_, modify_self hc, rfl⟩
    · next hp => rw [hp] at hb; cases hb
    · next hp => rw [hp] at hb; cases hb
    · exact ⟨c, hc, hb⟩
  | recv n => cases ha
  | data n bs => cases ha
  | eof n => cases ha
  | reset n => cases ha

theorem arun_before (v : PyVer) (evs : List AEv) (i : Nat) (c : ACall) (hc : (arun v evs).calls[i]? = some c) (e : PyExc)
    (he : c.req.toStream = .error e) : c.pc.before = true := by
  induction evs using snoc_induct generalizing c with
  | nil => simp [arun] at hc
  | snoc evs ev ih =>
    cases hc0 : (arun v evs).calls[i]? with
    | some c0 =>
      obtain ⟨c1, h1, h2, -⟩ := call_persist v evs [ev] hc0
      rw [hc] at h1
      cases h1
      have hb := ih c0 hc0 (by rw [← h2]; exact he)
      rw [arun_snoc] at hc
      by_cases ha : ev.actor = some i
      · obtain ⟨c', k1, k2⟩ := actor_before v _ ev hc0 (by rw [← h2]; exact he) hb ha
        rw [hc] at k1
        cases k1
        exact k2
      · obtain ⟨c', k1, k2, -⟩ := astep_keeps v _ ev i ha c0 hc0
        rw [hc] at k1
        cases k1
        rw [k2]
        exact hb
    | none =>
      rw [arun_snoc] at hc
      obtain ⟨req, -, rfl⟩ := astep_new v _ ev (arun_aligned v evs) hc0 hc
      rfl

/-- C62, what holds: a call whose request cannot be encoded puts nothing on any connection and never gets a response; and
whatever it does to the connections, the response with which another call ends is one with that call's id, read while it
was pending. Missing: other calls waiting on the connection may never end (`C62_always`). -/
theorem C62_alone_partial (v : PyVer) (evs : List AEv) (hd : DistinctIds evs) (i : Nat) (c : ACall) (e : PyExc)
    (hc : (arun v evs).calls[i]? = some c) (he : c.req.toStream = .error e) :
    (∀ k ∈ (arun v evs).conns, ∀ bs, (i, bs) ∉ k.sent) ∧ (∀ ev, c.pc ≠ .waiting ev) ∧ (∀ p, c.pc ≠ .done (.resp p)) ∧
    ∀ (j : Nat) (d : ACall) (p : Pkg), (arun v evs).calls[j]? = some d → d.pc = .done (.resp p) →
      p.requestId = d.req.requestId ∧ p.cmdcode = .response ∧ p.respstatus = .success ∧
      ∃ (pre post : List AEv) (n : Nat) (d' : ACall), evs = pre ++ .recv n :: post ∧ (arun v pre).calls[j]? = some d' ∧
        d'.pc ≠ .new := by
  have hb := arun_before v evs i c hc e he
  refine ⟨?_, ?_, ?_, ?_⟩
  · intro k hk bs hbs
    obtain ⟨c', h1, h2⟩ := (C60_on_the_wire v evs i).2 k hk bs hbs
    rw [hc] at h1
    cases h1
    rw [he] at h2
    cases h2
  · intro ev h
    rw [h] at hb
    cases hb
  · intro p h
    rw [h] at hb
    cases hb
  · intro j d p hj hp
    obtain ⟨⟨pre, post, n, k, d', e1, -, -, hg, hd', -, hn, -⟩, hid, -⟩ := ((arun_inv v evs hd).calls j d hj).delivered p hp
    exact ⟨hid, hg.1, hg.2, pre, post, n, d', e1, hd', hn⟩

set_option maxRecDepth 20000 in
/-- the call that waits gets nothing, though its response arrives; the other one fails -/
example : let evs := exShared ++ [.drained 1 true, .data 0 (reply 1 0 [7]), .recv 0, .dialed 1 true, .drained 1 true, .dialed 1 true, .drained 1 true, .recv 0, .wake 0]
    DistinctIds evs ∧ (arun .from38 evs).calls.map ACall.pc = [.waiting 0, .done .none] ∧
    (arun .from38 evs).conns.map (fun k => k.cancelled) = [true, true, true] := by
  decide +kernel

/-! ## C63 -/

/-- the connection to which the request was written last -/
def lastConn (s : ASt) (i : Nat) : Option Nat := ((s.writes.filter fun w => w.1 == i).getLast?).map Prod.snd

/-- C63 as listed: when the reading task of a connection has ended, a call waiting for a response on it is woken up. -/
def C63_full : Prop :=
  ∀ (v : PyVer) (evs : List AEv) (n : Nat) (k : AConn) (i : Nat) (c : ACall) (ev : Nat), DistinctIds evs →
    (arun v evs).conns[n]? = some k → k.pc = .ended → (arun v evs).calls[i]? = some c → c.pc = .waiting ev →
    lastConn (arun v evs) i = some n → c.set = true

set_option maxRecDepth 20000 in
theorem C63_violated : ¬ C63_full := by
  intro h
  have := h .from38 (exToWait (exAReq 1) ++ [.eof 0, .recv 0]) 0 _ 0 _ 0 (by decide +kernel) rfl (by decide +kernel) rfl
    (by decide +kernel) (by decide +kernel)
  revert this
  decide +kernel

/-- one run of the reading task does nothing outside its connection, unless a package is processed -/
theorem recv_quiet (s : ASt) (n : Nat) : (∃ cs, s.recv n = { s with conns := cs }) ∨ ∃ p, Processes s n p := by
  unfold ASt.recv
  split
  · exact .inl ⟨s.conns, rfl⟩
  · next k hk =>
    split
    · exact .inl ⟨s.conns, rfl⟩
    · split <;> exact .inl ⟨_, rfl⟩
    · split
      · exact .inl ⟨_, rfl⟩
      · dsimp only
        split
        · split <;> exact .inl ⟨_, rfl⟩
        · split
          · exact .inl ⟨_, rfl⟩
          · exact .inl ⟨s.conns, rfl⟩
    · next h hp =>
      split
      · exact .inl ⟨_, rfl⟩
      · next hcl =>
        have hcl : k.cancelled = false ∧ k.lost = false := by simpa using hcl
        split
        · exact .inl ⟨_, rfl⟩
        · next size hsz =>
          split
          · next hle =>
            dsimp only
            split
            · exact .inl ⟨_, rfl⟩
            · next p hd => exact .inr ⟨p, k, h, size, hk, hp, hcl.1, hcl.2, hsz, hle, hd⟩
          · split
            · exact .inl ⟨_, rfl⟩
            · exact .inl ⟨s.conns, rfl⟩

/-- What happens instead, always: a call that waits goes on waiting until a frame with its id is processed or it is
cancelled, whatever becomes of its connection. -/
theorem C63_waits (v : PyVer) (pre post : List AEv) (hd : DistinctIds (pre ++ post)) (i ev : Nat) (c : ACall)
    (hc : (arun v pre).calls[i]? = some c) (hw : c.pc = .waiting ev) (hset : c.set = false) (hcan : .cancel i ∉ post)
    (hno : ∀ q m rest, post = q ++ .recv m :: rest → ∀ p, Processes (arun v (pre ++ q)) m p →
      p.requestId ≠ c.req.requestId) :
    ∃ c', (arun v (pre ++ post)).calls[i]? = some c' ∧ c'.pc = .waiting ev ∧ c'.set = false ∧ c'.req = c.req := by
  induction post using snoc_induct with
  | nil => rw [List.append_nil]; exact ⟨c, hc, hw, hset, rfl⟩
  | snoc post e ih =>
    rw [← List.append_assoc] at hd ⊢
    obtain ⟨d, d1, d2, d3, d4⟩ := ih hd.prefix (fun h => hcan (List.mem_append_left _ h)) (by
      intro q m rest hq
      exact hno q m (rest ++ [e]) (by rw [hq]; simp))
    have hi := arun_inv v _ hd.prefix
    have hev : ev = i := (hi.calls i d d1).own ev d2
    have hcan : e ≠ .cancel i := fun h => hcan (by rw [h]; exact List.mem_append_right _ (List.mem_singleton.2 rfl))
    rw [arun_snoc]
    -- waking up needs the event
    by_cases hwk : e = .wake i
    · have : astep v (arun v (pre ++ post)) e = arun v (pre ++ post) := by
        rw [hwk]
        simp only [astep, ASt.wake, d1, d2]
        rw [if_neg]
        rw [hev, d1]
        simp [d3]
      rw [this]
      exact ⟨d, d1, d2, d3, d4⟩
    · obtain ⟨f, f1, f2, f3, -⟩ := astep_waiting v _ e d1 d2 hwk hcan
      refine ⟨f, f1, f2, ?_, f3.trans d4⟩
      -- the event is set by frames with the id only
      have key : ∀ e', e = e' → f.set = false := by
        intro e' he
        by_cases hr : ∃ m, e = .recv m
        · obtain ⟨m, rfl⟩ := hr
          have f1 : ((arun v (pre ++ post)).recv m).calls[i]? = some f := f1
          rcases recv_quiet (arun v (pre ++ post)) m with ⟨cs, h⟩ | ⟨p, hp⟩
          · rw [h] at f1
            rw [d1] at f1
            cases f1
            exact d3
          · have hne := hno post m [] rfl p hp
            cases hg : PyDict.get? (arun v (pre ++ post)).reqs p.requestId with
            | none =>
              obtain ⟨k', h⟩ := recv_stray hp hg
              rw [h] at f1
              rw [d1] at f1
              cases f1
              exact d3
            | some j =>
              obtain ⟨k', h⟩ := recv_pending hp hg
              rw [h] at f1
              obtain ⟨g, g1, g2, -⟩ := hi.reqs _ _ hg
              have hj : j ≠ i := by
                rintro rfl
                rw [show (arun v (pre ++ post)).bk.calls = (arun v (pre ++ post)).calls from rfl, d1] at g1
                cases g1
                exact hne (by rw [← g2, d4])
              have f1 : ((arun v (pre ++ post)).calls.modify j fun c => { c with set := true })[i]? = some f := f1
              rw [modify_other hj, d1] at f1
              cases f1
              exact d3
        · have all : ∀ b, BSteps (fun r => e = .call r) (Receives (arun v (pre ++ post)) e) (arun v (pre ++ post)).bk b →
              ∃ g, b.calls[i]? = some g ∧ g.set = false := by
            intro b hs
            induction hs with
            | refl => exact ⟨d, d1, d3⟩
            | snoc _ h2 ih =>
              obtain ⟨g, g1, g2⟩ := ih
              have md : ∀ (l : List ACall) (j : Nat) (pc : CallPc), l[i]? = some g →
                  ∃ g', (l.modify j fun c => { c with pc := pc })[i]? = some g' ∧ g'.set = false := by
                intro l j pc hl
                by_cases e : j = i
                · subst e
                  exact ⟨_, modify_self hl, g2⟩
                · exact ⟨g, by rw [modify_other e]; exact hl, g2⟩
              cases h2 with
              | call req hm =>
                refine ⟨g, ?_, g2⟩
                dsimp only
                rw [List.getElem?_append_left (List.getElem?_eq_some_iff.1 g1).1]
                exact g1
              | notify p j hp hr' =>
                obtain ⟨-, n, k, hn, -⟩ := hp
                exact absurd ⟨n, hn⟩ hr
              | _ => exact md _ _ _ g1
          obtain ⟨g, g1, g2⟩ := all _ (astep_bk v _ e (arun_aligned v _))
          rw [show (astep v (arun v (pre ++ post)) e).bk.calls = (astep v (arun v (pre ++ post)) e).calls from rfl, f1] at g1
          cases g1
          exact g2
      exact key e rfl

/-- C63, what holds: when the reading task finds its connection lost, or at its end, it closes the connection and ends,
and nothing is read from it any more; a call that waits can still be ended by cancelling it, with an exception for the
caller. (A call whose response has been read before that still returns it, `C59_waiting_partial`.) Missing: nobody wakes
the calls that wait (`C63_waits`). -/
theorem C63_closed_partial (v : PyVer) (pre post : List AEv) (n : Nat) (k : AConn)
    (hk : (arun v pre).conns[n]? = some k) (hp : k.pc = .hdr ∨ ∃ h, k.pc = .body h)
    (hl : k.lost = true ∨ (k.eof = true ∧ k.buf = [] ∧ k.pc = .hdr)) :
    (∃ k', (arun v (pre ++ [.recv n])).conns[n]? = some k' ∧ k'.closed = true ∧ k'.pc = .ended) ∧
    (∀ p, ¬ Processes (arun v (pre ++ .recv n :: post)) n p) ∧
    ∀ (i : Nat) (c : ACall) (ev : Nat), (arun v pre).calls[i]? = some c → c.pc = .waiting ev →
      ∃ c', (arun v (pre ++ [.cancel i])).calls[i]? = some c' ∧ c'.pc = .done (.raised .cancelledError) := by
  have h1 : (arun v (pre ++ [.recv n])).conns[n]? = some { k with pc := .ended, closed := true } := by
    rw [arun_snoc]
    have : astep v (arun v pre) (.recv n) = (arun v pre).setConn n { k with pc := .ended, closed := true } := by
      show (arun v pre).recv n = _
      unfold ASt.recv
      rw [hk]
      dsimp only
      rcases hl with hl | ⟨hl, hb, hp'⟩
      · rcases hp with hp | ⟨h, hp⟩
        · rw [hp]
          simp only [hl, Bool.or_true, if_true]
        · rw [hp]
          simp only [hl, Bool.or_true, if_true]
      · rw [hp']
        simp only [hb, hl, if_true]
        split
        · rfl
        · rw [if_neg (by rw [headerSize_resp]; decide)]
    rw [this]
    show ((arun v pre).conns.set n _)[n]? = _
    rw [List.getElem?_set, if_pos rfl, if_pos (List.getElem?_eq_some_iff.1 hk).1]
  refine ⟨⟨_, h1, rfl, rfl⟩, ?_, ?_⟩
  · intro p
    have hl : pre ++ .recv n :: post = (pre ++ [.recv n]) ++ post := by simp
    rw [hl]
    obtain ⟨y, y1, y2⟩ := arun_deaf v (pre ++ [.recv n]) post h1 (.inr rfl)
    exact deaf_silent y1 y2 p
  · intro i c ev hc hw
    rw [arun_snoc]
    have : astep v (arun v pre) (.cancel i) = (arun v pre).setPc i (.done (.raised .cancelledError)) := by
      simp only [astep, ASt.cancel, hc, hw]
    rw [this]
    exact ⟨_, modify_self hc, rfl⟩

set_option maxRecDepth 20000 in
example : let s := arun .from38 (exToWait (exAReq 1) ++ [.eof 0])
    s.conns.map (fun k => (k.eof, k.buf, k.pc)) = [(true, [], .hdr)] ∧ s.calls.map (fun c => (c.pc, c.set)) = [(.waiting 0, false)] := by
  decide +kernel

/-! ## C64 -/

/-- C64 as listed: the heartbeat answered with a matching acknowledgement, a frame with the command code of a heartbeat and
status SUCCESS, is a success, and the timer goes on. -/
def C64_full : Prop :=
  ∀ (v : PyVer) (pre post : List AEv) (n : Nat) (p : Pkg) (i ev : Nat) (c c' : ACall) (r : CallRes),
    DistinctIds (pre ++ .recv n :: post) → Processes (arun v pre) n p → p.cmdcode = .heartbeat → p.respstatus = .success →
    (arun v pre).calls[i]? = some c → c.req.requestId = p.requestId → c.pc = .waiting ev → c.set = false →
    .cancel i ∉ post → (arun v (pre ++ .recv n :: post)).calls[i]? = some c' → c'.pc = .done r →
    heartbeatResult c.req r = .ok true

/-- What happens instead, always: the caller gets an exception, and the timer ends. -/
theorem C64_never (v : PyVer) (pre post : List AEv) (n : Nat) (p : Pkg) (i : Nat) (c c' : ACall) (r : CallRes)
    (hd : DistinctIds (pre ++ .recv n :: post)) (hp : Processes (arun v pre) n p) (hcmd : p.cmdcode = .heartbeat)
    (hc : (arun v pre).calls[i]? = some c) (hid : c.req.requestId = p.requestId) (hnew : c.pc ≠ .new)
    (hnd : c.pc.isDone = false) (hset : c.set = false) (hc' : (arun v (pre ++ .recv n :: post)).calls[i]? = some c')
    (hr : c'.pc = .done r) :
    ∃ e, heartbeatResult c.req r = .error e ∧ ∀ rounds, timerRounds (heartbeatResult c.req r :: rounds) = 1 := by
  obtain ⟨e, rfl, -, -⟩ := C56_error_status v pre post n hd p hp (.inr (by rw [hcmd]; intro h; cases h)) i c hc hid hnew hnd
    hset c' r hc' hr
  exact ⟨e, rfl, fun _ => rfl⟩

/-- a heartbeat -/
def exHb : Pkg :=
  { cls := .heartbeatRequest, header := [], headerBytes := [], content := .bytes [], proto := .bolt, ptype := .request,
    cmdcode := .heartbeat, ver2 := .remoting, requestId := .int 5, codec := .protobuf, timeout := .int 0,
    respstatus := .success }

set_option maxRecDepth 20000 in
example : heartbeatRequest 5 = .ok exHb := by decide +kernel

/-- it has been answered, and the reading task is about to process the answer -/
def exHbAnswered : List AEv := exToWait exHb ++ [.data 0 (heartbeatAck 5), .recv 0]

set_option maxRecDepth 20000 in
theorem C64_violated : ¬ C64_full := by
  intro h
  have := h .from38 exHbAnswered [.wake 0] 0 _ 0 0 _ _ _ (by decide +kernel)
    ⟨_, _, _, rfl, rfl, rfl, rfl, rfl, by decide +kernel, rfl⟩ rfl rfl rfl rfl
    rfl rfl (by decide +kernel) rfl rfl
  revert this
  decide +kernel

/-- C64, what holds: answered with an ordinary response with status SUCCESS, the heartbeat is a success as soon as it has
been scheduled, and the timer goes on. Missing: the acknowledgement that the protocol prescribes, and that both listeners
send, makes it fail (`C64_never`). -/
theorem C64_ordinary_partial (v : PyVer) (pre post : List AEv) (n : Nat) (hd : DistinctIds (pre ++ .recv n :: post))
    (p : Pkg) (hp : Processes (arun v pre) n p) (hgood : p.cmdcode = .response ∧ p.respstatus = .success) (i ev : Nat)
    (c : ACall) (hc : (arun v pre).calls[i]? = some c) (hid : c.req.requestId = p.requestId) (hw : c.pc = .waiting ev)
    (hset : c.set = false) (hcan : .cancel i ∉ post) (hwk : .wake i ∈ post) :
    ∃ c' r, (arun v (pre ++ .recv n :: post)).calls[i]? = some c' ∧ c'.pc = .done r ∧
      heartbeatResult c.req r = .ok true ∧ ∀ rounds, timerRounds (heartbeatResult c.req r :: rounds) = timerRounds rounds + 1 := by
  obtain ⟨c', h1, -, h3⟩ := C59_waiting_partial v pre post n hd p hp hgood i ev c hc hid hw hset hcan
  have hr : heartbeatResult c.req (.resp p) = .ok true := by
    show (if p.requestId ≠ c.req.requestId then _ else if p.respstatus ≠ .success then _ else _) = _
    rw [if_neg (by rw [hid]; exact fun h => h rfl), if_neg (by rw [hgood.2]; exact fun h => h rfl)]
  exact ⟨c', .resp p, h1, h3 hwk, hr, fun _ => by rw [hr]; rfl⟩

set_option maxRecDepth 20000 in
example : ((arun .from38 (exToWait exHb ++ [.data 0 (reply 5 0 []), .recv 0, .recv 0, .wake 0])).calls.map fun c =>
    match c.pc with | .done r => heartbeatResult c.req r | _ => .error .other) = [.ok true] := by
  decide +kernel

/-- a heartbeat that did not raise -/
def Spec.went : Except PyExc Bool → Bool
  | .ok _ => true
  | .error _ => false

/-- The timer sends a heartbeat after each one that ended without an exception, whatever its result, and no more after the
first exception. -/
theorem C64_timer (outs : List (Except PyExc Bool)) :
    timerRounds outs = (outs.takeWhile Spec.went).length + (if outs.all Spec.went then 0 else 1) := by
  induction outs with
  | nil => rfl
  | cons r outs ih =>
    cases r with
    | ok b =>
      have e : Spec.went (.ok b) = true := rfl
      simp only [timerRounds, ih, List.takeWhile_cons, e, if_true, List.length_cons, List.all_cons, Bool.true_and]
      omega
    | error e => rfl

example : timerRounds [.ok true, .ok false, .ok true] = 3 ∧ timerRounds [.ok true, .error .keyError, .ok true] = 2 := ⟨rfl, rfl⟩

/-! ## C65 -/

/-- C65 as listed, for both clients: the type byte of the frame is 2 (ONEWAY). -/
def C65_full : Prop :=
  (∀ (a : CallArgs) (p : Pkg) (bs : Bytes), aioRequest a .oneway = .ok p → p.toStream = .ok bs → bs[1]? = some 2) ∧
  (∀ (a : CallArgs) (p : Pkg) (bs : Bytes), ({ a with timeout := .none, ptype := .oneway } : CallArgs).request = .ok p →
    p.toStream = .ok bs → bs[1]? = some 2)

/-- the second byte of a frame -/
theorem toStream_ptype {p : Pkg} {bs : Bytes} (h : p.toStream = .ok bs) : bs[1]? = some (UInt8.ofNat (p.ptype.code % 256).toNat) := by
  obtain ⟨id, ct, t, -, -, -, -, -, rfl⟩ := (toStream_ok_iff p bs).1 h
  rfl

theorem newRequest_ptype {h : SofaHeader} {c : PyObj} {pt : PType} {t : PyObj} {id : Int} {p : Pkg}
    (hp : newRequest h c pt t id = .ok p) : p.ptype = pt := by
  have := ((mkPkg_ok_iff _ _ _ _ _).1 hp).2.2.2.2.2.1
  have : some pt.code = some p.ptype.code := this
  have := Option.some.inj this
  cases hx : p.ptype <;> cases pt <;> rw [hx] at this <;> first | rfl | (exfalso; revert this; decide)

/-- What the asyncio client sends instead, always: an ordinary request, type byte 1. -/
theorem C65_aio (a : CallArgs) (k : AKind) (p : Pkg) (bs : Bytes) (h : aioRequest a k = .ok p) (hs : p.toStream = .ok bs) :
    bs[1]? = some 1 := by
  rw [toStream_ptype hs]
  have : p.ptype = .request := by
    unfold aioRequest at h
    cases hctx : a.ctx with
    | none => rw [hctx] at h; cases h
    | some b =>
      rw [hctx] at h
      simp only [bind, Except.bind] at h
      split at h
      · cases h
      · exact newRequest_ptype h
  rw [this]
  rfl

set_option maxRecDepth 20000 in
theorem C65_violated : ¬ C65_full := by
  intro h
  have hx : ((aioRequest exCall .oneway).toOption.bind fun p => p.toStream.toOption).isSome = true := by decide +kernel
  cases hp : aioRequest exCall .oneway with
  | error e => rw [hp] at hx; cases hx
  | ok p =>
    cases hs : p.toStream with
    | error e => simp [hp, hs, Except.toOption] at hx
    | ok bs =>
      have h1 := h.1 exCall p bs hp hs
      rw [C65_aio exCall .oneway p bs hp hs] at h1
      cases h1

/-- C65, what holds: the frame of the synchronous client's `invoke_oneway`, whatever part of it is transmitted, has type
byte 2. Missing: the asyncio client (`C65_aio`). -/
theorem C65_sync_partial {C : Type} (a : CallArgs) (env : Nat → Attempt C) (c : C) (b : Bytes)
    (h : (c, b) ∈ (invokeOneway a env).2.wire) (hl : 2 ≤ b.length) : b[1]? = some 2 := by
  have e : (invokeOneway a env).2 = (rawInvoke { a with timeout := .none, ptype := .oneway } env).2 := by
    unfold invokeOneway
    split <;> next h => rw [h]
  rw [e] at h
  cases hp : ({ a with timeout := .none, ptype := .oneway } : CallArgs).request with
  | error er =>
    unfold rawInvoke at h
    rw [hp] at h
    cases h
  | ok p =>
    have hpt : p.ptype = .oneway := by
      unfold CallArgs.request at hp
      dsimp only at hp
      split at hp
      · cases hp
      · simp only [bind, Except.bind] at hp
        split at hp
        · cases hp
        · exact newRequest_ptype hp
    rcases (C53_at_most_once _ p hp env).2.2 with ⟨hw, -⟩ | ⟨c', b', hw, -, -, -, bs, n, hs, -, hb⟩
    · rw [hw] at h; cases h
    · rw [hw, List.mem_singleton] at h
      cases h
      have h1 := toStream_ptype hs
      rw [hpt] at h1
      rw [hb] at hl ⊢
      rw [List.length_take] at hl
      rw [List.getElem?_take, if_pos (by omega), h1]
      rfl

set_option maxRecDepth 20000 in
example : let env : Nat → Attempt Nat := fun i => ⟨.ok i, .ok 1000⟩
    ((invokeOneway exCall env).2.wire.map fun w => w.2.take 2) = [[1, 2]] := by
  decide +kernel

end Bolt
