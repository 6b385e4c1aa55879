import Verif.Lemmas.AioClient
import Verif.Lemmas.AioServer
/-!
# C104-C108: all connections of an asyncio listener, its thread pool, its shutdown
-/
namespace Bolt
open Spec

/-! ## C104 -/

/-- What a schedule of a listener means for connection `c`: how many connections have been accepted, whether the listener
still accepts, the registry when `c` is accepted, and the events that concern `c` since then (its own ones, the
registrations, the clock). -/
structure Spec.View where
  accepted : Nat := 0
  isOpen : Bool := true
  reg : Registry
  evs : List LEv := []

/-- events of one connection that are neither of the executor nor of the whole listener -/
def Spec.connEv : LEv → Bool
  | .futStart _ => false
  | .futFinish _ _ => false
  | .tick _ => false
  | .register _ => false
  | _ => true

theorem connEv_eq (e : LEv) : Spec.connEv e = e.isLocal := by cases e <;> rfl

def Spec.View.step (c : Nat) (v : View) : SrvEv → View
  | .accept => if v.isOpen then { v with accepted := v.accepted + 1 } else v
  | .conn c' e => if c' = c ∧ c < v.accepted ∧ connEv e = true then { v with evs := v.evs ++ [e] } else v
  | .tick d => if c < v.accepted then { v with evs := v.evs ++ [.tick d] } else v
  | .register r =>
    if c < v.accepted then { v with evs := v.evs ++ [.register r] } else { v with reg := registerInterface v.reg r }
  | .shutdown => { v with isOpen := false }
  | _ => v

def Spec.view (c : Nat) (reg : Registry) (evs : List SrvEv) : View := evs.foldl (View.step c) { reg := reg }

/-- not an event of the executor -/
def Spec.notExec : LEv → Bool
  | .futStart _ | .futFinish _ _ => false
  | _ => true

theorem srvRun_snoc (svc : Services) (reg : Registry) (evs : List SrvEv) (e : SrvEv) :
    srvRun svc reg (evs ++ [e]) = srvStep svc (srvRun svc reg evs) e := by
  unfold srvRun; rw [List.foldl_append]; rfl

theorem view_snoc (c : Nat) (reg : Registry) (evs : List SrvEv) (e : SrvEv) :
    view c reg (evs ++ [e]) = (view c reg evs).step c e := by
  unfold view; rw [List.foldl_append]; rfl

theorem lrun_snoc (svc : Services) (reg : Registry) (evs : List LEv) (e : LEv) :
    lrun svc reg (evs ++ [e]) = lstep svc (lrun svc reg evs) e := by
  rw [lrun_append]; rfl

/-- the connection `c` of a listener, and what the schedule means for it -/
structure ViewOk (svc : Services) (c : Nat) (s : SrvSt) (v : View) : Prop where
  count : v.accepted = s.conns.length
  isOpen : v.isOpen = s.listening
  before : s.conns.length ≤ c → v.reg = s.reg ∧ v.evs = []
  since : ∀ l, s.conns[c]? = some l → ∃ evs, l = lrun svc v.reg evs ∧ evs.filter notExec = v.evs

/-- one connection makes a step that is no event for `c`, or one of the executor -/
theorem ViewOk.exec {svc : Services} {c : Nat} {s s' : SrvSt} {v : View} (h : ViewOk svc c s v)
    (hc : s'.conns.length = s.conns.length) (hl : s'.listening = s.listening) (hr : s'.reg = s.reg)
    (hs : ∀ l', s'.conns[c]? = some l' → ∃ l, s.conns[c]? = some l ∧
      (l' = l ∨ ∃ e, notExec e = false ∧ l' = lstep svc l e)) : ViewOk svc c s' v where
  count := by rw [hc]; exact h.count
  isOpen := by rw [hl]; exact h.isOpen
  before hb := by rw [hr]; exact h.before (by omega)
  since l' hl' := by
    obtain ⟨l, h1, h2⟩ := hs l' hl'
    obtain ⟨evs, h3, h4⟩ := h.since l h1
    rcases h2 with rfl | ⟨e, he, rfl⟩
    · exact ⟨evs, h3, h4⟩
    · refine ⟨evs ++ [e], by rw [lrun_snoc, h3], ?_⟩
      rw [List.filter_append, h4]
      simp [he]

theorem ViewOk.all {svc : Services} {c : Nat} {s : SrvSt} {v : View} (h : ViewOk svc c s v) (e : LEv)
    (he : notExec e = true) (v' : View) (hv : v'.accepted = v.accepted) (ho : v'.isOpen = v.isOpen) (reg' : Registry)
    (hb : s.conns.length ≤ c → v'.reg = reg' ∧ v'.evs = [])
    (hs : c < s.conns.length → v'.reg = v.reg ∧ v'.evs = v.evs ++ [e]) :
    ViewOk svc c { s with conns := s.conns.map fun l => lstep svc l e, reg := reg' } v' where
  count := by rw [hv, h.count]; simp
  isOpen := by rw [ho]; exact h.isOpen
  before hb' := hb (by simpa using hb')
  since l' hl' := by
    dsimp only at hl'
    rw [List.getElem?_map, Option.map_eq_some_iff] at hl'
    obtain ⟨l, h1, rfl⟩ := hl'
    obtain ⟨h2, h3⟩ := hs (List.getElem?_eq_some_iff.1 h1).1
    obtain ⟨evs, h4, h5⟩ := h.since l h1
    refine ⟨evs ++ [e], by rw [h2, lrun_snoc, h4], ?_⟩
    rw [List.filter_append, h5, h3]
    simp [he]

theorem local_notExec {e : LEv} (h : e.isLocal = true) : notExec e = true := by
  cases e <;> first | rfl | cases h

theorem ViewOk.step {svc : Services} {c : Nat} {s : SrvSt} {v : View} (h : ViewOk svc c s v) (ev : SrvEv) :
    ViewOk svc c (srvStep svc s ev) (v.step c ev) := by
  cases ev with
  | accept =>
    unfold srvStep View.step
    dsimp only
    rw [h.isOpen]
    split
    · refine ⟨by simp [h.count], rfl, fun hb => ?_, fun l hl => ?_⟩
      · dsimp only at hb ⊢
        rw [List.length_append, List.length_singleton] at hb
        exact h.before (by omega)
      · dsimp only at hl ⊢
        by_cases hc : c < s.conns.length
        · rw [List.getElem?_append_left hc] at hl
          exact h.since l hl
        · rw [List.getElem?_append_right (by omega)] at hl
          cases hk : c - s.conns.length with
          | succ n => rw [hk] at hl; cases hl
          | zero =>
            rw [hk] at hl
            injection hl with hl
            obtain ⟨h1, h2⟩ := h.before (by omega)
            exact ⟨[], by rw [← hl, h1]; rfl, by rw [h2]; rfl⟩
    · exact h
  | conn c' e =>
    unfold srvStep View.step
    dsimp only
    rw [connEv_eq]
    by_cases he : e.isLocal = true
    · rw [if_pos he]
      cases hl : s.conns[c']? with
      | none =>
        dsimp only
        rw [if_neg]
        · exact h
        · rintro ⟨rfl, h1, -⟩
          rw [List.getElem?_eq_none_iff] at hl
          have := h.count
          omega
      | some l =>
        dsimp only
        have hlt := (List.getElem?_eq_some_iff.1 hl).1
        by_cases hc : c' = c
        · subst hc
          rw [if_pos ⟨rfl, by rw [h.count]; exact hlt, he⟩]
          refine ⟨by simp [h.count], h.isOpen, fun hb => ?_, fun l' hl' => ?_⟩
          · dsimp only at hb
            rw [List.length_set] at hb
            omega
          · dsimp only at hl' ⊢
            rw [List.getElem?_set_self hlt] at hl'
            injection hl' with hl'
            obtain ⟨evs, h1, h2⟩ := h.since l hl
            refine ⟨evs ++ [e], by rw [lrun_snoc, ← h1, hl'], ?_⟩
            rw [List.filter_append, h2]
            simp [local_notExec he]
        · rw [if_neg (fun hh => hc hh.1)]
          refine h.exec (by simp) rfl rfl fun l' hl' => ?_
          dsimp only at hl'
          rw [List.getElem?_set_ne hc] at hl'
          exact ⟨l', hl', .inl rfl⟩
    · rw [if_neg he, if_neg (fun hh => he hh.2.2)]
      exact h
  | take =>
    unfold srvStep View.step
    dsimp only
    split
    · exact h
    · next x q hq =>
      split
      · split
        · refine h.exec (by simp) rfl rfl fun l' hl' => ?_
          dsimp only at hl'
          rw [List.getElem?_modify] at hl'
          cases hc : s.conns[c]? with
          | none => rw [hc] at hl'; cases hl'
          | some l =>
            rw [hc] at hl'
            refine ⟨l, rfl, ?_⟩
            have hl' := Option.some.inj hl'
            dsimp only at hl'
            split at hl'
            · exact .inr ⟨.futStart x.2, rfl, hl'.symm⟩
            · exact .inl hl'.symm
        · exact h.exec rfl rfl rfl fun l' hl' => ⟨l', hl', .inl rfl⟩
      · exact h
  | finish c' k o =>
    unfold srvStep View.step
    dsimp only
    split
    · refine h.exec (by simp) rfl rfl fun l' hl' => ?_
      dsimp only at hl'
      rw [List.getElem?_modify] at hl'
      cases hc : s.conns[c]? with
      | none => rw [hc] at hl'; cases hl'
      | some l =>
        rw [hc] at hl'
        refine ⟨l, rfl, ?_⟩
        have hl' := Option.some.inj hl'
        dsimp only at hl'
        split at hl'
        · exact .inr ⟨.futFinish k o, rfl, hl'.symm⟩
        · exact .inl hl'.symm
    · exact h
  | tick d =>
    have := h.count
    refine h.all (.tick d) rfl _ (by unfold View.step; dsimp only; split <;> rfl)
      (by unfold View.step; dsimp only; split <;> rfl) s.reg (fun hb => ?_) (fun hs => ?_)
    · unfold View.step
      dsimp only
      rw [if_neg (by omega)]
      exact h.before hb
    · unfold View.step
      dsimp only
      rw [if_pos (by omega)]
      exact ⟨rfl, rfl⟩
  | register r =>
    have := h.count
    refine h.all (.register r) rfl _ (by unfold View.step; dsimp only; split <;> rfl)
      (by unfold View.step; dsimp only; split <;> rfl) _ (fun hb => ?_) (fun hs => ?_)
    · unfold View.step
      dsimp only
      rw [if_neg (by omega)]
      obtain ⟨h1, h2⟩ := h.before hb
      exact ⟨by rw [← h1], h2⟩
    · unfold View.step
      dsimp only
      rw [if_pos (by omega)]
      exact ⟨rfl, rfl⟩
  | shutdown => exact ⟨h.count, rfl, h.before, h.since⟩

theorem ViewOk.run (svc : Services) (reg : Registry) (c : Nat) (evs : List SrvEv) :
    ViewOk svc c (srvRun svc reg evs) (view c reg evs) := by
  unfold srvRun view
  have h0 : ViewOk svc c ({ reg := reg } : SrvSt) { reg := reg } := ⟨rfl, rfl, fun _ => ⟨rfl, rfl⟩, fun l hl => (by cases hl)⟩
  generalize ({ reg := reg } : SrvSt) = s at h0
  generalize ({ reg := reg } : View) = v at h0
  induction evs generalizing s v with
  | nil => exact h0
  | cons e evs ih => exact ih _ _ (h0.step e)

/-- C104. A connection of a listener behaves, whatever happens on the others, as a connection alone: its state is that
after a schedule that consists of its own events, the registrations and the clock since it was accepted, and the executor
starting and ending its calls. All properties of single connections (C66-C82, C100) therefore hold of every connection
of every listener. -/
theorem C104_alone (svc : Services) (reg : Registry) (evs : List SrvEv) (c : Nat) (l : LSt)
    (h : (srvRun svc reg evs).conns[c]? = some l) :
    ∃ evs', l = lrun svc (view c reg evs).reg evs' ∧ evs'.filter notExec = (view c reg evs).evs :=
  (ViewOk.run svc reg c evs).since l h

theorem received_filter (evs : List LEv) : received (evs.filter notExec) = received evs := by
  induction evs with
  | nil => rfl
  | cons e evs ih =>
    rw [List.filter_cons]
    cases e <;> first | exact ih | rfl | exact congrArg (_ ++ ·) ih

theorem sawEof_filter (evs : List LEv) : sawEof (evs.filter notExec) = sawEof evs := by
  unfold sawEof
  rw [Bool.eq_iff_iff, List.contains_iff_mem, List.contains_iff_mem, List.mem_filter]
  simp [notExec]

/-- C104, two consequences: every message on a connection answers a request received on that connection; and the requests
that are recognised on a connection depend on the bytes received there only. -/
theorem C104_no_crosstalk (svc : Services) (reg : Registry) (evs : List SrvEv) (c : Nat) (l : LSt)
    (h : (srvRun svc reg evs).conns[c]? = some l) :
    (∀ o m, (o, m) ∈ l.out → ∃ id p, HeaderAt (received (view c reg evs).evs) id ∧
      fromStream .boltResponse m = .ok p ∧ p.requestId = .int id) ∧
    (∀ (svc' : Services) (reg' : Registry) (evs' : List SrvEv) (c' : Nat) (l' : LSt),
      (srvRun svc' reg' evs').conns[c']? = some l' → l.idle → l'.idle →
      received (view c reg evs).evs = received (view c' reg' evs').evs →
      sawEof (view c reg evs).evs = sawEof (view c' reg' evs').evs →
      .reset ∉ (view c reg evs).evs → .reset ∉ (view c' reg' evs').evs →
      l.acts = l'.acts ∧ l.tasks.map Task.kind = l'.tasks.map Task.kind) := by
  obtain ⟨es, rfl, hes⟩ := C104_alone svc reg evs c l h
  rw [← hes]
  refine ⟨fun o m hm => ?_, fun svc' reg' evs' c' l' h' hi hi' hb he hn hn' => ?_⟩
  · obtain ⟨id, p, h1, h2, h3, -⟩ := C71_replies_to_requests svc _ es o m hm
    exact ⟨id, p, by rw [received_filter]; exact h1, h2, h3⟩
  · obtain ⟨es', rfl, hes'⟩ := C104_alone svc' reg' evs' c' l' h'
    rw [← hes', received_filter, received_filter] at hb
    rw [← hes', sawEof_filter, sawEof_filter] at he
    have m : ∀ l : List LEv, .reset ∉ l.filter notExec → .reset ∉ l := by
      intro l hl hm
      exact hl (List.mem_filter.2 ⟨hm, rfl⟩)
    rw [← hes'] at hn'
    exact C66_chunking _ _ _ _ es es' hb he (m _ hn) (m _ hn') hi hi'

/-! ## C105 -/

/-- the method of a call has been started -/
def Spec.Started (s : SrvSt) (x : Nat × Nat) : Prop := s.futSt x = some .running ∨ ∃ o, s.futSt x = some (.finished o)

/-- C105. At any time at most thirty methods are running, all connections together; and methods are started in the order
in which the calls were submitted: a call submitted before one that has been started has itself been started, or
cancelled. -/
theorem C105_workers (svc : Services) (reg : Registry) (evs : List SrvEv) :
    (∀ calls : List (Nat × Nat), calls.Nodup → (∀ x ∈ calls, (srvRun svc reg evs).futSt x = some .running) →
      calls.length ≤ 30) ∧
    (∀ (i j : Nat) (x y : Nat × Nat), (srvRun svc reg evs).subs[i]? = some x → (srvRun svc reg evs).subs[j]? = some y →
      i < j → Started (srvRun svc reg evs) y →
      Started (srvRun svc reg evs) x ∨ (srvRun svc reg evs).futSt x = some .cancelled) ∧
    (∀ x, x ∈ (srvRun svc reg evs).subs ↔ ((srvRun svc reg evs).futSt x).isSome = true) ∧
    (srvRun svc reg evs).subs.Nodup := by
  have h := SrvInv.run svc reg evs
  generalize srvRun svc reg evs = s at h
  refine ⟨fun calls hn hc => ?_, fun i j x y hx hy hij hst => ?_, h.subs, h.nodup⟩
  · exact Nat.le_trans (hn.length_le_of_subset fun x hx => (h.running x).2 (hc x hx)) h.cap
  · obtain ⟨pre, h1, h2⟩ := h.queue
    have hj : j < pre.length := by
      apply Nat.lt_of_not_le
      intro hle
      rw [h1, List.getElem?_append_right hle] at hy
      have := h.waiting y (List.mem_of_getElem? hy)
      rcases hst with e | ⟨o, e⟩ <;> rw [e] at this <;> rcases this with e' | e' <;> cases e'
    have hx' := hx
    rw [h1, List.getElem?_append_left (by omega)] at hx'
    have hq := h2 x (List.mem_of_getElem? hx')
    obtain ⟨st, hs⟩ := Option.isSome_iff_exists.1 ((h.subs x).1 (List.mem_of_getElem? hx))
    unfold Started
    rw [hs] at hq ⊢
    cases st with
    | queued => exact absurd rfl hq
    | running => exact .inl (.inl rfl)
    | finished o => exact .inl (.inr ⟨o, rfl⟩)
    | cancelled => exact .inr rfl

/-! ## C106 -/

/-- the executor can do nothing at the moment -/
def SrvSt.execIdle (svc : Services) (s : SrvSt) : Prop := srvStep svc s .take = s

/-- C106 as stated: whatever the methods that are running do, every call submitted is taken up by the executor: when the
executor can do nothing more, no call is left in the queue. -/
def C106_full : Prop :=
  ∀ (svc : Services) (reg : Registry) (evs : List SrvEv) (x : Nat × Nat),
    (srvRun svc reg evs).execIdle svc → (srvRun svc reg evs).futSt x ≠ some .queued

/-- how one event changes the state of a call -/
theorem srv_futSt_step {svc : Services} {s : SrvSt} (h : SrvInv s) (ev : SrvEv) (x : Nat × Nat) (st : FutSt)
    (hx : s.futSt x = some st) :
    (srvStep svc s ev).futSt x = some st ∨
    (st = .queued ∧ (srvStep svc s ev).futSt x = some .cancelled) ∨
    (st = .queued ∧ ev = .take ∧ s.running.length < maxWorker ∧ (srvStep svc s ev).futSt x = some .running) ∨
    (st = .running ∧ ∃ o, ev = .finish x.1 x.2 o ∧ (srvStep svc s ev).futSt x = some (.finished o)) := by
  cases ev with
  | accept =>
    unfold srvStep
    dsimp only
    split
    · left
      unfold SrvSt.futSt at hx ⊢
      dsimp only
      by_cases hlt : x.1 < s.conns.length
      · rw [List.getElem?_append_left hlt]; exact hx
      · rw [List.getElem?_eq_none (by omega)] at hx; cases hx
    · exact .inl hx
  | conn c e =>
    unfold srvStep
    dsimp only
    split
    · next he =>
      split
      · exact .inl hx
      · next l hl =>
        have hc : c < s.conns.length := (List.getElem?_eq_some_iff.1 hl).1
        unfold SrvSt.futSt at hx ⊢
        dsimp only
        by_cases hxc : c = x.1
        · subst hxc
          rw [List.getElem?_set_self hc]
          rw [hl] at hx
          rcases (local_futStep svc l e he).old _ _ hx with h1 | h1
          · exact .inl h1
          · exact .inr (.inl h1)
        · rw [List.getElem?_set_ne hxc]
          exact .inl hx
    · exact .inl hx
  | take =>
    unfold srvStep
    dsimp only
    split
    · exact .inl hx
    · next y q hq =>
      split
      · next hlt =>
        split
        · next hst =>
          have hf : ∀ z, ({ s with queue := q, running := s.running ++ [y], conns := s.conns.modify y.1 fun l => lstep svc l (.futStart y.2) } : SrvSt).futSt z = if z = y then some .running else s.futSt z := fun z => futSt_set_one (svc := svc) s y (.futStart y.2) .running
            (fun l hl => by
              have : l.futSt y.2 = some .queued := by unfold SrvSt.futSt at hst; rw [hl] at hst; exact hst
              show (if _ then _ else _) = _
              rw [if_pos this]) (by rw [hst]; rfl) z
          rw [hf]
          by_cases hz : x = y
          · subst hz
            rw [hst] at hx
            injection hx with hx
            exact .inr (.inr (.inl ⟨hx.symm, by simp, hlt, by simp⟩))
          · rw [if_neg hz]; exact .inl hx
        · exact .inl hx
      · exact .inl hx
  | finish c k o =>
    unfold srvStep
    dsimp only
    split
    · next hm =>
      have hst := (h.running (c, k)).1 hm
      have hf : ∀ y, ({ s with running := s.running.erase (c, k), conns := s.conns.modify c fun l => lstep svc l (.futFinish k o) } : SrvSt).futSt y = if y = (c, k) then some (.finished o) else s.futSt y :=
        fun y => futSt_set_one (svc := svc) s (c, k) (.futFinish k o) (.finished o)
          (fun l hl => by
            have hl : s.conns[c]? = some l := hl
            have : l.futSt k = some .running := by unfold SrvSt.futSt at hst; dsimp only at hst; rw [hl] at hst; exact hst
            show (if _ then _ else _) = _
            rw [if_pos this]) (by rw [hst]; rfl) y
      rw [hf]
      by_cases hz : x = (c, k)
      · subst hz
        rw [hst] at hx
        injection hx with hx
        exact .inr (.inr (.inr ⟨hx.symm, o, rfl, by simp⟩))
      · rw [if_neg hz]; exact .inl hx
    · exact .inl hx
  | tick d => exact .inl (by rw [← hx]; exact futSt_map s (fun l => lstep svc l (.tick d)) (fun l => rfl) x)
  | register r => exact .inl (by rw [← hx]; exact futSt_map s (fun l => lstep svc l (.register r)) (fun l => rfl) x)
  | shutdown => exact .inl hx

/-- the threads stay as they are while no method ends and all of them are busy -/
theorem busy_running {svc : Services} {s : SrvSt} (hb : s.running.length = maxWorker) (ev : SrvEv)
    (he : ∀ c k o, ev ≠ .finish c k o) : (srvStep svc s ev).running = s.running := by
  cases ev with
  | accept => unfold srvStep; dsimp only; split <;> rfl
  | conn c e => unfold srvStep; dsimp only; repeat' split
                all_goals rfl
  | take =>
    unfold srvStep
    dsimp only
    split
    · rfl
    · rw [if_neg (by omega)]
  | finish c k o => exact absurd rfl (he c k o)
  | tick | register | shutdown => rfl

/-- C106: when thirty methods are running, no other call is started, on any connection, until one of them ends. -/
theorem C106_starved (svc : Services) (reg : Registry) (evs evs' : List SrvEv) (x : Nat × Nat)
    (hb : (srvRun svc reg evs).running.length = 30) (hx : (srvRun svc reg evs).futSt x = some .queued)
    (hn : ∀ c k o, .finish c k o ∉ evs') :
    (srvRun svc reg (evs ++ evs')).futSt x = some .queued ∨
    (srvRun svc reg (evs ++ evs')).futSt x = some .cancelled := by
  have h := SrvInv.run svc reg evs
  have e : srvRun svc reg (evs ++ evs') = evs'.foldl (srvStep svc) (srvRun svc reg evs) := by
    unfold srvRun; rw [List.foldl_append]
  rw [e]
  generalize srvRun svc reg evs = s at h hb hx
  replace hx : s.futSt x = some .queued ∨ s.futSt x = some .cancelled := .inl hx
  clear e
  induction evs' generalizing s with
  | nil => exact hx
  | cons ev evs' ih =>
    have hne : ∀ c k o, ev ≠ .finish c k o := fun c k o e => hn c k o (by rw [e]; simp)
    refine ih (fun c k o hm => hn c k o (by simp [hm])) _ (h.step ev) (by rw [busy_running (svc := svc) hb ev hne]; exact hb) ?_
    rcases hx with hx | hx
    · rcases srv_futSt_step (svc := svc) h ev x _ hx with h1 | ⟨-, h1⟩ | ⟨-, -, h1, -⟩ | ⟨h1, -⟩
      · exact .inl h1
      · exact .inr h1
      · unfold maxWorker at h1; omega
      · cases h1
    · rcases srv_futSt_step (svc := svc) h ev x _ hx with h1 | ⟨h1, -⟩ | ⟨h1, -⟩ | ⟨h1, -⟩
      · exact .inr h1
      all_goals cases h1

/-- one request on connection 0, dispatched as its `i`-th task -/
def exSubmit (i : Nat) : List SrvEv :=
  [.conn 0 (.data (exReq 3 [1]).bytes), .conn 0 .reader, .conn 0 .reader, .conn 0 .reader, .conn 0 .reader,
   .conn 0 (.run i (py "t")), .take]

/-- thirty-one requests whose methods do not return -/
def exStuck : List SrvEv := .accept :: ((List.range 31).map exSubmit).flatten

set_option maxRecDepth 40000 in
theorem exStuck_run : (srvRun exServices exReg exStuck).futSt (0, 30) = some .queued ∧
    (srvRun exServices exReg exStuck).running.length = 30 ∧
    srvStep exServices (srvRun exServices exReg exStuck) .take = srvRun exServices exReg exStuck := by
  decide +kernel

/-- C106 is violated: thirty methods that do not return keep the thirty-first from ever being started. -/
theorem C106_violated : ¬ C106_full := fun h => h exServices exReg exStuck (0, 30) exStuck_run.2.2 exStuck_run.1

/-- C106, what holds: as long as fewer than thirty methods are running, every call submitted is taken up. Missing: calls
behind thirty methods that do not return. -/
theorem C106_taken_partial (svc : Services) (reg : Registry) (evs : List SrvEv) (x : Nat × Nat)
    (hb : (srvRun svc reg evs).running.length < 30) (hi : (srvRun svc reg evs).execIdle svc) :
    (srvRun svc reg evs).futSt x ≠ some .queued := by
  have h := SrvInv.run svc reg evs
  generalize srvRun svc reg evs = s at h hb hi
  intro hx
  obtain ⟨pre, h1, h2⟩ := h.queue
  have hm : x ∈ s.queue := by
    have : x ∈ s.subs := (h.subs x).2 (by rw [hx]; rfl)
    rw [h1] at this
    rcases List.mem_append.1 this with h3 | h3
    · exact absurd hx (h2 x h3)
    · exact h3
  unfold SrvSt.execIdle srvStep at hi
  dsimp only at hi
  cases hq : s.queue with
  | nil => rw [hq] at hm; cases hm
  | cons y q =>
    rw [hq] at hi
    dsimp only at hi
    rw [if_pos (by unfold maxWorker; omega)] at hi
    have := congrArg SrvSt.queue hi
    split at this <;> · rw [hq] at this; exact absurd (congrArg List.length this) (by simp)

/-- two requests, both taken up; then nothing is left to do -/
example :
    let s := srvRun exServices exReg ([.accept] ++ exSubmit 0 ++ exSubmit 1)
    s.running = [(0, 0), (0, 1)] ∧ srvStep exServices s .take = s := by decide +kernel

/-! ## C107 -/

/-- C107 as stated: the method of a request that was answered TIMEOUT because its deadline had passed is not executed. -/
def C107_full : Prop :=
  ∀ (svc : Services) (reg : Registry) (evs : List LEv) (j : Nat) (t : Task) (k : Nat),
    (lrun svc reg evs).tasks[j]? = some t → t.fate = some .expired → t.fut = some k →
    (lrun svc reg evs).futSt k = some .cancelled

/-- a request with timeout 100, dispatched -/
def exTimed : List LEv := [.data (exReq 3 [1]).bytes, .reader, .reader, .reader, .reader, .run 0 (py "t")]

/-- its method has been started when the deadline passes -/
def exLate : List LEv := exTimed ++ [.futStart 0, .tick 100, .expire 0]

set_option maxRecDepth 20000 in
theorem exLate_run : ((lrun exServices exReg exLate).tasks[0]?.map fun t => (t.fate, t.fut)) = some (some .expired, some 0) ∧
    (lrun exServices exReg exLate).futSt 0 = some .running := by decide +kernel

/-- C107 is violated: a method that has been started goes on after the caller has been told TIMEOUT. -/
theorem C107_violated : ¬ C107_full := by
  intro h
  obtain ⟨h1, h2⟩ := exLate_run
  obtain ⟨t, h3, h4⟩ := Option.map_eq_some_iff.1 h1
  have := h exServices exReg exLate 0 t 0 h3 (congrArg Prod.fst h4) (congrArg Prod.snd h4)
  rw [h2] at this
  cases this

/-- how one event changes the state of a call of a connection -/
theorem futSt_lstep (svc : Services) (l : LSt) (e : LEv) (k : Nat) (st : FutSt) (h : l.futSt k = some st) :
    (lstep svc l e).futSt k = some st ∨ (st = .queued ∧ (lstep svc l e).futSt k = some .cancelled) ∨
    (st = .queued ∧ e = .futStart k ∧ (lstep svc l e).futSt k = some .running) ∨
    (st = .running ∧ ∃ o, e = .futFinish k o ∧ (lstep svc l e).futSt k = some (.finished o)) := by
  by_cases he : e.isLocal = true
  · rcases (local_futStep svc l e he).old k st h with h1 | h1
    · exact .inl h1
    · exact .inr (.inl h1)
  · cases e with
    | futStart k' =>
      show (if _ then _ else _ : LSt).futSt k = _ ∨ _ ∨ (_ ∧ _ ∧ (if _ then _ else _ : LSt).futSt k = _) ∨ _
      split
      · next hq =>
        rw [setFut_futSt, hq]
        by_cases hk : k = k'
        · subst hk
          rw [hq] at h
          injection h with h
          exact .inr (.inr (.inl ⟨h.symm, rfl, by simp⟩))
        · exact .inl (by rw [if_neg (fun hh => hk hh.1)]; exact h)
      · exact .inl h
    | futFinish k' o =>
      unfold lstep
      dsimp only
      split
      · next hq =>
        rw [setFut_futSt, hq]
        by_cases hk : k = k'
        · subst hk
          rw [hq] at h
          injection h with h
          exact .inr (.inr (.inr ⟨h.symm, o, rfl, by simp⟩))
        · exact .inl (by rw [if_neg (fun hh => hk hh.1)]; exact h)
      · exact .inl h
    | tick d => exact .inl h
    | register r => exact .inl h
    | _ => exact absurd rfl he

/-- a call that has left the queue does not get back -/
theorem not_queued_step (svc : Services) (l : LSt) (e : LEv) (k : Nat) (h : ∃ st, l.futSt k = some st ∧ st ≠ .queued) :
    ∃ st, (lstep svc l e).futSt k = some st ∧ st ≠ .queued := by
  obtain ⟨st, h1, h2⟩ := h
  rcases futSt_lstep svc l e k st h1 with h3 | ⟨h3, -⟩ | ⟨h3, -⟩ | ⟨-, o, -, h3⟩
  · exact ⟨st, h3, h2⟩
  · exact absurd h3 h2
  · exact absurd h3 h2
  · exact ⟨_, h3, (by intro e; cases e)⟩

/-- replacing a task by one that has not expired -/
theorem setTask_expired {s s' : LSt} {i : Nat} {t0 : Task} (hs : s'.tasks = s.tasks.set i t0)
    (h0 : t0.fate ≠ some .expired ∨ ∃ t, s.tasks[i]? = some t ∧ t0.fate = t.fate ∧ t0.fut = t.fut)
    {j : Nat} {t' : Task} (hj : s'.tasks[j]? = some t') (hf : t'.fate = some .expired) :
    ∃ t : Task, s.tasks[j]? = some t ∧ t.fate = some .expired ∧ t.fut = t'.fut := by
  rw [hs] at hj
  by_cases hij : i = j
  · subst hij
    have hlt : i < s.tasks.length := by
      have := (List.getElem?_eq_some_iff.1 hj).1
      rwa [List.length_set] at this
    rw [List.getElem?_set_self hlt] at hj
    injection hj with hj
    subst hj
    rcases h0 with h0 | ⟨t, h1, h2, h3⟩
    · exact absurd hf h0
    · exact ⟨t, h1, by rw [← h2]; exact hf, h3.symm⟩
  · rw [List.getElem?_set_ne hij] at hj
    exact ⟨t', hj, hf, rfl⟩

theorem reader_expired (s : LSt) {j : Nat} {t' : Task} (hj : s.reader.tasks[j]? = some t')
    (hf : t'.fate = some .expired) : s.tasks[j]? = some t' := by
  have key : ∀ a : Task, a.fate = none → (s.tasks ++ [a])[j]? = some t' → s.tasks[j]? = some t' := by
    intro a ha h
    by_cases hlt : j < s.tasks.length
    · rwa [List.getElem?_append_left hlt] at h
    · rw [List.getElem?_append_right (by omega)] at h
      cases hk : j - s.tasks.length with
      | zero => rw [hk] at h; injection h with h; rw [← h, ha] at hf; cases hf
      | succ n => rw [hk] at h; cases h
  revert hj
  unfold LSt.reader LSt.write LSt.perform
  repeat' split
  all_goals first | exact id | exact key _ rfl

theorem dispatch_expired (svc : Services) (s : LSt) (i : Nat) (t : Task) (r : Req) (fresh : PyStr)
    (ht : t.fate = none) {j : Nat} {t' : Task} (hj : (s.dispatch svc i t r fresh).tasks[j]? = some t')
    (hf : t'.fate = some .expired) : ∃ t : Task, s.tasks[j]? = some t ∧ t.fate = some .expired ∧ t.fut = t'.fut := by
  have key : ∃ t0 : Task, (s.dispatch svc i t r fresh).tasks = s.tasks.set i t0 ∧ t0.fate ≠ some .expired := by
    unfold LSt.dispatch LSt.setTask
    cases serviceOf r.header with
    | none => exact ⟨_, rfl, (by intro e; cases e)⟩
    | some service =>
      cases methodOf r.header with
      | none => exact ⟨_, rfl, (by intro e; cases e)⟩
      | some method =>
        cases extract s.heap fresh r.header with
        | error e => exact ⟨_, rfl, (by intro e; cases e)⟩
        | ok p =>
          dsimp only
          cases findMethod svc s.reg p.1 p.2 service method with
          | error e => cases e <;> exact ⟨_, rfl, (by intro e; cases e)⟩
          | ok func =>
            dsimp only
            split
            · exact ⟨_, rfl, (by intro e; cases e)⟩
            · exact ⟨_, rfl, (by dsimp only; rw [ht]; intro e; cases e)⟩
  obtain ⟨t0, h1, h2⟩ := key
  exact setTask_expired h1 (.inl h2) hj hf

/-- one event: a task that has expired had expired before, or does so now -/
theorem expired_step {svc : Services} {s : LSt} (hi : LInv svc s) (e : LEv) {j : Nat} {t : Task}
    (hj : (lstep svc s e).tasks[j]? = some t) (hf : t.fate = some .expired) :
    (∃ u : Task, s.tasks[j]? = some u ∧ u.fate = some .expired ∧ u.fut = t.fut) ∨
    (∃ k, t.fut = some k ∧ (∀ st, (lstep svc s e).futSt k = some st → st ≠ .queued) ∧
      ∃ u : Task, e = .expire j ∧ s.tasks[j]? = some u ∧ u.fut = some k) := by
  have same : (lstep svc s e).tasks = s.tasks → ∃ u : Task, s.tasks[j]? = some u ∧ u.fate = some .expired ∧ u.fut = t.fut :=
    fun he => ⟨t, by rw [← he]; exact hj, hf, rfl⟩
  cases e with
  | data bs => exact .inl (same (by unfold lstep; dsimp only; split <;> rfl))
  | eof => exact .inl (same rfl)
  | reset => exact .inl (same rfl)
  | reader => exact .inl ⟨t, reader_expired s hj hf, hf, rfl⟩
  | run i fresh =>
    unfold lstep at hj same
    dsimp only at hj same
    cases hu : s.tasks[i]? with
    | none => rw [hu] at same; exact .inl (same rfl)
    | some u =>
      rw [hu] at hj same
      dsimp only at hj same
      split at hj
      · next r hst hk =>
        have h0 := hi.task i u hu
        unfold TaskOk at h0
        rw [hk] at h0
        have h1 := h0.1
        rw [hst] at h1
        exact .inl (dispatch_expired svc s i u r fresh h1.2 hj hf)
      · exact .inl ⟨t, hj, hf, rfl⟩
  | result i =>
    unfold lstep at hj
    dsimp only at hj
    cases hu : s.tasks[i]? with
    | none => rw [hu] at hj; exact .inl ⟨t, hj, hf, rfl⟩
    | some u =>
      rw [hu] at hj
      dsimp only at hj
      split at hj
      · split at hj
        · exact .inl ⟨t, hj, hf, rfl⟩
        · exact .inl (setTask_expired rfl (.inl (by intro e; cases e)) hj hf)
        · exact .inl ⟨t, hj, hf, rfl⟩
      · exact .inl ⟨t, hj, hf, rfl⟩
  | expire i =>
    unfold lstep at hj ⊢
    dsimp only at hj ⊢
    cases hu : s.tasks[i]? with
    | none => rw [hu] at hj; exact .inl ⟨t, hj, hf, rfl⟩
    | some u =>
      rw [hu] at hj
      dsimp only at hj ⊢
      split at hj
      · next d r k hst hk hfut =>
        split at hj
        · next hd =>
          rw [if_pos hd]
          have htasks : (s.cancelFut k).tasks = s.tasks := by unfold LSt.cancelFut LSt.setFut; split <;> rfl
          by_cases hij : i = j
          · subst hij
            have hlt := (List.getElem?_eq_some_iff.1 hu).1
            unfold LSt.setTask at hj
            dsimp only at hj
            rw [htasks, List.getElem?_set_self hlt] at hj
            injection hj with hj
            right
            refine ⟨k, by rw [← hj]; exact hfut, fun st hst' e => ?_, u, rfl, hu, hfut⟩
            subst e
            have : (s.cancelFut k).futSt k = some .queued := hst'
            unfold LSt.cancelFut at this
            split at this
            · next hq => rw [setFut_futSt, hq] at this; simp at this
            · next hq => exact hq this
          · unfold LSt.setTask at hj
            dsimp only at hj
            rw [htasks, List.getElem?_set_ne hij] at hj
            exact .inl ⟨t, hj, hf, rfl⟩
        · exact .inl ⟨t, hj, hf, rfl⟩
      · exact .inl ⟨t, hj, hf, rfl⟩
  | write i =>
    unfold lstep at hj
    dsimp only at hj
    cases hu : s.tasks[i]? with
    | none => rw [hu] at hj; exact .inl ⟨t, hj, hf, rfl⟩
    | some u =>
      rw [hu] at hj
      dsimp only at hj
      split at hj
      · next m hst =>
        have htasks : (s.write (.task i) m).tasks = s.tasks := by unfold LSt.write; split <;> rfl
        exact .inl (setTask_expired (t0 := { u with st := .ended }) (by unfold LSt.setTask; dsimp only; rw [htasks]) (.inr ⟨u, hu, rfl, rfl⟩) hj hf)
      · exact .inl ⟨t, hj, hf, rfl⟩
  | futStart k => exact .inl (same (by unfold lstep LSt.setFut; dsimp only; split <;> rfl))
  | futFinish k o => exact .inl (same (by unfold lstep LSt.setFut; dsimp only; split <;> rfl))
  | tick d => exact .inl (same rfl)
  | register r => exact .inl (same rfl)

/-- the call of a task that has expired is not in the queue -/
theorem expired_not_queued (svc : Services) (reg : Registry) (evs : List LEv) (j : Nat) (t : Task) (k : Nat)
    (hj : (lrun svc reg evs).tasks[j]? = some t) (hf : t.fate = some .expired) (hk : t.fut = some k) :
    ∃ st, (lrun svc reg evs).futSt k = some st ∧ st ≠ .queued := by
  induction evs using snoc_induct generalizing t with
  | nil => cases hj
  | snoc evs e ih =>
    have hsome : ((lrun svc reg (evs ++ [e])).futSt k).isSome = true := by
      have h0 := (LInv.run svc reg (evs ++ [e])).task j t hj
      unfold TaskOk at h0
      split at h0
      · rw [hk] at h0; cases h0.1
      · obtain ⟨f, -, -, -, -, -, h1, -⟩ := h0.2.2 k hk
        rw [futSt_isSome]
        exact (List.getElem?_eq_some_iff.1 h1).1
    rw [lrun_snoc] at hj hsome ⊢
    rcases expired_step (LInv.run svc reg evs) e hj hf with ⟨u, h1, h2, h3⟩ | ⟨k', h1, h2, -⟩
    · exact not_queued_step svc _ e k (ih u h1 h2 (h3.trans hk))
    · rw [hk] at h1
      injection h1 with h1
      subst h1
      obtain ⟨st, h3⟩ := Option.isSome_iff_exists.1 hsome
      exact ⟨st, h3, h2 st h3⟩

/-- C107, what holds: when a request is answered TIMEOUT because its deadline has passed, its method has been started
already or is never started. Missing: a method that had been started is not stopped. -/
theorem C107_not_started_partial (svc : Services) (reg : Registry) (evs evs' : List LEv) (j : Nat) (t : Task) (k : Nat)
    (hj : (lrun svc reg evs).tasks[j]? = some t) (hf : t.fate = some .expired) (hk : t.fut = some k) :
    (lrun svc reg evs).futSt k = some .running ∨ (∃ o, (lrun svc reg evs).futSt k = some (.finished o)) ∨
    (lrun svc reg (evs ++ evs')).futSt k = some .cancelled := by
  obtain ⟨st, h1, h2⟩ := expired_not_queued svc reg evs j t k hj hf hk
  cases st with
  | queued => exact absurd rfl h2
  | running => exact .inl h1
  | finished o => exact .inr (.inl ⟨o, h1⟩)
  | cancelled =>
    right; right
    induction evs' using snoc_induct with
    | nil => rw [List.append_nil]; exact h1
    | snoc evs' e ih =>
      rw [← List.append_assoc, lrun_snoc]
      rcases futSt_lstep svc _ e k _ ih with h3 | ⟨h3, -⟩ | ⟨h3, -⟩ | ⟨h3, -⟩
      · exact h3
      all_goals cases h3

set_option maxRecDepth 20000 in
/-- the deadline passes while the call is in the queue: the executor does not start it any more -/
example : (lrun exServices exReg (exTimed ++ [.tick 100, .expire 0])).tasks[0]?.map Task.fate = some (some .expired) ∧
    (lrun exServices exReg (exTimed ++ [.tick 100, .expire 0, .futStart 0])).futSt 0 = some .cancelled := by decide +kernel

/-! ## C108 -/

/-- C108 as stated: after `shutdown` no method is started any more. -/
def C108_full : Prop :=
  ∀ (svc : Services) (reg : Registry) (evs evs' : List SrvEv) (x : Nat × Nat),
    Started (srvRun svc reg (evs ++ .shutdown :: evs')) x → Started (srvRun svc reg evs) x

set_option maxRecDepth 20000 in
/-- C108 is violated: on a connection that was accepted before, requests that arrive after `shutdown` are executed. -/
theorem C108_violated : ¬ C108_full := by
  intro h
  have h1 : (srvRun exServices exReg ([.accept] ++ .shutdown :: exSubmit 0)).futSt (0, 0) = some .running := by
    decide +kernel
  have h2 : (srvRun exServices exReg [.accept]).futSt (0, 0) = none := rfl
  rcases h exServices exReg [.accept] (exSubmit 0) (0, 0) (.inl h1) with h3 | ⟨o, h3⟩
  · rw [h2] at h3; cases h3
  · rw [h2] at h3; cases h3

theorem closed_step (svc : Services) (s : SrvSt) (e : SrvEv) (h : s.listening = false) :
    (srvStep svc s e).listening = false ∧ (srvStep svc s e).conns.length = s.conns.length := by
  cases e with
  | accept => unfold srvStep; dsimp only; rw [if_neg (by simp [h])]; exact ⟨h, rfl⟩
  | conn c e =>
    unfold srvStep
    dsimp only
    repeat' split
    all_goals exact ⟨h, by simp⟩
  | take =>
    unfold srvStep
    dsimp only
    repeat' split
    all_goals exact ⟨h, by simp⟩
  | finish c k o =>
    unfold srvStep
    dsimp only
    repeat' split
    all_goals exact ⟨h, by simp⟩
  | tick d => exact ⟨h, by simp [srvStep]⟩
  | register r => exact ⟨h, by simp [srvStep]⟩
  | shutdown => exact ⟨rfl, rfl⟩

/-- C108, what holds: after `shutdown` no connection is accepted any more. Missing: the connections accepted before go on
being served. -/
theorem C108_no_connection_partial (svc : Services) (reg : Registry) (evs evs' : List SrvEv) :
    (srvRun svc reg (evs ++ .shutdown :: evs')).conns.length = (srvRun svc reg evs).conns.length := by
  have e : srvRun svc reg (evs ++ .shutdown :: evs') =
      evs'.foldl (srvStep svc) (srvStep svc (srvRun svc reg evs) .shutdown) := by
    unfold srvRun; rw [List.foldl_append]; rfl
  rw [e]
  have h : (srvStep svc (srvRun svc reg evs) .shutdown).listening = false ∧
    (srvStep svc (srvRun svc reg evs) .shutdown).conns.length = (srvRun svc reg evs).conns.length := ⟨rfl, rfl⟩
  generalize srvStep svc (srvRun svc reg evs) .shutdown = s at h
  clear e
  induction evs' generalizing s with
  | nil => exact h.2
  | cons e evs' ih =>
    obtain ⟨h1, h2⟩ := closed_step svc s e h.1
    exact ih _ ⟨h1, h2.trans h.2⟩

/-- a second client is not accepted -/
example : (srvRun exServices exReg [.accept, .shutdown, .accept]).conns.length = 1 := by decide

/-- C104 and C105, a case: two connections, a request on each; the calls are started in the order of their submission -/
example :
    let evs : List SrvEv := [.accept, .accept, .conn 1 (.data (exReq 4 [2]).bytes), .conn 0 (.data (exReq 3 [1]).bytes),
      .conn 1 .reader, .conn 1 .reader, .conn 1 .reader, .conn 1 .reader, .conn 1 (.run 0 (py "t")),
      .conn 0 .reader, .conn 0 .reader, .conn 0 .reader, .conn 0 .reader, .conn 0 (.run 0 (py "u")), .take]
    (srvRun exServices exReg evs).subs = [(1, 0), (0, 0)] ∧ (srvRun exServices exReg evs).running = [(1, 0)] ∧
    received (view 0 exReg evs).evs = (exReq 3 [1]).bytes := by decide +kernel

end Bolt
