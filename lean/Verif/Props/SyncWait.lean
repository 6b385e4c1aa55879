import Verif.Model.SyncWait
import Verif.Props.SyncClient
/-!
# C183: when a synchronous call gives up
-/
namespace Bolt
open Spec

/-- the clock of the system is not set and goes right -/
def Spec.Steady (wall : Int → Int) : Prop := ∀ s t, wall t - wall s = t - s

/-- the call has raised TimeoutError because the time was up (and not because `recv` raised such a thing) -/
def Spec.GaveUp (s : WaitSt) : Prop := s.recv.out = some (.error .timeoutError) ∧ s.recv.connClosed = true

/-- C183 as listed: a call to which nothing comes raises TimeoutError when the time that the caller gave is over -/
def C183_full : Prop :=
  ∀ (wall : Int → Int) (t0 timeout reqId : Int), 0 ≤ timeout →
    GaveUp (syncWait wall t0 timeout reqId [] [⟨0, none⟩]) ∧ (syncWait wall t0 timeout reqId [] [⟨0, none⟩]).now = t0 + timeout

theorem recvStep_timeout {reqId : Int} {s : RecvSt} (h : s.out = none) :
    (recvStep reqId s .timeout).out = some (.error .timeoutError) ∧ (recvStep reqId s .timeout).connClosed = true := by
  unfold recvStep
  rw [if_neg (by rw [h]; decide)]
  exact ⟨rfl, rfl⟩

/-- What happens instead, for every clock: after whatever has come before, a round that nothing comes in ends the call, when
the rest of timeout and one more second is over as the clock of the system counts it. -/
theorem C183_exact (wall : Int → Int) (t0 timeout reqId : Int) (stream : Bytes) (rs : List WaitRound) (before : Nat)
    (h : (syncWait wall t0 timeout reqId stream rs).recv.out = none) :
    let s := syncWait wall t0 timeout reqId stream rs
    let s' := syncWait wall t0 timeout reqId stream (rs ++ [⟨before, none⟩])
    GaveUp s' ∧
      s'.now = s.now + before + max 0 (timeout + 1000 - (wall (s.now + before) - wall t0)) := by
  have e : syncWait wall t0 timeout reqId stream (rs ++ [⟨before, none⟩]) =
      waitStep wall (syncDeadline wall t0 timeout) reqId (syncWait wall t0 timeout reqId stream rs) ⟨before, none⟩ := by
    unfold syncWait
    rw [List.foldl_append]
    rfl
  dsimp only
  rw [e]
  generalize syncWait wall t0 timeout reqId stream rs = s at h ⊢
  unfold waitStep
  rw [if_neg (by rw [h]; decide)]
  refine ⟨recvStep_timeout (reqId := reqId) h, ?_⟩
  show s.now + before + patience wall _ _ = _
  unfold patience syncDeadline
  congr 2
  dsimp only
  omega

/-- one second too late, with every clock that goes right -/
theorem C183_late (wall : Int → Int) (t0 timeout reqId : Int) (ht : 0 ≤ timeout) (hw : Steady wall) :
    GaveUp (syncWait wall t0 timeout reqId [] [⟨0, none⟩]) ∧
    (syncWait wall t0 timeout reqId [] [⟨0, none⟩]).now = t0 + timeout + 1000 := by
  have h := C183_exact wall t0 timeout reqId [] [] 0 rfl
  refine ⟨h.1, ?_⟩
  have h2 := h.2
  simp only [List.nil_append] at h2
  rw [h2, hw]
  show t0 + (0 : Nat) + _ = _
  simp only [syncWait, List.foldl_nil]
  omega

/-- C183 is violated -/
theorem C183_violated : ¬ C183_full := by
  intro h
  have h1 := (h id 0 500 7 (by decide)).2
  rw [(C183_late id 0 500 7 (by decide) (fun s t => rfl)).2] at h1
  revert h1
  decide

/-- a clock that is set by `d` at time `at'` -/
def Spec.clockSet (at' d : Int) (t : Int) : Int := if t < at' then t else t + d

/-- The clock is set while the call is sending. Set back by `d`, it makes the call wait `d` longer; set forward by the
timeout and a second or more, it makes the call give up at once, so that no answer can be in time. -/
theorem C183_clock (timeout reqId d : Int) (sending : Nat) (hs : 0 < sending) (hd : 0 ≤ d) (ht : (sending : Int) ≤ timeout) :
    (syncWait (clockSet sending (-d)) 0 timeout reqId [] [⟨sending, none⟩]).now = timeout + 1000 + d ∧
    (syncWait (clockSet sending (timeout + 1000)) 0 timeout reqId [] [⟨sending, none⟩]).now = sending := by
  have z : ∀ w : Int → Int, (syncWait w 0 timeout reqId [] []).now = 0 := fun _ => rfl
  have h1 := (C183_exact (clockSet sending (-d)) 0 timeout reqId [] [] sending rfl).2
  have h2 := (C183_exact (clockSet sending (timeout + 1000)) 0 timeout reqId [] [] sending rfl).2
  simp only [List.nil_append, z] at h1 h2
  rw [h1, h2]
  have c0 : ∀ e, clockSet sending e 0 = 0 := fun e => if_pos (by omega)
  have c1 : ∀ e, clockSet sending e (0 + sending) = sending + e := by
    intro e
    unfold clockSet
    rw [if_neg (by omega)]
    omega
  rw [c0, c1, c0, c1]
  omega

theorem waitStep_ended {wall : Int → Int} {dl reqId : Int} {s : WaitSt} {r : WaitRound} (h : s.recv.out.isSome = true) :
    waitStep wall dl reqId s r = s := by
  unfold waitStep
  rw [if_pos h]

theorem loopTest_closed (reqId : Int) (s : RecvSt) : (loopTest reqId s).connClosed = s.connClosed := by
  unfold loopTest
  repeat' split
  all_goals rfl

theorem parseHdr_closed (s : RecvSt) : (parseHdr s).connClosed = s.connClosed := by
  unfold parseHdr
  repeat' split
  all_goals rfl

/-- only running out of time closes the connection -/
theorem recvStep_closed (reqId : Int) (s : RecvSt) (x : Except PyExc Nat) :
    (recvStep reqId s (readyEv x)).connClosed = s.connClosed := by
  unfold recvStep
  split
  · rfl
  · cases x with
    | error e => rfl
    | ok n =>
      show (loopTest reqId (parseHdr _)).connClosed = _
      rw [loopTest_closed, parseHdr_closed]

/-- the loop with a clock that goes right -/
structure WaitInv (t0 timeout : Int) (s : WaitSt) : Prop where
  past : t0 ≤ s.now
  gave : s.recv.connClosed = true → t0 + timeout + 1000 ≤ s.now

theorem WaitInv.step {wall : Int → Int} (hw : Steady wall) {t0 timeout reqId : Int} {s : WaitSt} {r : WaitRound}
    (h : WaitInv t0 timeout s) : WaitInv t0 timeout (waitStep wall (syncDeadline wall t0 timeout) reqId s r) := by
  have hp : ∀ t, patience wall (syncDeadline wall t0 timeout) t = max 0 (t0 + timeout + 1000 - t) := by
    intro t
    unfold patience syncDeadline
    have := hw t0 t
    congr 1
    omega
  have hpast := h.past
  unfold waitStep
  split
  · exact h
  · dsimp only
    rw [hp]
    split
    · exact ⟨by dsimp only; omega, fun _ => by dsimp only; omega⟩
    · next d x _ =>
      split
      · refine ⟨by dsimp only; omega, fun hc => ?_⟩
        dsimp only at hc ⊢
        rw [recvStep_closed] at hc
        have := h.gave hc
        omega
      · exact ⟨by dsimp only; omega, fun _ => by dsimp only; omega⟩

/-- C183, what holds with a clock that goes right: whatever comes, the call does not give up before the time is over that the
caller gave, and a second more. Missing: that it gives up when that time is over, and all of it if the clock is set. -/
theorem C183_not_early_partial (wall : Int → Int) (hw : Steady wall) (t0 timeout reqId : Int) (stream : Bytes)
    (rs : List WaitRound) (h : GaveUp (syncWait wall t0 timeout reqId stream rs)) :
    t0 + timeout + 1000 ≤ (syncWait wall t0 timeout reqId stream rs).now := by
  have key : ∀ (rs : List WaitRound) (s : WaitSt), WaitInv t0 timeout s →
      WaitInv t0 timeout (rs.foldl (waitStep wall (syncDeadline wall t0 timeout) reqId) s) := by
    intro rs
    induction rs with
    | nil => exact fun s h => h
    | cons r rs ih => exact fun s h => ih _ (h.step hw)
  exact (key rs _ ⟨Int.le_refl _, fun h => Bool.noConfusion h⟩).gave h.2

/-- C183, the other bound: if the loop itself takes no time, no round ends later than a second after the time the caller gave,
however the peer spreads its bytes; so the call is over by then, or its peer keeps it busy without time passing. -/
theorem C183_not_later (wall : Int → Int) (hw : Steady wall) (t0 timeout reqId : Int) (stream : Bytes) (rs : List WaitRound)
    (ht : 0 ≤ timeout) (h0 : ∀ r ∈ rs, r.before = 0) :
    (syncWait wall t0 timeout reqId stream rs).now ≤ t0 + timeout + 1000 := by
  have hp : ∀ t, patience wall (syncDeadline wall t0 timeout) t = max 0 (t0 + timeout + 1000 - t) := by
    intro t
    unfold patience syncDeadline
    have := hw t0 t
    congr 1
    omega
  have key : ∀ (rs : List WaitRound) (s : WaitSt), (∀ r ∈ rs, r.before = 0) → s.now ≤ t0 + timeout + 1000 →
      (rs.foldl (waitStep wall (syncDeadline wall t0 timeout) reqId) s).now ≤ t0 + timeout + 1000 := by
    intro rs
    induction rs with
    | nil => exact fun s _ h => h
    | cons r rs ih =>
      intro s h1 h2
      refine ih _ (fun x hx => h1 x (List.mem_cons_of_mem _ hx)) ?_
      have hb := h1 r (by simp)
      unfold waitStep
      split
      · exact h2
      · dsimp only
        rw [hp, hb]
        split
        · dsimp only; omega
        · split
          · next hd => dsimp only; omega
          · dsimp only; omega
  refine key rs _ h0 ?_
  show t0 ≤ _
  omega

/-- With a clock that goes right these are the runs that C52 is about: the loop goes through rounds of `recvRun` whose times do
not decrease and whose timeouts are not before the deadline. -/
theorem C183_timed (wall : Int → Int) (hw : Steady wall) (t0 timeout reqId : Int) (stream : Bytes) (rs : List WaitRound) :
    ∃ evs : List (Int × RecvEv), TimedRun (t0 + timeout + 1000) evs ∧
      (∀ x ∈ evs, x.1 ≤ (syncWait wall t0 timeout reqId stream rs).now) ∧
      (syncWait wall t0 timeout reqId stream rs).recv = recvRun reqId stream (evs.map (·.2)) := by
  have hp : ∀ t, patience wall (syncDeadline wall t0 timeout) t = max 0 (t0 + timeout + 1000 - t) := by
    intro t
    unfold patience syncDeadline
    have := hw t0 t
    congr 1
    omega
  have key : ∀ (rs : List WaitRound) (s : WaitSt) (evs : List (Int × RecvEv)), TimedRun (t0 + timeout + 1000) evs →
      (∀ x ∈ evs, x.1 ≤ s.now) → s.recv = recvRun reqId stream (evs.map (·.2)) →
      ∃ evs' : List (Int × RecvEv), TimedRun (t0 + timeout + 1000) evs' ∧
        (∀ x ∈ evs', x.1 ≤ (rs.foldl (waitStep wall (syncDeadline wall t0 timeout) reqId) s).now) ∧
        (rs.foldl (waitStep wall (syncDeadline wall t0 timeout) reqId) s).recv = recvRun reqId stream (evs'.map (·.2)) := by
    intro rs
    induction rs with
    | nil => exact fun s evs h1 h2 h3 => ⟨evs, h1, h2, h3⟩
    | cons r rs ih =>
      intro s evs h1 h2 h3
      have one : ∀ (t : Int) (ev : RecvEv), s.now ≤ t → (ev = .timeout → t0 + timeout + 1000 ≤ t) →
          TimedRun (t0 + timeout + 1000) (evs ++ [(t, ev)]) ∧ (∀ x ∈ evs ++ [(t, ev)], x.1 ≤ t) ∧
            recvStep reqId s.recv ev = recvRun reqId stream ((evs ++ [(t, ev)]).map (·.2)) := by
        intro t ev hle ht
        refine ⟨⟨?_, ?_⟩, ?_, ?_⟩
        · rw [List.pairwise_append]
          refine ⟨h1.1, List.pairwise_singleton _ _, ?_⟩
          intro x hx y hy
          rw [List.mem_singleton.1 hy]
          exact Int.le_trans (h2 x hx) hle
        · intro x hx he
          rcases List.mem_append.1 hx with hx | hx
          · exact h1.2 x hx he
          · rw [List.mem_singleton.1 hx] at he ⊢
            exact ht he
        · intro x hx
          rcases List.mem_append.1 hx with hx | hx
          · exact Int.le_trans (h2 x hx) hle
          · rw [List.mem_singleton.1 hx]
            exact Int.le_refl _
        · rw [List.map_append, List.map_cons, List.map_nil, recvRun_snoc, ← h3]
      rw [List.foldl_cons]
      have hstep : waitStep wall (syncDeadline wall t0 timeout) reqId s r = s ∨
          ∃ (t : Int) (ev : RecvEv), s.now ≤ t ∧ (ev = .timeout → t0 + timeout + 1000 ≤ t) ∧
            waitStep wall (syncDeadline wall t0 timeout) reqId s r = { now := t, recv := recvStep reqId s.recv ev } := by
        unfold waitStep
        split
        · exact .inl rfl
        · right
          dsimp only
          rw [hp]
          split
          · exact ⟨_, _, by omega, fun _ => by omega, rfl⟩
          · next d x _ =>
            split
            · exact ⟨_, _, by omega, fun hx => (by cases x <;> cases hx), rfl⟩
            · exact ⟨_, _, by omega, fun _ => by omega, rfl⟩
      rcases hstep with e | ⟨t, ev, hle, ht, e⟩
      · rw [e]; exact ih s evs h1 h2 h3
      · obtain ⟨a, b, c⟩ := one t ev hle ht
        rw [e]
        exact ih _ _ a b c
  exact key rs _ [] ⟨List.Pairwise.nil, fun x hx => nomatch hx⟩ (fun x hx => nomatch hx) rfl

/-- the peer sends a byte of its response each second -/
example : (syncWait id 0 1500 7 [1, 2, 3, 4, 5] [⟨0, some (1000, .ok 0)⟩, ⟨0, some (1000, .ok 0)⟩, ⟨0, some (1000, .ok 0)⟩]).now
    = 2500 ∧ GaveUp (syncWait id 0 1500 7 [1, 2, 3, 4, 5]
      [⟨0, some (1000, .ok 0)⟩, ⟨0, some (1000, .ok 0)⟩, ⟨0, some (1000, .ok 0)⟩]) := by
  unfold GaveUp
  decide +kernel

/-- C183, what is there is read, however late it is: if at every look at the socket there is something, no call times out,
whatever the clock shows and however long it takes between the looks. -/
theorem C183_ready (wall : Int → Int) (t0 timeout reqId : Int) (stream : Bytes) (rs : List (Nat × Except PyExc Nat)) :
    (syncWait wall t0 timeout reqId stream (rs.map fun r => ⟨r.1, some (0, r.2)⟩)).recv =
      recvRun reqId stream (rs.map fun r => readyEv r.2) := by
  unfold syncWait recvRun
  suffices ∀ s : WaitSt, ((rs.map fun r => (⟨r.1, some (0, r.2)⟩ : WaitRound)).foldl
      (waitStep wall (syncDeadline wall t0 timeout) reqId) s).recv = (rs.map fun r => readyEv r.2).foldl (recvStep reqId) s.recv from
    this _
  induction rs with
  | nil => exact fun s => rfl
  | cons r rs ih =>
    intro s
    rw [List.map_cons, List.map_cons, List.foldl_cons, List.foldl_cons, ih]
    congr 1
    unfold waitStep
    split
    · next h => simp [recvStep, h]
    · dsimp only
      rw [if_pos (by unfold patience; omega)]

/-- nine seconds late: the deadline was at 1001 -/
example : let s := syncWait id 0 1 7 [1, 2, 3] [⟨10000, some (0, .ok 2)⟩]
    s.now = 10000 ∧ ¬ GaveUp s ∧ s.recv.rest = [] := by
  unfold GaveUp
  decide +kernel

end Bolt
