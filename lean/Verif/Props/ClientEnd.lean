import Verif.Model.ClientEnd
import Verif.Props.Quiet
/-!
# C207: a process that ends with calls of the asyncio client under way
-/
namespace Bolt
open Spec

namespace Spec

/-- the request of call `i` was given to some connection -/
def Sent (s : ASt) (i : Nat) : Prop := ∃ k ∈ s.conns, ∃ bs, (i, bs) ∈ k.sent

end Spec

/-- C207 as listed: when the process is over, every call that was made and has not raised an exception was sent. -/
def C207_full : Prop :=
  ∀ (v : PyVer) (evs : List CEndEv), (cendRun v evs).over = true →
    ∀ (i : Nat), i < (cendRun v evs).cli.calls.length →
      (∀ o, (i, o) ∈ (cendRun v evs).rets → ∃ p, o = some (.resp p)) → Sent (cendRun v evs).cli i

theorem cendRun_append (v : PyVer) (a b : List CEndEv) : cendRun v (a ++ b) = b.foldl (cendStep v) (cendRun v a) := by
  simp [cendRun]

theorem cendRun_snoc (v : PyVer) (a : List CEndEv) (e : CEndEv) : cendRun v (a ++ [e]) = cendStep v (cendRun v a) e := by
  simp [cendRun]

theorem cend_over {v : PyVer} {s : CEndSt} (h : s.over = true) (more : List CEndEv) : more.foldl (cendStep v) s = s := by
  induction more with
  | nil => rfl
  | cons e more ih =>
    rw [List.foldl_cons, show cendStep v s e = s by simp [cendStep, h]]
    exact ih

/-- the schedule of the client alone that makes the same state -/
theorem cend_cli (v : PyVer) (evs : List CEndEv) : ∃ aevs, (cendRun v evs).cli = arun v aevs := by
  induction evs using snoc_induct with
  | nil => exact ⟨[], rfl⟩
  | snoc evs e ih =>
    obtain ⟨aevs, ih⟩ := ih
    rw [cendRun_snoc]
    have step : ∀ e, astep v (cendRun v evs).cli e = arun v (aevs ++ [e]) := fun e => by rw [arun_snoc, ih]
    unfold cendStep
    split
    · exact ⟨aevs, ih⟩
    · split
      · next req =>
        split
        · exact ⟨_, step (.call req)⟩
        · exact ⟨aevs, ih⟩
      · next req =>
        split
        · exact ⟨_, step (.call req)⟩
        · exact ⟨aevs, ih⟩
      · split
        · exact ⟨aevs, ih⟩
        · split
          · exact ⟨aevs, ih⟩
          · exact ⟨aevs, ih⟩
      · split <;> exact ⟨aevs, ih⟩
      · exact ⟨aevs, ih⟩
      · exact ⟨_, step _⟩
      · split <;> exact ⟨aevs, ih⟩

/-- nothing is sent for a call that has not been made -/
theorem not_sent_yet (v : PyVer) (aevs : List AEv) : ¬ Sent (arun v aevs) (arun v aevs).calls.length := by
  rintro ⟨k, hk, bs, hb⟩
  obtain ⟨c, hc, -⟩ := (arun_sent v aevs).2 _ (List.mem_flatMap.2 ⟨k, hk, hb⟩)
  have := (List.getElem?_eq_some_iff.1 hc).1
  exact Nat.lt_irrefl _ this

/-- What happens instead: whatever went before, a one-way or asynchronous call that is the last thing the main thread does is
never sent if the process ends before the loop has had a turn. -/
theorem C207_always (v : PyVer) (evs : List CEndEv) (req : Pkg) (ho : (cendRun v evs).over = false)
    (hb : (cendRun v evs).blocked = none) (more : List CEndEv) :
    let s := cendRun v (evs ++ [.post req, .ends] ++ more)
    let i := (cendRun v evs).cli.calls.length
    s.over = true ∧ (∃ c, s.cli.calls[i]? = some c ∧ c.req = req ∧ c.pc = .new) ∧ s.rets = (cendRun v evs).rets ∧ ¬ Sent s.cli i := by
  intro s i
  have hs : s = { cendRun v evs with
      cli := { (cendRun v evs).cli with calls := (cendRun v evs).cli.calls ++ [({ req := req } : ACall)] }, over := true } := by
    show cendRun v (evs ++ [.post req, .ends] ++ more) = _
    have h2 : cendRun v (evs ++ [.post req, .ends]) = { cendRun v evs with
        cli := { (cendRun v evs).cli with calls := (cendRun v evs).cli.calls ++ [({ req := req } : ACall)] }, over := true } := by
      rw [cendRun_append]
      simp [cendStep, ho, hb, astep]
    rw [cendRun_append, h2]
    exact cend_over rfl more
  obtain ⟨aevs, ha⟩ := cend_cli v evs
  rw [hs]
  refine ⟨rfl, ⟨{ req := req }, ?_, rfl, rfl⟩, rfl, ?_⟩
  · simp [i]
  · have := not_sent_yet v aevs
    rw [← ha] at this
    exact this

/-- C207 is false. -/
theorem C207_violated : ¬ C207_full := by
  intro h
  have ha := C207_always .from38 [] (exAReq 1) rfl rfl []
  refine ha.2.2.2 (h .from38 _ ha.1 _ ?_ ?_)
  · obtain ⟨c, hc, -⟩ := ha.2.1
    exact (List.getElem?_eq_some_iff.1 hc).1
  · rw [ha.2.2.1]
    intro o ho
    cases ho

theorem Spec.Sent.step {v : PyVer} {s : ASt} {i : Nat} (h : Sent s i) (e : AEv) : Sent (astep v s e) i := by
  obtain ⟨k, hk, bs, hb⟩ := h
  obtain ⟨n, hn⟩ := List.getElem?_of_mem hk
  obtain ⟨y, hy, -⟩ := astep_closed v s e hn
  refine ⟨y, List.mem_of_getElem? hy, bs, ?_⟩
  rcases astep_sent v s e n y hy with ⟨k0, h3, h4⟩ | ⟨h3, -⟩
  · rw [hn] at h3
    cases h3
    exact h4.subset hb
  · rw [hn] at h3; cases h3

/-- only a call that waits for it comes to have a response -/
theorem actor_resp (v : PyVer) (s : ASt) (e : AEv) {i : Nat} {c : ACall} (hc : s.calls[i]? = some c)
    (hw : ∀ ev, c.pc ≠ .waiting ev) (hd : ∀ r, c.pc ≠ .done r) (ha : e.actor = some i) :
    ∃ c', (astep v s e).calls[i]? = some c' ∧ ∀ p, c'.pc ≠ .done (.resp p) := by
  have keep : ∃ c', s.calls[i]? = some c' ∧ ∀ p, c'.pc ≠ .done (.resp p) := ⟨c, hc, fun p => hd _⟩
  have bef : ∀ {s' : ASt}, (∃ c', s'.calls[i]? = some c' ∧ c'.pc.before = true) →
      ∃ c', s'.calls[i]? = some c' ∧ ∀ p, c'.pc ≠ .done (.resp p) := by
    rintro s' ⟨c', h1, h2⟩
    exact ⟨c', h1, fun p hp => by rw [hp] at h2; cases h2⟩
  cases e with
  | call req => cases ha
  | start j a =>
    cases ha
    simp only [astep, ASt.start, hc]
    split
    · exact bef (send_before (s := { s with reqs := PyDict.set s.reqs c.req.requestId i }) hc _ _)
    · exact keep
  | lock j =>
    cases ha
    simp only [astep, ASt.lockTurn, hc]
    split
    · split
      · split
        · exact ⟨_, modify_self hc, fun p h => by cases h⟩
        · exact ⟨_, modify_self (l := s.calls) hc, fun p h => by cases h⟩
      · exact keep
    · exact keep
  | dialed j ok =>
    cases ha
    simp only [astep, ASt.dialed, hc]
    split
    · next r a l hp =>
      split
      · split
        · exact ⟨_, modify_self (l := s.calls) hc, fun p h => by cases h⟩
        · exact ⟨_, modify_self (l := s.calls) hc, fun p h => by cases h⟩
      · exact bef (sendFailed_before (s := s.setLock l false) hc)
    · exact keep
  | drained j ok =>
    cases ha
    simp only [astep, ASt.drained, hc]
    split
    · split
      · split
        · exact bef (broken_before hc _ _ _)
        · exact ⟨_, modify_self (l := s.calls) hc, fun p h => by cases h⟩
      · exact bef (broken_before hc _ _ _)
    · split
      · split
        · exact ⟨_, modify_self hc, fun p h => by cases h⟩
        · split
          · exact ⟨_, modify_self (l := s.calls) hc, fun p h => by cases h⟩
          · exact ⟨_, modify_self hc, fun p h => by cases h⟩
      · exact bef (broken_before hc _ _ _)
    · exact keep
  | wake j =>
    cases ha
    simp only [astep, ASt.wake, hc]
    exact ⟨c, rfl, fun p => hd _⟩
  | cancel j =>
    cases ha
    simp only [astep, ASt.cancel, hc]
    split
    · exact ⟨_, modify_self hc, fun p h => by cases h⟩
    · split
      · exact bef (sendFailed_before hc)
      · exact ⟨_, modify_self hc, fun p h => by cases h⟩
    · next l hp =>
      split
      · exact bef (sendFailed_before (s := s.setLock l false) hc)
      · exact ⟨_, modify_self (l := s.calls) hc, fun p h => by cases h⟩
    · split
      · exact bef (broken_before hc _ _ _)
      · exact ⟨_, modify_self hc, fun p h => by cases h⟩
    · split
      · exact bef (broken_before hc _ _ _)
      · exact ⟨_, modify_self hc, fun p h => by cases h⟩
    · next hp => exact absurd hp (hw _)
    · exact keep
  | recv n => cases ha
  | data n bs => cases ha
  | eof n => cases ha
  | reset n => cases ha

/-- a call that has come to have a response was sent -/
theorem resp_sent (v : PyVer) (aevs : List AEv) (i : Nat) (c : ACall) (p : Pkg) (hc : (arun v aevs).calls[i]? = some c)
    (hp : c.pc = .done (.resp p)) : Sent (arun v aevs) i := by
  induction aevs using snoc_induct generalizing c with
  | nil => cases hc
  | snoc aevs e ih =>
    cases h0 : (arun v aevs).calls[i]? with
    | none =>
      rw [arun_snoc] at hc
      obtain ⟨req, -, rfl⟩ := astep_new v _ e (arun_aligned v aevs) h0 hc
      cases hp
    | some c0 =>
      obtain ⟨c1, h1, -, -, -, h2⟩ := call_persist v aevs [e] h0
      rw [hc] at h1
      cases h1
      rw [arun_snoc] at hc ⊢
      by_cases ha : e.actor = some i
      · by_cases hw : ∃ ev, c0.pc = .waiting ev
        · obtain ⟨ev, hw⟩ := hw
          obtain ⟨n, -, k, hk, bs, hb⟩ := (arun_put v aevs).wait i c0 ev h0 hw
          exact Sent.step ⟨k, List.mem_of_getElem? hk, bs, hb⟩ e
        · by_cases hd : ∃ r, c0.pc = .done r
          · obtain ⟨r, hd⟩ := hd
            have := h2 r hd
            rw [hp] at this
            cases this
            exact (ih c0 h0 hd).step e
          · obtain ⟨c', k1, k2⟩ := actor_resp v _ e h0 (fun ev h => hw ⟨ev, h⟩) (fun r h => hd ⟨r, h⟩) ha
            rw [hc] at k1
            cases k1
            exact absurd hp (k2 p)
      · obtain ⟨c', k1, k2, -⟩ := astep_keeps v _ e i ha c0 h0
        rw [hc] at k1
        cases k1
        exact (ih c0 h0 (by rw [← k2]; exact hp)).step e

/-- C207, what holds: a call for whose response `invoke_sync` has waited was sent, however the process ends. Missing: that calls
whose result nobody waits for are sent, which is not so (`C207_always`). -/
theorem C207_waited_partial (v : PyVer) (evs : List CEndEv) (i : Nat) (p : Pkg)
    (h : (i, some (.resp p)) ∈ (cendRun v evs).rets) : Sent (cendRun v evs).cli i := by
  induction evs using snoc_induct with
  | nil => cases h
  | snoc evs e ih =>
    rw [cendRun_snoc] at h ⊢
    obtain ⟨aevs, ha⟩ := cend_cli v evs
    unfold cendStep at h ⊢
    split at h
    · next ho => rw [if_pos ho]; exact ih h
    · next ho =>
      rw [if_neg ho]
      cases e with
      | post req =>
        dsimp only at h ⊢
        split at h
        · next hb => rw [if_pos hb]; exact (ih h).step _
        · next hb => rw [if_neg hb]; exact ih h
      | sync req =>
        dsimp only at h ⊢
        split at h
        · next hb => rw [if_pos hb]; exact (ih h).step _
        · next hb => rw [if_neg hb]; exact ih h
      | result =>
        dsimp only at h ⊢
        cases hb : (cendRun v evs).blocked with
        | none => rw [hb] at h; exact ih h
        | some j =>
          rw [hb] at h
          dsimp only at h ⊢
          cases hj : (cendRun v evs).cli.calls[j]? with
          | none => rw [hj] at h; exact ih h
          | some c =>
            rw [hj] at h
            simp only [Option.map_some] at h ⊢
            cases hp : c.pc with
            | done r =>
              rw [hp] at h
              dsimp only at h ⊢
              rcases List.mem_append.1 h with h | h
              · exact ih h
              · rw [List.mem_singleton] at h
                cases h
                rw [ha] at hj ⊢
                exact resp_sent v aevs i c p hj hp
            | _ => rw [hp] at h; exact ih h
      | timeout =>
        dsimp only at h ⊢
        cases hb : (cendRun v evs).blocked with
        | none => rw [hb] at h; exact ih h
        | some j =>
          rw [hb] at h
          dsimp only at h ⊢
          rcases List.mem_append.1 h with h | h
          · exact ih h
          · rw [List.mem_singleton] at h
            cases h
      | ev e =>
        cases e with
        | call req => exact ih h
        | _ => exact (ih h).step _
      | ends =>
        dsimp only at h ⊢
        split at h
        · next hb => rw [if_pos hb]; exact ih h
        · next hb => rw [if_neg hb]; exact ih h

/-- while the main thread waits, nothing but the loop does anything -/
theorem cend_blocked (v : PyVer) (evs : List CEndEv) (req : Pkg) (ho : (cendRun v evs).over = false)
    (hb : (cendRun v evs).blocked = none) (mid : List CEndEv) (hm : ∀ e ∈ mid, e ≠ .result ∧ e ≠ .timeout) :
    let s := cendRun v (evs ++ .sync req :: mid)
    let i := (cendRun v evs).cli.calls.length
    s.over = false ∧ s.blocked = some i ∧ s.rets = (cendRun v evs).rets ∧ ∃ c, s.cli.calls[i]? = some c ∧ c.req = req := by
  intro s i
  induction mid using snoc_induct with
  | nil =>
    have : s = { cendRun v evs with
        cli := { (cendRun v evs).cli with calls := (cendRun v evs).cli.calls ++ [({ req := req } : ACall)] },
        blocked := some i } := by
      show cendRun v (evs ++ [.sync req]) = _
      rw [cendRun_snoc]
      simp [cendStep, ho, hb, astep, i]
    rw [this]
    exact ⟨ho, rfl, rfl, { req := req }, by simp [i], rfl⟩
  | snoc mid e ih =>
    obtain ⟨h1, h2, h3, c, h4, h5⟩ := ih fun e' he' => hm e' (List.mem_append_left _ he')
    have hs : s = cendStep v (cendRun v (evs ++ .sync req :: mid)) e := by
      rw [← cendRun_snoc]; simp [s]
    have he := hm e (by simp)
    have keep : cendStep v (cendRun v (evs ++ .sync req :: mid)) e = cendRun v (evs ++ .sync req :: mid) →
        s.over = false ∧ s.blocked = some i ∧ s.rets = (cendRun v evs).rets ∧ ∃ c, s.cli.calls[i]? = some c ∧ c.req = req := by
      intro hk
      rw [hs, hk]
      exact ⟨h1, h2, h3, c, h4, h5⟩
    cases e with
    | post req' => exact keep (by simp [cendStep, h1, h2])
    | sync req' => exact keep (by simp [cendStep, h1, h2])
    | result => exact absurd rfl he.1
    | timeout => exact absurd rfl he.2
    | ends => exact keep (by simp [cendStep, h1, h2])
    | ev a =>
      obtain ⟨aevs, ha⟩ := cend_cli v (evs ++ .sync req :: mid)
      have hx : s.over = false ∧ s.blocked = some i ∧ s.rets = (cendRun v evs).rets ∧
          (s.cli = (cendRun v (evs ++ .sync req :: mid)).cli ∨ s.cli = astep v (cendRun v (evs ++ .sync req :: mid)).cli a) := by
        rw [hs]
        cases a <;> simp [cendStep, h1, h2, h3]
      refine ⟨hx.1, hx.2.1, hx.2.2.1, ?_⟩
      rcases hx.2.2.2 with hx | hx
      · rw [hx]; exact ⟨c, h4, h5⟩
      · rw [ha] at h4
        obtain ⟨c', k1, k2, -⟩ := call_persist v aevs [a] h4
        rw [hx, ha, ← arun_snoc]
        exact ⟨c', k1, k2.trans h5⟩

/-- C207, what `invoke_sync` returns is the result of its own call: when its waiting ends, a response it then returns is one
of a call with its request, and that request was sent. -/
theorem C207_own (v : PyVer) (evs : List CEndEv) (req : Pkg) (ho : (cendRun v evs).over = false)
    (hb : (cendRun v evs).blocked = none) (mid : List CEndEv) (hm : ∀ e ∈ mid, e ≠ .result ∧ e ≠ .timeout) :
    let s := cendRun v (evs ++ .sync req :: mid ++ [.result])
    s.rets = (cendRun v evs).rets ∨
    ∃ (i : Nat) (c : ACall) (r : CallRes), s.rets = (cendRun v evs).rets ++ [(i, some r)] ∧ s.cli.calls[i]? = some c ∧ c.req = req ∧
      c.pc = .done r ∧ ((∃ p, r = .resp p) → Sent s.cli i) := by
  intro s
  obtain ⟨h1, h2, h3, c, h4, h5⟩ := cend_blocked v evs req ho hb mid hm
  obtain ⟨aevs, ha⟩ := cend_cli v (evs ++ .sync req :: mid)
  have hs : s = cendStep v (cendRun v (evs ++ .sync req :: mid)) .result := by
    rw [← cendRun_snoc]
  by_cases hp : ∃ r, c.pc = .done r
  · obtain ⟨r, hp⟩ := hp
    have hs' : s = { cendRun v (evs ++ .sync req :: mid) with
        blocked := none, rets := (cendRun v evs).rets ++ [((cendRun v evs).cli.calls.length, some r)] } := by
      rw [hs]
      simp [cendStep, h1, h2, h3, h4, hp]
    right
    refine ⟨_, c, r, by rw [hs'], by rw [hs']; exact h4, h5, hp, ?_⟩
    rintro ⟨p, rfl⟩
    rw [hs']
    show Sent (cendRun v (evs ++ .sync req :: mid)).cli _
    rw [ha] at h4 ⊢
    exact resp_sent v aevs _ c p h4 hp
  · left
    rw [hs, ← h3]
    cases hc : c.pc with
    | done r => exact absurd ⟨r, hc⟩ hp
    | _ => simp [cendStep, h1, h2, h4, hc]

/-- a call that is waited for, then a one-way call, then the end -/
def exCliEndEvs : List CEndEv :=
  [.sync (exAReq 1), .ends, .ev (.start 0 exAddr), .ev (.dialed 0 true), .ev (.drained 0 true), .ev (.drained 0 true), .ev (.recv 0),
   .ev (.data 0 (reply 1 0 [7])), .ev (.recv 0), .ev (.recv 0), .ev (.wake 0), .result, .post (exAReq 2), .ends, .ev (.start 1 exAddr),
   .ev (.drained 1 true)]

set_option maxRecDepth 20000 in
/-- the first call is sent and has its response; the second one is not, though there is a connection -/
example : let s := cendRun .from38 exCliEndEvs
    s.over = true ∧ s.rets.map Prod.fst = [0] ∧ s.rets.all (fun r => match r.2 with | some (.resp _) => true | _ => false) = true ∧
    s.cli.conns.map (fun k => k.sent.map Prod.fst) = [[0]] ∧ s.cli.calls.map (fun c => decide (c.pc = .new)) = [false, true] := by
  decide +kernel

end Bolt
