import Verif.Props.AioServer
/-!
# C142: service methods that call services of the same listener

The docstring of `BaseService` (anthunder/listener/base_listener.py:29-36) has service methods pass their context "to
downstream in later rpc calling". A method that makes a call and waits for its result occupies its thread meanwhile; if
the call goes to the same listener (or, over other processes, comes back to it), it needs another one of its thirty
threads (aio_listener.py:52, 74).

Here `needs x` are the calls of the listener whose results the method of call `x` waits for.
-/
namespace Bolt
open Spec

/-- the call has been answered: its method has ended, or it was cancelled before it started -/
def Spec.CallAnswered (s : SrvSt) (y : Nat × Nat) : Prop :=
  (∃ o, s.futSt y = some (.finished o)) ∨ s.futSt y = some .cancelled

/-- In this schedule a method ends only after the calls it has made have been answered. -/
def Spec.MethodsWait (svc : Services) (reg : Registry) (needs : Nat × Nat → List (Nat × Nat)) (evs : List SrvEv) : Prop :=
  ∀ (pre post : List SrvEv) (c k : Nat) (o : Outcome), evs = pre ++ .finish c k o :: post →
    ∀ y ∈ needs (c, k), CallAnswered (srvRun svc reg pre) y

/-- the call has been submitted and its method has not ended -/
def Spec.CallOpen (s : SrvSt) (x : Nat × Nat) : Prop := s.futSt x = some .queued ∨ s.futSt x = some .running

/-- The calls needed by calls that are open have been submitted, and no call needs itself through others. -/
structure Spec.NeedsSane (s : SrvSt) (needs : Nat × Nat → List (Nat × Nat)) (rank : Nat × Nat → Nat) : Prop where
  made : ∀ x, CallOpen s x → ∀ y ∈ needs x, (s.futSt y).isSome = true
  order : ∀ x, ∀ y ∈ needs x, rank y < rank x

/-- C142 as listed: methods may wait for calls to the same listener. If no call needs itself, then whatever has happened,
things can go on so that the methods of all calls that are open end. -/
def C142_full : Prop :=
  ∀ (svc : Services) (reg : Registry) (needs : Nat × Nat → List (Nat × Nat)) (rank : Nat × Nat → Nat) (evs : List SrvEv),
    MethodsWait svc reg needs evs → NeedsSane (srvRun svc reg evs) needs rank →
    ∃ evs', MethodsWait svc reg needs (evs ++ evs') ∧
      ∀ x, CallOpen (srvRun svc reg evs) x → ∃ o, (srvRun svc reg (evs ++ evs')).futSt x = some (.finished o)

theorem Spec.MethodsWait.prefix {svc : Services} {reg : Registry} {needs : Nat × Nat → List (Nat × Nat)} {a b : List SrvEv}
    (h : MethodsWait svc reg needs (a ++ b)) : MethodsWait svc reg needs a := by
  intro pre post c k o e
  exact h pre (post ++ b) c k o (by rw [e]; simp)

theorem Spec.MethodsWait.snoc {svc : Services} {reg : Registry} {needs : Nat × Nat → List (Nat × Nat)} {evs : List SrvEv}
    (h : MethodsWait svc reg needs evs) (e : SrvEv)
    (he : ∀ c k o, e = .finish c k o → ∀ y ∈ needs (c, k), CallAnswered (srvRun svc reg evs) y) :
    MethodsWait svc reg needs (evs ++ [e]) := by
  intro pre post c k o hh
  rcases List.eq_nil_or_concat post with rfl | ⟨post', x, rfl⟩
  · obtain ⟨h1, h2⟩ := List.append_inj' hh rfl
    subst h1
    exact he c k o (List.cons.inj h2).1
  · rw [List.concat_eq_append, show pre ++ .finish c k o :: (post' ++ [x]) = (pre ++ .finish c k o :: post') ++ [x] by simp]
      at hh
    obtain ⟨h1, -⟩ := List.append_inj' hh rfl
    exact h pre post' c k o h1

/-! ### The executor going on -/

/-- what an event of the executor does to a call -/
structure ExecStep (s s' : SrvSt) : Prop where
  inv : SrvInv s'
  subs : s'.subs = s.subs
  call : ∀ x, s'.futSt x = s.futSt x ∨ (s.futSt x = some .queued ∧ s'.futSt x = some .running) ∨
    (s.futSt x = some .running ∧ ∃ o, s'.futSt x = some (.finished o))
  less : 2 * s'.queue.length + s'.running.length < 2 * s.queue.length + s.running.length

theorem take_exec {svc : Services} {s : SrvSt} (h : SrvInv s) (hq : s.queue ≠ []) (hr : s.running.length < maxWorker) :
    ExecStep s (srvStep svc s .take) := by
  have hi := h.step (svc := svc) .take
  revert hi
  unfold srvStep
  dsimp only
  split
  · next e => exact absurd e hq
  · next y q e =>
    rw [if_pos hr]
    split
    · next hst =>
      intro hi
      refine ⟨hi, rfl, fun x => ?_, by simp only [e, List.length_cons, List.length_append, List.length_nil]; omega⟩
      have hf : ∀ z, ({ s with queue := q, running := s.running ++ [y], conns := s.conns.modify y.1 fun l => lstep svc l (.futStart y.2) } : SrvSt).futSt z = if z = y then some .running else s.futSt z := fun z => futSt_set_one (svc := svc) s y (.futStart y.2) .running
        (fun l hl => by
          have : l.futSt y.2 = some .queued := by unfold SrvSt.futSt at hst; rw [hl] at hst; exact hst
          show (if _ then _ else _) = _
          rw [if_pos this]) (by rw [hst]; rfl) z
      rw [hf]
      by_cases hz : x = y
      · subst hz; exact .inr (.inl ⟨hst, if_pos rfl⟩)
      · rw [if_neg hz]; exact .inl rfl
    · intro hi
      exact ⟨hi, rfl, fun x => .inl rfl, by simp only [e, List.length_cons]; omega⟩

theorem finish_exec {svc : Services} {s : SrvSt} (h : SrvInv s) {x : Nat × Nat} (hx : x ∈ s.running) (o : Outcome) :
    ExecStep s (srvStep svc s (.finish x.1 x.2 o)) := by
  have hi := h.step (svc := svc) (.finish x.1 x.2 o)
  have hst := (h.running x).1 hx
  revert hi
  unfold srvStep
  dsimp only
  rw [if_pos hx]
  intro hi
  refine ⟨hi, rfl, fun z => ?_, ?_⟩
  · have hf : ∀ y, ({ s with running := s.running.erase x, conns := s.conns.modify x.1 fun l => lstep svc l (.futFinish x.2 o) } : SrvSt).futSt y = if y = x then some (.finished o) else s.futSt y :=
      fun y => futSt_set_one (svc := svc) s x (.futFinish x.2 o) (.finished o)
        (fun l hl => by
          have : l.futSt x.2 = some .running := by unfold SrvSt.futSt at hst; rw [hl] at hst; exact hst
          show (if _ then _ else _) = _
          rw [if_pos this]) (by rw [hst]; rfl) y
    rw [show s.running.erase (x.1, x.2) = s.running.erase x from rfl, hf]
    by_cases hz : z = x
    · subst hz; exact .inr (.inr ⟨hst, o, if_pos rfl⟩)
    · rw [if_neg hz]; exact .inl rfl
  · have := List.length_erase_of_mem hx
    have := List.length_pos_of_mem hx
    show 2 * s.queue.length + (s.running.erase x).length < _
    omega

theorem queued_mem {s : SrvSt} (h : SrvInv s) {x : Nat × Nat} (hx : s.futSt x = some .queued) : x ∈ s.queue := by
  obtain ⟨pre, h1, h2⟩ := h.queue
  have : x ∈ s.subs := (h.subs x).2 (by rw [hx]; rfl)
  rw [h1] at this
  rcases List.mem_append.1 this with h3 | h3
  · exact absurd hx (h2 x h3)
  · exact h3

/-- a call that has been submitted is open or answered -/
theorem open_or_answered {s : SrvSt} {x : Nat × Nat} (hx : (s.futSt x).isSome = true) : CallOpen s x ∨ CallAnswered s x := by
  obtain ⟨st, hs⟩ := Option.isSome_iff_exists.1 hx
  unfold CallOpen CallAnswered
  rw [hs]
  cases st with
  | queued => exact .inl (.inl rfl)
  | running => exact .inl (.inr rfl)
  | finished o => exact .inr (.inl ⟨o, rfl⟩)
  | cancelled => exact .inr (.inr rfl)

theorem ExecStep.sane {s s' : SrvSt} (e : ExecStep s s') {needs : Nat × Nat → List (Nat × Nat)} {rank : Nat × Nat → Nat}
    (h : NeedsSane s needs rank) : NeedsSane s' needs rank where
  order := h.order
  made x hx y hy := by
    have hx' : CallOpen s x := by
      unfold CallOpen at hx ⊢
      rcases e.call x with h1 | ⟨h1, -⟩ | ⟨h1, -⟩
      · rw [h1] at hx; exact hx
      · exact .inl h1
      · exact .inr h1
    have := h.made x hx' y hy
    rcases e.call y with h1 | ⟨-, h1⟩ | ⟨-, o, h1⟩
    · rw [h1]; exact this
    · rw [h1]; rfl
    · rw [h1]; rfl

/-- Something can be done as long as a call is open, if fewer than thirty calls need others. -/
theorem nested_progress {svc : Services} {s : SrvSt} (h : SrvInv s) {needs : Nat × Nat → List (Nat × Nat)}
    {rank : Nat × Nat → Nat} (hs : NeedsSane s needs rank) {callers : List (Nat × Nat)} (hl : callers.length < 30)
    (hc : ∀ x, needs x ≠ [] → x ∈ callers) {x : Nat × Nat} (hx : CallOpen s x) :
    ∃ ev, ExecStep s (srvStep svc s ev) ∧ ∀ c k o, ev = .finish c k o → ∀ y ∈ needs (c, k), CallAnswered s y := by
  by_cases hf : ∃ z ∈ s.running, ∀ y ∈ needs z, CallAnswered s y
  · obtain ⟨z, hz, hy⟩ := hf
    refine ⟨.finish z.1 z.2 (.ret .none), finish_exec h hz _, fun c k o e => ?_⟩
    cases e
    exact hy
  · have hne : ∀ z ∈ s.running, ∃ y ∈ needs z, ¬ CallAnswered s y := by
      intro z hz
      refine Classical.byContradiction fun hn => hf ⟨z, hz, fun y hy => ?_⟩
      exact Classical.byContradiction fun ha => hn ⟨y, hy, ha⟩
    have hr : s.running.length < maxWorker := by
      refine Nat.lt_of_le_of_lt (h.runNodup.length_le_of_subset (fun z hz => hc z ?_)) hl
      obtain ⟨y, hy, -⟩ := hne z hz
      intro e
      rw [e] at hy
      cases hy
    by_cases hq : s.queue = []
    · exfalso
      have hrun : ∀ z, CallOpen s z → z ∈ s.running := by
        rintro z (hz | hz)
        · have := queued_mem h hz
          rw [hq] at this; cases this
        · exact (h.running z).2 hz
      have : ∀ n z, CallOpen s z → rank z = n → False := by
        intro n
        induction n using Nat.strongRecOn with
        | ind n ih =>
          intro z hz hn
          obtain ⟨y, hy, ha⟩ := hne z (hrun z hz)
          have hoy : CallOpen s y := (open_or_answered (hs.made z hz y hy)).resolve_right ha
          have := hs.order z y hy
          exact ih (rank y) (by omega) y hoy rfl
      exact this _ x hx rfl
    · exact ⟨.take, take_exec h hq hr, fun c k o e => by cases e⟩

/-- C142, what holds: if fewer than thirty calls need other calls, all open methods can come to their ends. Missing:
thirty calls or more that need others. -/
theorem C142_few_partial (svc : Services) (reg : Registry) (needs : Nat × Nat → List (Nat × Nat)) (rank : Nat × Nat → Nat)
    (evs : List SrvEv) (hw : MethodsWait svc reg needs evs) (hs : NeedsSane (srvRun svc reg evs) needs rank)
    (callers : List (Nat × Nat)) (hl : callers.length < 30) (hc : ∀ x, needs x ≠ [] → x ∈ callers) :
    ∃ evs', MethodsWait svc reg needs (evs ++ evs') ∧
      ∀ x, CallOpen (srvRun svc reg evs) x → ∃ o, (srvRun svc reg (evs ++ evs')).futSt x = some (.finished o) := by
  have main : ∀ (n : Nat) (evs : List SrvEv), MethodsWait svc reg needs evs → NeedsSane (srvRun svc reg evs) needs rank →
      2 * (srvRun svc reg evs).queue.length + (srvRun svc reg evs).running.length = n →
      ∃ evs', MethodsWait svc reg needs (evs ++ evs') ∧
        (∀ x, CallOpen (srvRun svc reg evs) x → ∃ o, (srvRun svc reg (evs ++ evs')).futSt x = some (.finished o)) ∧
        ∀ x o, (srvRun svc reg evs).futSt x = some (.finished o) →
          (srvRun svc reg (evs ++ evs')).futSt x = some (.finished o) := by
    intro n
    induction n using Nat.strongRecOn with
    | ind n ih =>
      intro evs hw hs hn
      by_cases ho : ∃ x, CallOpen (srvRun svc reg evs) x
      · obtain ⟨x, hx⟩ := ho
        obtain ⟨ev, he, hok⟩ := nested_progress (svc := svc) (SrvInv.run svc reg evs) hs hl hc hx
        rw [← srvRun_snoc] at he
        obtain ⟨evs', h1, h2, h3⟩ := ih _ (by rw [← hn]; exact he.less) (evs ++ [ev]) (hw.snoc ev hok) (he.sane hs) rfl
        refine ⟨ev :: evs', by simpa using h1, fun z hz => ?_, fun z o hz => ?_⟩
        · rw [show evs ++ ev :: evs' = evs ++ [ev] ++ evs' by simp]
          rcases he.call z with h4 | ⟨-, h4⟩ | ⟨-, o, h4⟩
          · exact h2 z (by unfold CallOpen at hz ⊢; rw [h4]; exact hz)
          · exact h2 z (.inr h4)
          · exact ⟨o, h3 z o h4⟩
        · rw [show evs ++ ev :: evs' = evs ++ [ev] ++ evs' by simp]
          refine h3 z o ?_
          rcases he.call z with h4 | ⟨h4, -⟩ | ⟨h4, -⟩
          · rw [h4]; exact hz
          · rw [h4] at hz; cases hz
          · rw [h4] at hz; cases hz
      · exact ⟨[], by simpa using hw, fun x hx => absurd ⟨x, hx⟩ ho, fun x o hx => by simpa using hx⟩
  obtain ⟨evs', h1, h2, -⟩ := main _ evs hw hs rfl
  exact ⟨evs', h1, h2⟩

/-! ### Thirty methods that wait for calls in the queue -/

theorem cancelled_stays {svc : Services} {reg : Registry} {x : Nat × Nat} (evs evs' : List SrvEv)
    (h : (srvRun svc reg evs).futSt x = some .cancelled) : (srvRun svc reg (evs ++ evs')).futSt x = some .cancelled := by
  induction evs' using snoc_induct with
  | nil => simpa using h
  | snoc l e ih =>
    rw [← List.append_assoc, srvRun_snoc]
    rcases srv_futSt_step (svc := svc) (SrvInv.run svc reg (evs ++ l)) e x _ ih with h1 | ⟨h1, -⟩ | ⟨h1, -⟩ | ⟨h1, -⟩
    · exact h1
    all_goals cases h1

/-- C142: when each of thirty running methods waits for a call that is in the queue, then, whatever happens - more
connections, more calls, time passing -, none of these methods ends and none of the calls in the queue is started, unless
one of the latter is cancelled. -/
theorem C142_deadlock (svc : Services) (reg : Registry) (needs : Nat × Nat → List (Nat × Nat)) (evs evs' : List SrvEv)
    (hw : MethodsWait svc reg needs (evs ++ evs')) (hb : (srvRun svc reg evs).running.length = 30)
    (hn : ∀ x ∈ (srvRun svc reg evs).running, ∃ y ∈ needs x, (srvRun svc reg evs).futSt y = some .queued)
    (hc : ∀ y, (srvRun svc reg evs).futSt y = some .queued → (srvRun svc reg (evs ++ evs')).futSt y ≠ some .cancelled) :
    (srvRun svc reg (evs ++ evs')).running = (srvRun svc reg evs).running ∧
    ∀ y, (srvRun svc reg evs).futSt y = some .queued → (srvRun svc reg (evs ++ evs')).futSt y = some .queued := by
  induction evs' using snoc_induct with
  | nil => simp
  | snoc l e ih =>
    rw [← List.append_assoc] at hw hc ⊢
    obtain ⟨h1, h2⟩ := ih hw.prefix (fun y hy hcy => hc y hy (cancelled_stays _ _ hcy))
    have hi := SrvInv.run svc reg (evs ++ l)
    have hrun : (srvRun svc reg (evs ++ l ++ [e])).running = (srvRun svc reg (evs ++ l)).running := by
      rw [srvRun_snoc]
      by_cases he : ∃ c k o, e = .finish c k o
      · obtain ⟨c, k, o, rfl⟩ := he
        have hans := hw (evs ++ l) [] c k o rfl
        unfold srvStep
        dsimp only
        rw [if_neg]
        intro hm
        rw [h1] at hm
        obtain ⟨y, hy, hq⟩ := hn _ hm
        have := h2 y hq
        rcases hans y hy with ⟨o', h3⟩ | h3 <;> rw [h3] at this <;> cases this
      · exact busy_running (by rw [h1]; exact hb) e fun c k o h => he ⟨c, k, o, h⟩
    refine ⟨hrun.trans h1, fun y hy => ?_⟩
    have hq := h2 y hy
    rw [srvRun_snoc]
    rcases srv_futSt_step (svc := svc) hi e y _ hq with h3 | ⟨-, h3⟩ | ⟨-, -, h3, -⟩ | ⟨h3, -⟩
    · exact h3
    · exact absurd (by rw [srvRun_snoc]; exact h3) (hc y hy)
    · rw [h1, hb] at h3; exact absurd h3 (by decide)
    · cases h3

/-- the first thirty calls on a connection wait for the thirty-first -/
def exNeeds (x : Nat × Nat) : List (Nat × Nat) := if x.1 = 0 ∧ x.2 < 30 then [(0, 30)] else []

set_option maxRecDepth 40000 in
theorem exStuck_running : (srvRun exServices exReg exStuck).running = (List.range 30).map fun k => (0, k) := by
  decide +kernel

set_option maxRecDepth 40000 in
theorem exStuck_queue : (srvRun exServices exReg exStuck).queue = [(0, 30)] := by
  decide +kernel

theorem exStuck_waits (needs : Nat × Nat → List (Nat × Nat)) : MethodsWait exServices exReg needs exStuck := by
  have hno : ∀ c k o, SrvEv.finish c k o ∉ exStuck := by
    intro c k o hm
    unfold exStuck at hm
    rcases List.mem_cons.1 hm with h | h
    · cases h
    · obtain ⟨l, hl, hm⟩ := List.mem_flatten.1 h
      obtain ⟨i, -, rfl⟩ := List.mem_map.1 hl
      simp [exSubmit] at hm
  intro pre post c k o e
  exact absurd (by rw [e]; simp) (hno c k o)

/-- C142 is violated: thirty methods that wait for one call to the same listener wait for ever. -/
theorem C142_violated : ¬ C142_full := by
  intro hf
  have hst := exStuck_run.1
  obtain ⟨evs', hw, hfin⟩ := hf exServices exReg exNeeds (fun x => if x = (0, 30) then 0 else 1) exStuck (exStuck_waits _) (by
    refine ⟨fun x _ y hy => ?_, fun x y hy => ?_⟩
    · unfold exNeeds at hy
      split at hy
      · rw [List.mem_singleton.1 hy, hst]; rfl
      · cases hy
    · unfold exNeeds at hy
      split at hy
      · next h =>
        rw [List.mem_singleton.1 hy, if_pos rfl, if_neg (by rintro rfl; exact absurd h.2 (by decide))]
        decide
      · cases hy)
  obtain ⟨o, ho⟩ := hfin (0, 30) (.inl hst)
  have hn : ∀ x ∈ (srvRun exServices exReg exStuck).running,
      ∃ y ∈ exNeeds x, (srvRun exServices exReg exStuck).futSt y = some .queued := by
    intro x hx
    rw [exStuck_running] at hx
    obtain ⟨k, hk, rfl⟩ := List.mem_map.1 hx
    exact ⟨(0, 30), by unfold exNeeds; rw [if_pos ⟨rfl, List.mem_range.1 hk⟩]; simp, hst⟩
  have honly : ∀ y, (srvRun exServices exReg exStuck).futSt y = some .queued → y = (0, 30) := by
    intro y hy
    have := queued_mem (SrvInv.run _ _ _) hy
    rw [exStuck_queue] at this
    exact List.mem_singleton.1 this
  have hq := (C142_deadlock exServices exReg exNeeds exStuck evs' hw exStuck_run.2.1 hn (fun y hy hc => by
    rw [honly y hy, ho] at hc; cases hc)).2 (0, 30) hst
  rw [ho] at hq
  cases hq

/-- Thirty methods run and one call is queued; only the first method waits for the queued call: all can end. -/
example : ∃ evs', MethodsWait exServices exReg (fun x => if x = (0, 0) then [(0, 30)] else []) (exStuck ++ evs') ∧
    ∀ x, CallOpen (srvRun exServices exReg exStuck) x →
      ∃ o, (srvRun exServices exReg (exStuck ++ evs')).futSt x = some (.finished o) := by
  refine C142_few_partial exServices exReg _ (fun x => if x = (0, 30) then 0 else 1) exStuck (exStuck_waits _)
    ⟨fun x _ y hy => ?_, fun x y hy => ?_⟩ [(0, 0)] (by decide) (fun x hx => ?_)
  · split at hy
    · rw [List.mem_singleton.1 hy, exStuck_run.1]; rfl
    · cases hy
  · split at hy
    · next h => rw [List.mem_singleton.1 hy, h]; decide
    · cases hy
  · split at hx
    · next h => rw [h]; simp
    · exact absurd rfl hx

end Bolt
