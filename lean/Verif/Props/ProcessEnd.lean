import Verif.Model.ProcessEnd
import Verif.Props.AioServer
/-!
# C196: the end of a process with an asyncio listener
-/
namespace Bolt
open Spec

namespace Spec

/-- the schedule of the listener in a schedule of the process -/
def ofListener (evs : List EndEv) : List SrvEv := evs.filterMap fun e => match e with | .ev e => some e | _ => none

/-- no method of the pool returns -/
def NoReturn (x : Nat × Nat) (evs : List EndEv) : Prop := ∀ o, EndEv.ev (.finish x.1 x.2 o) ∉ evs

/-- something only a thread of the pool does, or the end -/
def poolOnly : EndEv → Bool
  | .ev .take | .ev (.finish _ _ _) | .dies => true
  | _ => false

end Spec

/-- C196 as listed: when the process is over, every request whose call was given to the pool has been dealt with. -/
def C196_full : Prop :=
  ∀ (svc : Services) (reg : Registry) (evs : List EndEv) (c i : Nat) (l : LSt) (t : Task) (d : Option Int),
    (endRun svc reg evs).over = true → (endRun svc reg evs).srv.conns[c]? = some l → l.tasks[i]? = some t →
    t.st ≠ .waiting d

theorem endRun_append (svc : Services) (reg : Registry) (evs more : List EndEv) :
    endRun svc reg (evs ++ more) = more.foldl (endStep svc) (endRun svc reg evs) := by
  unfold endRun; rw [List.foldl_append]

theorem dispatchR_futs (svc : Services) (s : LSt) (i : Nat) (t : Task) (r : Req) (f : PyStr) :
    (s.dispatchR svc i t r f).futs = s.futs := by
  unfold LSt.dispatchR LSt.setTask
  dsimp only
  repeat' split
  all_goals rfl

/-- Once the pool takes nothing any more, an event of the loop leaves queue, threads and submissions as they are. -/
theorem lstep_futs_length (svc : Services) (l : LSt) (e : LEv) (h : ∀ i f, e ≠ .run i f) :
    (lstep svc l e).futs.length = l.futs.length := by
  cases e with
  | run i f => exact absurd rfl (h i f)
  | reader =>
    simp only [lstep]
    unfold LSt.reader LSt.write LSt.perform
    dsimp only
    repeat' split
    all_goals rfl
  | write i =>
    simp only [lstep]
    unfold LSt.write LSt.setTask
    repeat' split
    all_goals rfl
  | expire i =>
    simp only [lstep]
    unfold LSt.cancelFut LSt.setFut LSt.setTask
    repeat' split
    all_goals first | rfl | simp
  | result i =>
    simp only [lstep]
    unfold LSt.setTask
    repeat' split
    all_goals rfl
  | futStart k => simp only [lstep]; unfold LSt.setFut; split <;> simp
  | futFinish k o => simp only [lstep]; unfold LSt.setFut; split <;> simp
  | data bs => simp only [lstep]; split <;> rfl
  | _ => rfl

/-- an event of one connection that leaves the calls as they are -/
theorem refuseStep_run {s : SrvSt} {c : Nat} {l l' : LSt} (hl : s.conns[c]? = some l) (hf : l'.futs = l.futs) (x : Nat × Nat) :
    ({ s with conns := s.conns.set c l' } : SrvSt).futSt x = s.futSt x := by
  unfold SrvSt.futSt
  dsimp only
  by_cases e : c = x.1
  · subst e
    rw [List.getElem?_set_self (List.getElem?_eq_some_iff.1 hl).1, hl]
    simp only [Option.bind_some, LSt.futSt, hf]
  · rw [List.getElem?_set_ne e]

theorem refuseStep_inv (svc : Services) {s : SrvSt} (h : SrvInv s) (e : SrvEv) : SrvInv (refuseStep svc s e) := by
  unfold refuseStep
  split
  · next c i f =>
    repeat' split
    all_goals first
      | exact h
      | skip
    exact h.same (refuseStep_run (by assumption) (dispatchR_futs ..)) rfl rfl rfl
  · exact h.step e

theorem refuseStep_subs (svc : Services) (s : SrvSt) (e : SrvEv) : (refuseStep svc s e).subs = s.subs := by
  unfold refuseStep
  split
  · repeat' split
    all_goals rfl
  · next h =>
    cases e with
    | conn c e =>
      simp only [srvStep]
      repeat' split
      · rfl
      · next l hl =>
        have hn : submitted c l (lstep svc l e) = [] := by
          unfold submitted
          rw [lstep_futs_length svc l e (fun i f he => h c i f (by rw [he])), Nat.sub_self]
          rfl
        show s.subs ++ _ = _
        rw [hn, List.append_nil]
      · rfl
    | take =>
      simp only [srvStep]
      repeat' split
      all_goals rfl
    | finish c k o => simp only [srvStep]; split <;> rfl
    | accept => simp only [srvStep]; split <;> rfl
    | _ => rfl

/-- what holds at any time -/
structure EndInv (s : EndSt) : Prop where
  srv : SrvInv s.srv
  over : s.over = true → s.ending = true ∧ s.srv.queue = [] ∧ s.srv.running = []

theorem EndInv.step (svc : Services) {s : EndSt} (h : EndInv s) (e : EndEv) : EndInv (endStep svc s e) := by
  cases e with
  | ev e =>
    simp only [endStep]
    by_cases ho : s.over = true
    · rw [if_pos ho]; exact h
    · rw [if_neg ho]
      split
      · exact ⟨refuseStep_inv svc h.srv e, fun h' => absurd h' ho⟩
      · exact ⟨h.srv.step e, fun h' => absurd h' ho⟩
  | mainEnds => exact ⟨h.srv, fun h' => ⟨rfl, (h.over h').2⟩⟩
  | dies =>
    simp only [endStep]
    split
    · next hc =>
      simp only [Bool.and_eq_true, List.isEmpty_iff] at hc
      exact ⟨h.srv, fun _ => ⟨hc.1.1, hc.1.2, hc.2⟩⟩
    · exact h

theorem EndInv.steps (svc : Services) {s : EndSt} (h : EndInv s) (evs : List EndEv) : EndInv (evs.foldl (endStep svc) s) := by
  induction evs generalizing s with
  | nil => exact h
  | cons e evs ih => exact ih (h.step svc e)

theorem EndInv.run (svc : Services) (reg : Registry) (evs : List EndEv) : EndInv (endRun svc reg evs) :=
  EndInv.steps svc ⟨SrvInv.init reg, fun h => by cases h⟩ evs

theorem endStep_ending (svc : Services) (s : EndSt) (e : EndEv) (h : s.ending = true) : (endStep svc s e).ending = true := by
  cases e with
  | ev e => simp only [endStep]; repeat' split
            all_goals exact h
  | mainEnds => rfl
  | dies => simp only [endStep]; split <;> exact h

/-- C196, what holds: when the process is over, every call that was ever given to the pool has been executed, or had been
given up by its deadline before a thread took it. Missing: that the response has been written (`C196_violated`). -/
theorem C196_executed_partial (svc : Services) (reg : Registry) (evs : List EndEv) (x : Nat × Nat)
    (ho : (endRun svc reg evs).over = true) (hx : x ∈ (endRun svc reg evs).srv.subs) :
    (∃ o, (endRun svc reg evs).srv.futSt x = some (.finished o)) ∨ (endRun svc reg evs).srv.futSt x = some .cancelled := by
  have h := EndInv.run svc reg evs
  generalize endRun svc reg evs = s at *
  obtain ⟨-, hq, hr⟩ := h.over ho
  have h1 := (h.srv.subs x).1 hx
  obtain ⟨pre, h2, h3⟩ := h.srv.queue
  rw [hq, List.append_nil] at h2
  have h4 : s.srv.futSt x ≠ some .queued := h3 x (h2 ▸ hx)
  have h5 : s.srv.futSt x ≠ some .running := by
    intro he
    have := (h.srv.running x).2 he
    rw [hr] at this
    cases this
  cases hs : s.srv.futSt x with
  | none => rw [hs] at h1; cases h1
  | some st =>
    cases st with
    | queued => exact absurd hs h4
    | running => exact absurd hs h5
    | finished o => exact .inl ⟨o, rfl⟩
    | cancelled => exact .inr rfl

/-- C196. From the end of the main thread on, nothing is given to the pool any more. -/
theorem C196_closed (svc : Services) (reg : Registry) (evs more : List EndEv) (h : (endRun svc reg evs).ending = true) :
    (endRun svc reg (evs ++ more)).srv.subs = (endRun svc reg evs).srv.subs := by
  rw [endRun_append]
  generalize endRun svc reg evs = s at *
  induction more generalizing s with
  | nil => rfl
  | cons e more ih =>
    rw [List.foldl_cons, ih _ (endStep_ending svc s e h)]
    cases e with
    | ev e =>
      simp only [endStep]
      split
      · rfl
      · exact refuseStep_subs svc s.srv e
    | mainEnds => rfl
    | dies => simp only [endStep]; split <;> rfl

theorem toWrite_no_wait (m : Except PyExc Bytes) (d : Option Int) : toWrite m ≠ .waiting d := by
  unfold toWrite; split <;> (intro h; cases h)

/-- C196, the refusal exactly: what `_dispatch` does before it gives the call to the pool it does as ever, with the same
result if it does not get there; if it does, SERVER_EXCEPTION is to be written and no call is queued. -/
theorem C196_refusal (svc : Services) (s : LSt) (i : Nat) (t : Task) (r : Req) (fresh : PyStr) :
    (s.dispatchR svc i t r fresh = s.dispatch svc i t r fresh ∧ (s.dispatch svc i t r fresh).futs = s.futs) ∨
    (∃ x, (s.dispatch svc i t r fresh).futs = s.futs ++ [x]) ∧
      s.dispatchR svc i t r fresh = { s with
        heap := (s.dispatch svc i t r fresh).heap
        tasks := s.tasks.set i { t with st := toWrite (failMsg r.id .serverException), fate := some (.failed .other),
                                        ran := some s.reg } } := by
  unfold LSt.dispatchR LSt.dispatch
  cases serviceOf r.header with
  | none => exact .inl ⟨rfl, rfl⟩
  | some service =>
    cases methodOf r.header with
    | none => exact .inl ⟨rfl, rfl⟩
    | some method =>
      cases extract s.heap fresh r.header with
      | error e => exact .inl ⟨rfl, rfl⟩
      | ok hc =>
        obtain ⟨heap, ctx⟩ := hc
        dsimp only
        cases findMethod svc s.reg heap ctx service method with
        | error e => cases e <;> exact .inl ⟨rfl, rfl⟩
        | ok f =>
          refine .inr ⟨?_, ?_⟩
          · dsimp only
            split <;> exact ⟨_, rfl⟩
          · dsimp only
            split <;> rfl

/-- C196. A request whose turn comes after the end of the main thread is refused at once: its task has an answer to write or
has ended, and none waits for the pool. -/
theorem C196_refused (svc : Services) (s : EndSt) (c i : Nat) (l : LSt) (t : Task) (r : Req) (fresh : PyStr)
    (hs : s.ending = true) (ho : s.over = false) (hl : s.srv.conns[c]? = some l) (ht : l.tasks[i]? = some t)
    (hn : t.st = .new) (hk : t.kind = .dispatch r) :
    ∃ (l' : LSt) (t' : Task), (endStep svc s (.ev (.conn c (.run i fresh)))).srv.conns[c]? = some l' ∧
      l'.tasks[i]? = some t' ∧ t'.fut = t.fut ∧
      (t'.st = toWrite (failMsg r.id .clientSendError) ∨ t'.st = .ended ∨ t'.st = toWrite (failMsg r.id .noProcessor) ∨
        t'.st = toWrite (failMsg r.id .serverException)) ∧ ∀ d, t'.st ≠ .waiting d := by
  have e : endStep svc s (.ev (.conn c (.run i fresh))) =
      { s with srv := { s.srv with conns := s.srv.conns.set c (l.dispatchR svc i t r fresh) } } := by
    simp only [endStep]
    rw [if_neg (by simp [ho]), if_pos hs]
    simp only [refuseStep, hl, ht, hn, hk]
  have hlt : i < l.tasks.length := (List.getElem?_eq_some_iff.1 ht).1
  have key : ∃ t' : Task, (l.dispatchR svc i t r fresh).tasks[i]? = some t' ∧ t'.fut = t.fut ∧
      (t'.st = toWrite (failMsg r.id .clientSendError) ∨ t'.st = .ended ∨ t'.st = toWrite (failMsg r.id .noProcessor) ∨
        t'.st = toWrite (failMsg r.id .serverException)) := by
    unfold LSt.dispatchR LSt.setTask
    dsimp only
    repeat' split
    all_goals first
      | exact ⟨_, List.getElem?_set_self hlt, rfl, .inl (by with_reducible rfl)⟩
      | exact ⟨_, List.getElem?_set_self hlt, rfl, .inr (.inl (by with_reducible rfl))⟩
      | exact ⟨_, List.getElem?_set_self hlt, rfl, .inr (.inr (.inl (by with_reducible rfl)))⟩
      | exact ⟨_, List.getElem?_set_self hlt, rfl, .inr (.inr (.inr (by with_reducible rfl)))⟩
  obtain ⟨t', h1, h2, h3⟩ := key
  refine ⟨_, t', ?_, h1, h2, h3, fun d => ?_⟩
  · rw [e]; exact List.getElem?_set_self (List.getElem?_eq_some_iff.1 hl).1
  · rcases h3 with h | h | h | h <;> rw [h]
    · exact toWrite_no_wait _ _
    · intro h; cases h
    · exact toWrite_no_wait _ _
    · exact toWrite_no_wait _ _

/-- C196. A method that does not return keeps the process from ending, however long the main thread has been gone. -/
theorem C196_hangs (svc : Services) (reg : Registry) (evs more : List EndEv) (x : Nat × Nat)
    (hx : (endRun svc reg evs).srv.futSt x = some .running) (hn : NoReturn x more) :
    (endRun svc reg (evs ++ more)).over = false ∧ (endRun svc reg (evs ++ more)).srv.futSt x = some .running := by
  rw [endRun_append]
  have hi := EndInv.run svc reg evs
  generalize endRun svc reg evs = s at *
  have no : ∀ {s : EndSt}, EndInv s → s.srv.futSt x = some .running → s.over = false := by
    intro s hi hx
    cases ho : s.over with
    | false => rfl
    | true =>
      have := (hi.srv.running x).2 hx
      rw [(hi.over ho).2.2] at this
      cases this
  induction more generalizing s with
  | nil => exact ⟨no hi hx, hx⟩
  | cons e more ih =>
    have hn' : NoReturn x more := fun o hm => hn o (List.mem_cons_of_mem _ hm)
    refine ih hn' _ ?_ (hi.step svc e)
    have keep : ∀ e', (∀ o, e' ≠ .finish x.1 x.2 o) → (srvStep svc s.srv e').futSt x = some .running := by
      intro e' he
      rcases srv_futSt_step hi.srv e' x .running hx with h | ⟨h, -⟩ | ⟨h, -⟩ | ⟨-, o, h, -⟩
      · exact h
      · cases h
      · cases h
      · exact absurd h (he o)
    cases e with
    | ev e =>
      have he : ∀ o, e ≠ .finish x.1 x.2 o := fun o h => hn o (by rw [h]; exact List.mem_cons_self ..)
      simp only [endStep]
      rw [if_neg (by simp [no hi hx])]
      split
      · show (refuseStep svc s.srv e).futSt x = _
        unfold refuseStep
        split
        · repeat' split
          all_goals first
            | exact hx
            | skip
          rw [refuseStep_run (by assumption) (dispatchR_futs ..)]; exact hx
        · exact keep e he
      · exact keep e he
    | mainEnds => exact hx
    | dies => simp only [endStep]; split <;> exact hx

/-- C196. If its methods return, the process ends, by what the threads of the pool do alone. -/
theorem C196_ends (svc : Services) (reg : Registry) (evs : List EndEv) (h : (endRun svc reg evs).ending = true) :
    ∃ more, (∀ e ∈ more, poolOnly e = true) ∧ (endRun svc reg (evs ++ more)).over = true := by
  simp only [endRun_append]
  generalize endRun svc reg evs = s at *
  generalize hm : s.srv.queue.length * 2 + s.srv.running.length = m
  induction m using Nat.strongRecOn generalizing s with
  | _ m ih =>
    by_cases ho : s.over = true
    · exact ⟨[], (by simp), ho⟩
    have next : ∀ e, poolOnly e = true →
        (endStep svc s e).srv.queue.length * 2 + (endStep svc s e).srv.running.length < m →
        ∃ more : List EndEv, (∀ e ∈ more, poolOnly e = true) ∧ (more.foldl (endStep svc) s).over = true := by
      intro e he hlt
      obtain ⟨more, h1, h2⟩ := ih _ hlt (endStep svc s e) (endStep_ending svc s e h) rfl
      exact ⟨e :: more, fun e' hm' => by
        rcases List.mem_cons.1 hm' with h' | h'
        · rw [h']; exact he
        · exact h1 e' h', h2⟩
    cases hr : s.srv.running with
    | cons x xs =>
      refine next (.ev (.finish x.1 x.2 (.ret (.str [])))) rfl ?_
      have hmem : (x.1, x.2) ∈ s.srv.running := by rw [hr]; exact List.mem_cons_self ..
      simp only [endStep]
      rw [if_neg ho, if_pos h]
      simp only [refuseStep, srvStep, if_pos hmem]
      have hl := List.length_erase_of_mem hmem
      have h0 : 0 < s.srv.running.length := by rw [hr]; simp
      omega
    | nil =>
      cases hq : s.srv.queue with
      | cons y ys =>
        refine next (.ev .take) rfl ?_
        simp only [endStep]
        rw [if_neg ho, if_pos h]
        simp only [refuseStep, srvStep, hq, hr]
        rw [hq, hr] at hm
        simp only [List.length_cons, List.length_nil] at hm ⊢
        rw [if_pos (by decide)]
        split <;> (simp; omega)
      | nil =>
        refine ⟨[.dies], (by simp [poolOnly]), ?_⟩
        simp only [List.foldl_cons, List.foldl_nil, endStep]
        rw [if_pos (by simp [h, hq, hr])]

/-- C196. As long as the main thread runs, the listener is that of `Model/AioServer.lean`. -/
theorem C196_same (svc : Services) (reg : Registry) (evs : List EndEv) (h : EndEv.mainEnds ∉ evs) :
    endRun svc reg evs = { srv := srvRun svc reg (ofListener evs) } := by
  induction evs using snoc_induct with
  | nil => rfl
  | snoc evs e ih =>
    have ih := ih (fun hm => h (List.mem_append_left _ hm))
    rw [endRun_append, List.foldl_cons, List.foldl_nil, ih]
    cases e with
    | ev e =>
      have : ofListener (evs ++ [.ev e]) = ofListener evs ++ [e] := by unfold ofListener; rw [List.filterMap_append]; rfl
      rw [this, srvRun_snoc]
      rfl
    | mainEnds => exact absurd (List.mem_append_right _ (List.mem_singleton.2 rfl)) h
    | dies =>
      have : ofListener (evs ++ [.dies]) = ofListener evs := by unfold ofListener; rw [List.filterMap_append]; simp
      rw [this]
      rfl

/-! ## concrete cases -/

/-- a call is accepted, the main thread ends, the method returns, and the process is gone before the loop has written the
response -/
def exEndEvs : List EndEv :=
  .ev .accept :: (exSubmit 0).map .ev ++ [.mainEnds, .ev (.finish 0 0 (.ret (.str (py "x")))), .dies]

set_option maxRecDepth 40000 in
theorem exEnd_run : (endRun exServices exReg exEndEvs).over = true ∧
    ((endRun exServices exReg exEndEvs).srv.conns[0]?.bind fun l => l.tasks[0]?.map fun t => t.st) = some (.waiting (some 100)) ∧
    (endRun exServices exReg exEndEvs).srv.subs = [(0, 0)] := by
  decide +kernel

/-- C196 is violated: the process can be gone before the loop has answered a request that was accepted and executed. -/
theorem C196_violated : ¬ C196_full := by
  intro h
  obtain ⟨h1, h2, -⟩ := exEnd_run
  cases hl : (endRun exServices exReg exEndEvs).srv.conns[0]? with
  | none => rw [hl] at h2; cases h2
  | some l =>
    rw [hl] at h2
    obtain ⟨t, ht, hs⟩ := Option.map_eq_some_iff.1 h2
    exact h _ _ _ 0 0 l t (some 100) h1 hl ht hs

/-- non-vacuity of `C196_executed_partial`: the call of `exEndEvs` was executed -/
example : (endRun exServices exReg exEndEvs).over = true ∧ (0, 0) ∈ (endRun exServices exReg exEndEvs).srv.subs := by
  obtain ⟨h1, -, h3⟩ := exEnd_run
  exact ⟨h1, by rw [h3]; exact List.mem_cons_self ..⟩

set_option maxRecDepth 40000 in
/-- non-vacuity of `C196_hangs` and `C196_closed`: the main thread has ended while a method runs -/
example : (endRun exServices exReg (.ev .accept :: (exSubmit 0).map .ev ++ [.mainEnds])).srv.futSt (0, 0) = some .running ∧
    (endRun exServices exReg (.ev .accept :: (exSubmit 0).map .ev ++ [.mainEnds])).ending = true ∧
    NoReturn (0, 0) [.dies, .ev (.tick 100), .dies] :=
  ⟨by decide +kernel, by decide +kernel, fun o h => by simp at h⟩

set_option maxRecDepth 40000 in
/-- non-vacuity of `C196_refused`: a request whose task has not started when the main thread ends is refused -/
example : ((endRun exServices exReg (.ev .accept :: .mainEnds :: (exSubmit 0).map .ev)).srv.conns[0]?.bind fun l =>
      l.tasks[0]?.map fun t => (t.fate, t.fut)) = some (some (.failed .other), none) := by
  decide +kernel

end Bolt
