import Verif.Model.CoroExecutor
import Verif.Props.AioServer
/-!
# C163: the server of performance_aio.py

Methods run on the event loop: one at a time, in the order in which the calls were submitted. A call answered TIMEOUT is
never run, and a call that is run is answered with what it gave. The numbers printed add up.
-/
namespace Bolt
open Spec

/-! ## Events of the listener -/

/-- the calls of a connection keep their methods -/
theorem lstep_func (svc : Services) (l : LSt) (e : LEv) (k f : Nat) (h : (l.futs[k]?).map Fut.func = some f) :
    ((lstep svc l e).futs[k]?).map Fut.func = some f := by
  have set : ∀ (l' : LSt) (k' : Nat) (st : FutSt), (l'.futs[k]?).map Fut.func = some f →
      ((l'.setFut k' st).futs[k]?).map Fut.func = some f := by
    intro l' k' st h'
    unfold LSt.setFut
    dsimp only
    rw [List.getElem?_modify]
    split
    · cases hk : l'.futs[k]? with
      | none => rw [hk] at h'; cases h'
      | some y => rw [hk] at h'; exact h'
    · cases hk : l'.futs[k]? with
      | none => rw [hk] at h'; cases h'
      | some y => rw [hk] at h'; exact h'
  have same : (lstep svc l e).futs = l.futs → ((lstep svc l e).futs[k]?).map Fut.func = some f := fun he => by
    rw [he]; exact h
  cases e with
  | data bs => exact same (by unfold lstep; dsimp only; split <;> rfl)
  | eof => exact h
  | reset => exact h
  | reader => exact same (reader_futs l)
  | run i fresh =>
    unfold lstep
    dsimp only
    split
    · next t ht =>
      split
      · next r h1 h2 =>
        rcases dispatch_futs svc l i t r fresh with h3 | ⟨g, -, h3⟩
        · rw [h3]; exact h
        · rw [h3, List.getElem?_append_left]
          · exact h
          · apply Nat.lt_of_not_le
            intro hle
            rw [List.getElem?_eq_none hle] at h
            cases h
      · exact h
    · exact h
  | result i =>
    refine same ?_
    unfold lstep LSt.setTask
    dsimp only
    repeat' split
    all_goals rfl
  | write i =>
    refine same ?_
    unfold lstep LSt.setTask
    dsimp only
    repeat' split
    all_goals first | rfl | exact write_futs _ _ _
  | expire i =>
    unfold lstep
    dsimp only
    split
    · split
      · split
        · show (((l.cancelFut _).futs)[k]?).map Fut.func = some f
          unfold LSt.cancelFut
          split
          · exact set _ _ _ h
          · exact h
        · exact h
      · exact h
    · exact h
  | futStart k' => unfold lstep; dsimp only; split <;> first | exact set _ _ _ h | exact h
  | futFinish k' o => unfold lstep; dsimp only; split <;> first | exact set _ _ _ h | exact h
  | tick d => exact h
  | register r => exact h

/-- the calls of a listener keep their methods -/
theorem srvStep_func (svc : Services) (s : SrvSt) (e : SrvEv) (x : Nat × Nat) (f : Nat) (h : s.func x = some f) :
    (srvStep svc s e).func x = some f := by
  unfold SrvSt.func at h
  obtain ⟨l, hl, h1⟩ := Option.bind_eq_some_iff.1 h
  have hlt := (List.getElem?_eq_some_iff.1 hl).1
  have mod : ∀ (c : Nat) (ev : LEv), ((s.conns.modify c fun l => lstep svc l ev)[x.1]?).bind
      (fun l => (l.futs[x.2]?).map Fut.func) = some f := by
    intro c ev
    rw [List.getElem?_modify, hl]
    by_cases hc : c = x.1
    · simp only [hc, if_true]; exact lstep_func svc l ev _ _ h1
    · simp only [hc, if_false]; exact h1
  have map : ∀ (ev : LEv), ((s.conns.map fun l => lstep svc l ev)[x.1]?).bind
      (fun l => (l.futs[x.2]?).map Fut.func) = some f := by
    intro ev
    rw [List.getElem?_map, hl]
    exact lstep_func svc l ev _ _ h1
  cases e with
  | accept =>
    unfold srvStep SrvSt.func
    dsimp only
    split
    · dsimp only; rw [List.getElem?_append_left hlt]; exact h
    · exact h
  | conn c e =>
    unfold srvStep SrvSt.func
    dsimp only
    split
    · split
      · exact h
      · next l' hl' =>
        dsimp only
        by_cases hc : c = x.1
        · subst hc
          rw [List.getElem?_set_self hlt]
          rw [hl] at hl'
          injection hl' with hl'
          subst hl'
          exact lstep_func svc l e _ _ h1
        · rw [List.getElem?_set_ne hc]; exact h
    · exact h
  | take =>
    unfold srvStep SrvSt.func
    dsimp only
    split
    · exact h
    · split
      · split
        · exact mod _ _
        · exact h
      · exact h
  | finish c k o =>
    unfold srvStep SrvSt.func
    dsimp only
    split
    · exact mod _ _
    · exact h
  | tick d => exact map _
  | register r => exact map _
  | shutdown => exact h

/-- what is no event of the pool takes nothing out of the queue -/
theorem srvStep_outside (svc : Services) (s : SrvSt) (e : SrvEv) (he : e.isPool = false) :
    (∃ new, (srvStep svc s e).subs = s.subs ++ new ∧ (srvStep svc s e).queue = s.queue ++ new) ∧
    (srvStep svc s e).running = s.running := by
  have same : ∀ s' : SrvSt, s'.subs = s.subs → s'.queue = s.queue → s'.running = s.running →
      (∃ new, s'.subs = s.subs ++ new ∧ s'.queue = s.queue ++ new) ∧ s'.running = s.running :=
    fun s' h1 h2 h3 => ⟨⟨[], by simp [h1], by simp [h2]⟩, h3⟩
  cases e with
  | accept => unfold srvStep; dsimp only; split <;> exact same _ rfl rfl rfl
  | conn c e =>
    unfold srvStep
    dsimp only
    split
    · split
      · exact same _ rfl rfl rfl
      · exact ⟨⟨_, rfl, rfl⟩, rfl⟩
    · exact same _ rfl rfl rfl
  | take => cases he
  | finish => cases he
  | tick | register | shutdown => exact same _ rfl rfl rfl

/-! ## The run of a method -/

/-- a method has been run to its end -/
def Spec.overCall (s : SrvSt) (x : Nat × Nat) : Bool :=
  match s.futSt x with
  | some (.finished _) => true
  | _ => false

theorem overCall_iff {s : SrvSt} {x : Nat × Nat} : overCall s x = true ↔ ∃ o, s.futSt x = some (.finished o) := by
  unfold overCall
  split
  · next o h => simp [h]
  · next h => constructor
              · intro h'; cases h'
              · rintro ⟨o, h'⟩; exact absurd h' (h o)

/-- what the three steps of a method do to the listener -/
structure CoCallOk (s s' : SrvSt) (x : Nat × Nat) (q : List (Nat × Nat)) (o : Outcome) : Prop where
  queue : s'.queue = q
  running : s'.running = []
  subs : s'.subs = s.subs
  fut : ∀ y, s'.futSt y = if y = x then some (.finished o) else s.futSt y
  tasks : ∀ (c : Nat) (l' : LSt), s'.conns[c]? = some l' → ∃ l : LSt, s.conns[c]? = some l ∧ l'.tasks = l.tasks

theorem modify_tasks {svc : Services} {cs : List LSt} {c : Nat} {e : LEv} (he : ∀ l, (lstep svc l e).tasks = l.tasks)
    {d : Nat} {l' : LSt} (h : (cs.modify c fun l => lstep svc l e)[d]? = some l') :
    ∃ l, cs[d]? = some l ∧ l'.tasks = l.tasks := by
  rw [List.getElem?_modify] at h
  split at h
  · obtain ⟨l, h1, rfl⟩ := Option.map_eq_some_iff.1 h
    exact ⟨l, h1, he l⟩
  · obtain ⟨l, h1, rfl⟩ := Option.map_eq_some_iff.1 h
    exact ⟨l, h1, rfl⟩

theorem srv_call {svc : Services} {s : SrvSt} (hi : SrvInv s) (hr : s.running = []) {x : Nat × Nat} {q : List (Nat × Nat)}
    (hq : s.queue = x :: q) (hx : s.futSt x = some .queued) (d : Nat) (o : Outcome) :
    CoCallOk s (srvStep svc (srvStep svc (srvStep svc s .take) (.tick d)) (.finish x.1 x.2 o)) x q o := by
  have e1 : srvStep svc s .take = { s with queue := q, running := [x], conns := s.conns.modify x.1 fun l => lstep svc l (.futStart x.2) } := by
    show (match s.queue with | [] => _ | x :: q => _) = _
    rw [hq]
    dsimp only
    rw [hr, if_pos (by unfold maxWorker; decide), if_pos hx]
    rfl
  have f1 : ∀ y, (srvStep svc s .take).futSt y = if y = x then some .running else s.futSt y := by
    intro y
    rw [e1]
    exact futSt_set_one (svc := svc) s x (.futStart x.2) .running (fun l hl => by
      have : l.futSt x.2 = some .queued := by unfold SrvSt.futSt at hx; rw [hl] at hx; exact hx
      show (if _ then _ else _) = _
      rw [if_pos this]) (by rw [hx]; rfl) y
  have t1 : ∀ (c : Nat) (l' : LSt), (srvStep svc s .take).conns[c]? = some l' → ∃ l : LSt, s.conns[c]? = some l ∧ l'.tasks = l.tasks := by
    intro c l' h
    rw [e1] at h
    exact modify_tasks (fun l => by unfold lstep; dsimp only; split <;> rfl) h
  have r1 : (srvStep svc s .take).running = [x] := by rw [e1]
  have q1 : (srvStep svc s .take).queue = q := by rw [e1]
  have b1 : (srvStep svc s .take).subs = s.subs := by rw [e1]
  have i1 := hi.step (svc := svc) .take
  generalize srvStep svc s .take = s1 at f1 t1 r1 q1 b1 i1
  have f2 : ∀ y, (srvStep svc s1 (.tick d)).futSt y = s1.futSt y := fun y =>
    futSt_map s1 (fun l => lstep svc l (.tick d)) (fun l => rfl) y
  have t2 : ∀ (c : Nat) (l' : LSt), (srvStep svc s1 (.tick d)).conns[c]? = some l' → ∃ l : LSt, s1.conns[c]? = some l ∧ l'.tasks = l.tasks := by
    intro c l' h
    have h : (s1.conns.map fun l => lstep svc l (.tick d))[c]? = some l' := h
    rw [List.getElem?_map] at h
    obtain ⟨l, h1, rfl⟩ := Option.map_eq_some_iff.1 h
    exact ⟨l, h1, rfl⟩
  have r2 : (srvStep svc s1 (.tick d)).running = [x] := r1
  have q2 : (srvStep svc s1 (.tick d)).queue = q := q1
  have b2 : (srvStep svc s1 (.tick d)).subs = s.subs := b1
  generalize srvStep svc s1 (.tick d) = s2 at f2 t2 r2 q2 b2
  have hm : (x.1, x.2) ∈ s2.running := by rw [r2]; simp
  have hrun : s2.futSt x = some .running := by rw [f2, f1, if_pos rfl]
  have e3 : srvStep svc s2 (.finish x.1 x.2 o) = { s2 with running := s2.running.erase x, conns := s2.conns.modify x.1 fun l => lstep svc l (.futFinish x.2 o) } := by
    show (if _ then _ else _) = _
    rw [if_pos hm]
  rw [e3]
  refine ⟨q2, ?_, b2, fun y => ?_, fun c l' h => ?_⟩
  · show s2.running.erase x = []
    rw [r2]; simp
  · have := futSt_set_one (svc := svc) s2 x (.futFinish x.2 o) (.finished o) (fun l hl => by
      have : l.futSt x.2 = some .running := by unfold SrvSt.futSt at hrun; rw [hl] at hrun; exact hrun
      show (if _ then _ else _) = _
      rw [if_pos this]) (by rw [hrun]; rfl) y
    refine Eq.trans this ?_
    by_cases hy : y = x
    · simp [hy]
    · rw [if_neg hy, if_neg hy, f2, f1, if_neg hy]
  · obtain ⟨l2, h1, h2⟩ := modify_tasks (fun l => by unfold lstep; dsimp only; split <;> rfl) h
    obtain ⟨l1, h3, h4⟩ := t2 c l2 h1
    obtain ⟨l, h5, h6⟩ := t1 c l1 h3
    exact ⟨l, h5, h2.trans (h4.trans h6)⟩

/-- a task that was cancelled is dropped -/
theorem srv_drop {svc : Services} {s : SrvSt} (hr : s.running = []) {x : Nat × Nat} {q : List (Nat × Nat)}
    (hq : s.queue = x :: q) (hx : s.futSt x ≠ some .queued) : srvStep svc s .take = { s with queue := q } := by
  show (match s.queue with | [] => _ | x :: q => _) = _
  rw [hq]
  dsimp only
  rw [hr, if_pos (by unfold maxWorker; decide), if_neg hx]

/-! ## What holds at every moment -/

structure CoInv (svc : Services) (hello : Nat → Bool) (reg : Registry) (s : CoSt) : Prop where
  real : ∃ evs, s.srv = srvRun svc reg evs
  none : s.srv.running = []
  expired : ∀ (c : Nat) (l : LSt) (j : Nat) (t : Task) (k : Nat), s.srv.conns[c]? = some l → l.tasks[j]? = some t →
    t.fate = some .expired → t.fut = some k → l.futSt k = some .cancelled
  ran : s.ran.map Prod.fst = s.srv.subs.filter (overCall s.srv)
  out : ∀ x o, (x, o) ∈ s.ran ↔ s.srv.futSt x = some (.finished o)
  func : ∀ p ∈ s.ran, (s.srv.func p.1).isSome = true
  count : s.count = (s.ran.map fun p => countOf hello (s.srv.func p.1) p.2).sum
  stop : ∀ x, (x, Outcome.raised .stopIteration) ∉ s.ran

theorem inCoro_stop (o : Outcome) : inCoro o ≠ .raised .stopIteration := by
  unfold inCoro
  split
  · intro h; cases h
  · next h => intro e; exact h e

theorem func_isSome {s : SrvSt} {x : Nat × Nat} : (s.func x).isSome = (s.futSt x).isSome := by
  unfold SrvSt.func SrvSt.futSt LSt.futSt
  cases s.conns[x.1]? with
  | none => rfl
  | some l => dsimp only [Option.bind_some]; cases l.futs[x.2]? <;> rfl

theorem CoInv.inv {svc : Services} {hello : Nat → Bool} {reg : Registry} {s : CoSt} (h : CoInv svc hello reg s) :
    SrvInv s.srv := by
  obtain ⟨evs, e⟩ := h.real
  rw [e]
  exact SrvInv.run svc reg evs

theorem CoInv.linv {svc : Services} {hello : Nat → Bool} {reg : Registry} {s : CoSt} (h : CoInv svc hello reg s) {c : Nat}
    {l : LSt} (hl : s.srv.conns[c]? = some l) : LInv svc l := by
  obtain ⟨evs, e⟩ := h.real
  rw [e] at hl
  obtain ⟨evs', h1, -⟩ := C104_alone svc reg evs c l hl
  rw [h1]
  exact LInv.run svc _ evs'

theorem count_keep {hello : Nat → Bool} {s s' : SrvSt} {ran : List ((Nat × Nat) × Outcome)}
    (hf : ∀ p ∈ ran, (s.func p.1).isSome = true) (hk : ∀ x f, s.func x = some f → s'.func x = some f) :
    (ran.map fun p => countOf hello (s'.func p.1) p.2) = ran.map fun p => countOf hello (s.func p.1) p.2 := by
  refine List.map_congr_left fun p hp => ?_
  obtain ⟨f, h1⟩ := Option.isSome_iff_exists.1 (hf p hp)
  rw [h1, hk _ _ h1]

/-- an event of the listener itself -/
theorem CoInv.ev {svc : Services} {hello : Nat → Bool} {reg : Registry} {s : CoSt} (h : CoInv svc hello reg s) (e : SrvEv)
    (hp : e.isPool = false) (hl : s.srv.tooLate e = false) :
    CoInv svc hello reg { s with srv := srvStep svc s.srv e } := by
  obtain ⟨⟨new, hsub, hque⟩, hrun⟩ := srvStep_outside svc s.srv e hp
  have hi := h.inv
  have hi' := hi.step (svc := svc) e
  have hfin : ∀ x st, s.srv.futSt x = some st → ∀ o, ((srvStep svc s.srv e).futSt x = some (.finished o) ↔ s.srv.futSt x = some (.finished o)) := by
    intro x st hx o
    rw [hx]
    rcases srv_futSt_step (svc := svc) hi e x st hx with h1 | ⟨h1, h2⟩ | ⟨h1, h2, -⟩ | ⟨h1, o', h2, -⟩
    · rw [h1]
    · rw [h1, h2]; constructor <;> (intro e; cases e)
    · rw [h2] at hp; cases hp
    · rw [h2] at hp; cases hp
  have hover : ∀ x o, (srvStep svc s.srv e).futSt x = some (.finished o) ↔ s.srv.futSt x = some (.finished o) := by
    intro x o
    constructor
    · intro hx
      have hmem : x ∈ (srvStep svc s.srv e).subs := (hi'.subs x).2 (by rw [hx]; rfl)
      rw [hsub] at hmem
      rcases List.mem_append.1 hmem with h1 | h1
      · obtain ⟨st, h2⟩ := Option.isSome_iff_exists.1 ((hi.subs x).1 h1)
        exact (hfin x st h2 o).1 hx
      · have := hi'.waiting x (by rw [hque]; exact List.mem_append_right _ h1)
        rw [hx] at this
        rcases this with h2 | h2 <;> cases h2
    · intro hx
      exact (hfin x _ hx o).2 hx
  have hoverb : ∀ x, overCall (srvStep svc s.srv e) x = overCall s.srv x := by
    intro x
    rw [Bool.eq_iff_iff, overCall_iff, overCall_iff]
    exact ⟨fun ⟨o, ho⟩ => ⟨o, (hover x o).1 ho⟩, fun ⟨o, ho⟩ => ⟨o, (hover x o).2 ho⟩⟩
  refine ⟨?_, ?_, ?_, ?_, ?_, ?_, ?_, ?_⟩
  · obtain ⟨evs, h1⟩ := h.real
    exact ⟨evs ++ [e], by rw [srvRun_snoc, ← h1]⟩
  · rw [hrun]; exact h.none
  · intro c l' j t k hc ht hf hk
    dsimp only at hc
    -- a step of one connection
    have one : ∀ (l : LSt) (ev : LEv), s.srv.conns[c]? = some l → l' = lstep svc l ev →
        (∀ i, ev = .expire i → ∀ (u : Task) (k' : Nat), l.tasks[i]? = some u → u.fut = some k' →
          ∀ o, l.futSt k' ≠ some (.finished o)) → l'.futSt k = some .cancelled := by
      intro l ev hlc hl' hg
      subst hl'
      have keep : l.futSt k = some .cancelled → (lstep svc l ev).futSt k = some .cancelled := by
        intro h0
        rcases futSt_lstep svc l ev k _ h0 with h3 | ⟨h3, -⟩ | ⟨h3, -⟩ | ⟨h3, -⟩
        · exact h3
        all_goals cases h3
      rcases expired_step (h.linv hlc) ev ht hf with ⟨u, h1, h2, h3⟩ | ⟨k', h1, h2, u, h3, h4, h5⟩
      · exact keep (h.expired c l j u k hlc h1 h2 (h3.trans hk))
      · rw [hk] at h1
        injection h1 with h1
        subst h1
        have h6 := hg j h3 u k h4 h5
        have hsome : (l.futSt k).isSome = true := by
          have h0 := (h.linv hlc).task j u h4
          unfold TaskOk at h0
          split at h0
          · rw [h5] at h0; cases h0.1
          · obtain ⟨f, -, -, -, -, -, h7, -⟩ := h0.2.2 k h5
            rw [futSt_isSome]
            exact (List.getElem?_eq_some_iff.1 h7).1
        obtain ⟨st, h7⟩ := Option.isSome_iff_exists.1 hsome
        have hsrv : s.srv.futSt (c, k) = some st := by unfold SrvSt.futSt; dsimp only; rw [hlc]; exact h7
        cases st with
        | finished o => exact absurd h7 (h6 o)
        | running =>
          have := (hi.running (c, k)).2 hsrv
          rw [h.none] at this
          cases this
        | cancelled => exact keep h7
        | queued =>
          rcases futSt_lstep svc l ev k _ h7 with h8 | ⟨-, h8⟩ | ⟨-, h8, -⟩ | ⟨h8, -⟩
          · exact absurd rfl (h2 _ h8)
          · exact h8
          · rw [h3] at h8; cases h8
          · cases h8
    cases e with
    | accept =>
      unfold srvStep at hc
      dsimp only at hc
      split at hc
      · dsimp only at hc
        rw [List.getElem?_append] at hc
        split at hc
        · exact h.expired c l' j t k hc ht hf hk
        · have h2 := List.mem_singleton.1 (List.mem_of_getElem? hc)
          rw [h2] at ht
          cases ht
      · exact h.expired c l' j t k hc ht hf hk
    | conn c0 ev =>
      unfold srvStep at hc
      dsimp only at hc
      split at hc
      · split at hc
        · exact h.expired c l' j t k hc ht hf hk
        · next l hl0 =>
          dsimp only at hc
          by_cases hcc : c0 = c
          · subst hcc
            rw [List.getElem?_set_self (List.getElem?_eq_some_iff.1 hl0).1] at hc
            injection hc with hc
            refine one l ev hl0 hc.symm ?_
            intro i hev u k' hu hk' o ho
            subst hev
            unfold SrvSt.tooLate at hl
            dsimp only at hl
            rw [hl0] at hl
            dsimp only at hl
            rw [hu] at hl
            dsimp only [Option.bind_some] at hl
            rw [hk'] at hl
            dsimp only at hl
            rw [ho] at hl
            cases hl
          · rw [List.getElem?_set_ne hcc] at hc
            exact h.expired c l' j t k hc ht hf hk
      · exact h.expired c l' j t k hc ht hf hk
    | take => cases hp
    | finish => cases hp
    | tick d =>
      have hc : (s.srv.conns.map fun l => lstep svc l (.tick d))[c]? = some l' := hc
      rw [List.getElem?_map] at hc
      obtain ⟨l, h1, h2⟩ := Option.map_eq_some_iff.1 hc
      exact one l (.tick d) h1 h2.symm (fun i hi => (by cases hi))
    | register r =>
      have hc : (s.srv.conns.map fun l => lstep svc l (.register r))[c]? = some l' := hc
      rw [List.getElem?_map] at hc
      obtain ⟨l, h1, h2⟩ := Option.map_eq_some_iff.1 hc
      exact one l (.register r) h1 h2.symm (fun i hi => (by cases hi))
    | shutdown => exact h.expired c l' j t k hc ht hf hk
  · dsimp only
    rw [h.ran, hsub, List.filter_append]
    have h1 : new.filter (overCall (srvStep svc s.srv e)) = [] := by
      rw [List.filter_eq_nil_iff]
      intro x hx ho
      obtain ⟨o, ho⟩ := overCall_iff.1 ho
      have := hi'.waiting x (by rw [hque]; exact List.mem_append_right _ hx)
      rw [ho] at this
      rcases this with h2 | h2 <;> cases h2
    rw [h1, List.append_nil]
    exact List.filter_congr fun x _ => (hoverb x).symm
  · intro x o
    dsimp only
    rw [hover]
    exact h.out x o
  · intro p hp'
    obtain ⟨f, h1⟩ := Option.isSome_iff_exists.1 (h.func p hp')
    dsimp only
    rw [srvStep_func svc _ e _ _ h1]
    rfl
  · dsimp only
    rw [count_keep h.func (fun x f => srvStep_func svc s.srv e x f)]
    exact h.count
  · exact h.stop

theorem CoInv.init (svc : Services) (hello : Nat → Bool) (reg : Registry) :
    CoInv svc hello reg { srv := { reg := reg } } where
  real := ⟨[], rfl⟩
  none := rfl
  expired := by intro c l j t k hc; cases hc
  ran := rfl
  out := by intro x o; constructor <;> (intro h; cases h)
  func := by intro p hp; cases hp
  count := rfl
  stop := by intro x h; cases h

theorem CoInv.step {svc : Services} {hello : Nat → Bool} {reg : Registry} {s : CoSt} (h : CoInv svc hello reg s) (e : CoEv) :
    CoInv svc hello reg (coStep svc hello s e) := by
  cases e with
  | print => exact ⟨h.real, h.none, h.expired, h.ran, h.out, h.func, h.count, h.stop⟩
  | ev e =>
    unfold coStep
    dsimp only
    split
    · exact h
    · next hc =>
      have hc : (e.isPool || s.srv.tooLate e) = false := by simpa using hc
      rw [Bool.or_eq_false_iff] at hc
      exact h.ev e hc.1 hc.2
  | call d o =>
    unfold coStep
    dsimp only
    have hst := inCoro_stop o
    generalize inCoro o = o at hst
    have hi := h.inv
    cases hq : s.srv.queue with
    | nil => exact h
    | cons x q =>
      dsimp only
      split
      · next hx =>
        have hk := srv_call (svc := svc) hi h.none hq hx d o
        have hfn : ∀ y f, s.srv.func y = some f →
            (srvStep svc (srvStep svc (srvStep svc s.srv .take) (.tick d)) (.finish x.1 x.2 o)).func y = some f :=
          fun y f hy => srvStep_func svc _ _ _ _ (srvStep_func svc _ _ _ _ (srvStep_func svc _ _ _ _ hy))
        have hreal : ∃ evs, srvStep svc (srvStep svc (srvStep svc s.srv .take) (.tick d)) (.finish x.1 x.2 o) = srvRun svc reg evs := by
          obtain ⟨evs, h1⟩ := h.real
          exact ⟨evs ++ [.take] ++ [.tick d] ++ [.finish x.1 x.2 o], by rw [srvRun_snoc, srvRun_snoc, srvRun_snoc, ← h1]⟩
        generalize srvStep svc (srvStep svc (srvStep svc s.srv .take) (.tick d)) (.finish x.1 x.2 o) = s' at hk hfn hreal
        have hxf : (s.srv.func x).isSome = true := by rw [func_isSome, hx]; rfl
        have hxn : ∀ o', (x, o') ∉ s.ran := fun o' hm => by
          have := (h.out x o').1 hm
          rw [hx] at this
          cases this
        refine ⟨hreal, hk.running, ?_, ?_, ?_, ?_, ?_, ?_⟩
        · intro c l' j t k hc ht hf hfk
          obtain ⟨l, h1, h2⟩ := hk.tasks c l' hc
          rw [h2] at ht
          have h3 := h.expired c l j t k h1 ht hf hfk
          have h4 : s.srv.futSt (c, k) = some .cancelled := by unfold SrvSt.futSt; dsimp only; rw [h1]; exact h3
          have h5 := hk.fut (c, k)
          rw [if_neg (by intro e; rw [e, hx] at h4; cases h4), h4] at h5
          unfold SrvSt.futSt at h5
          dsimp only at h5 hc
          rw [hc] at h5
          exact h5
        · dsimp only
          rw [List.map_append, h.ran, hk.subs]
          obtain ⟨pre, h1, h2⟩ := hi.queue
          have hnd := hi.nodup
          rw [hq] at h1
          rw [h1] at hnd ⊢
          have hne : ∀ y ∈ pre ++ q, y ≠ x := by
            intro y hy e
            subst e
            rw [List.nodup_append] at hnd
            rcases List.mem_append.1 hy with h3 | h3
            · exact hnd.2.2 y h3 y (by simp) rfl
            · exact (List.nodup_cons.1 hnd.2.1).1 h3
          have hsame : ∀ y ∈ pre ++ q, overCall s' y = overCall s.srv y := by
            intro y hy
            unfold overCall
            rw [hk.fut, if_neg (hne y hy)]
          have hx' : overCall s' x = true := overCall_iff.2 ⟨o, by rw [hk.fut, if_pos rfl]⟩
          have hx0 : overCall s.srv x = false := by unfold overCall; rw [hx]
          have hq0 : q.filter (overCall s.srv) = [] := by
            rw [List.filter_eq_nil_iff]
            intro y hy ho
            obtain ⟨o', ho⟩ := overCall_iff.1 ho
            have := hi.waiting y (by rw [hq]; exact List.mem_cons_of_mem _ hy)
            rw [ho] at this
            rcases this with h3 | h3 <;> cases h3
          rw [List.filter_append, List.filter_append, List.filter_cons, List.filter_cons, hx', hx0,
            List.filter_congr (fun y hy => hsame y (List.mem_append_left _ hy)),
            List.filter_congr (l := q) (fun y hy => hsame y (List.mem_append_right _ hy)), hq0]
          simp
        · intro y o'
          dsimp only
          rw [List.mem_append, hk.fut]
          by_cases hy : y = x
          · subst hy
            rw [if_pos rfl]
            constructor
            · rintro (h1 | h1)
              · exact absurd h1 (hxn o')
              · have := List.mem_singleton.1 h1
                injection this with _ h2
                rw [h2]
            · intro h1
              injection h1 with h1
              injection h1 with h1
              right
              rw [h1]
              simp
          · rw [if_neg hy, ← h.out]
            constructor
            · rintro (h1 | h1)
              · exact h1
              · have := List.mem_singleton.1 h1
                injection this with h2
                exact absurd h2 hy
            · exact .inl
        · intro p hp
          have : (s.srv.func p.1).isSome = true := by
            rcases List.mem_append.1 hp with h1 | h1
            · exact h.func p h1
            · rw [List.mem_singleton.1 h1]; exact hxf
          obtain ⟨f, h1⟩ := Option.isSome_iff_exists.1 this
          dsimp only
          rw [hfn _ _ h1]
          rfl
        · dsimp only
          rw [List.map_append, List.sum_append, count_keep h.func hfn, ← h.count]
          obtain ⟨f, h1⟩ := Option.isSome_iff_exists.1 hxf
          simp only [List.map_cons, List.map_nil, List.sum_cons, List.sum_nil, Nat.add_zero]
          rw [h1, hfn _ _ h1]
        · intro y hy
          rcases List.mem_append.1 hy with h1 | h1
          · exact h.stop y h1
          · have := List.mem_singleton.1 h1
            injection this with _ h2
            exact hst h2.symm
      · next hx =>
        have hreal : ∃ evs, srvStep svc s.srv .take = srvRun svc reg evs := by
          obtain ⟨evs, h1⟩ := h.real
          exact ⟨evs ++ [.take], by rw [srvRun_snoc, ← h1]⟩
        have e1 := srv_drop (svc := svc) h.none hq hx
        rw [e1] at hreal ⊢
        exact ⟨hreal, h.none, h.expired, h.ran, h.out, h.func, h.count, h.stop⟩

theorem CoInv.run (svc : Services) (hello : Nat → Bool) (reg : Registry) (evs : List CoEv) :
    CoInv svc hello reg (coRun svc hello reg evs) := by
  unfold coRun
  have h0 := CoInv.init svc hello reg
  generalize ({ srv := { reg := reg } } : CoSt) = s at h0
  induction evs generalizing s with
  | nil => exact h0
  | cons e evs ih => exact ih _ (h0.step e)

theorem coRun_append (svc : Services) (hello : Nat → Bool) (reg : Registry) (evs evs' : List CoEv) :
    coRun svc hello reg (evs ++ evs') = evs'.foldl (coStep svc hello) (coRun svc hello reg evs) := by
  unfold coRun; rw [List.foldl_append]

/-! ## C163 -/

/-- C163. The listener of the script is a listener as all others: what is proved of every schedule of a listener with its
thread pool (C66-C82, C100, C104) holds of it. -/
theorem C163_listener (svc : Services) (hello : Nat → Bool) (reg : Registry) (evs : List CoEv) :
    ∃ evs', (coRun svc hello reg evs).srv = srvRun svc reg evs' := (CoInv.run svc hello reg evs).real

/-- C163. Whenever another coroutine runs, no method is in progress; and the methods were run in the order in which their
calls were submitted, each once: the calls run so far are the submitted ones without those that wait or were cancelled. -/
theorem C163_order (svc : Services) (hello : Nat → Bool) (reg : Registry) (evs : List CoEv) :
    (∀ x, (coRun svc hello reg evs).srv.futSt x ≠ some .running) ∧
    (coRun svc hello reg evs).ran.map Prod.fst =
      (coRun svc hello reg evs).srv.subs.filter (overCall (coRun svc hello reg evs).srv) ∧
    (coRun svc hello reg evs).srv.subs.Nodup ∧
    (∀ x o, (x, o) ∈ (coRun svc hello reg evs).ran ↔ (coRun svc hello reg evs).srv.futSt x = some (.finished o)) ∧
    (∀ (i j : Nat) (x y : Nat × Nat), (coRun svc hello reg evs).srv.subs[i]? = some x →
      (coRun svc hello reg evs).srv.subs[j]? = some y → i < j → overCall (coRun svc hello reg evs).srv y = true →
      overCall (coRun svc hello reg evs).srv x = true ∨ (coRun svc hello reg evs).srv.futSt x = some .cancelled) := by
  have h := CoInv.run svc hello reg evs
  obtain ⟨evs', he⟩ := h.real
  have hrun : ∀ x, (coRun svc hello reg evs).srv.futSt x ≠ some .running := fun x hx => by
    have := (h.inv.running x).2 hx
    rw [h.none] at this
    cases this
  refine ⟨hrun, h.ran, h.inv.nodup, h.out, fun i j x y hx hy hij ho => ?_⟩
  have hst : Started (srvRun svc reg evs') y := by
    rw [← he]
    exact .inr (overCall_iff.1 ho)
  rw [he] at hx hy
  rcases (C105_workers svc reg evs').2.1 i j x y hx hy hij hst with (h1 | h1) | h1
  · rw [← he] at h1
    exact absurd h1 (hrun x)
  · rw [← he] at h1
    exact .inl (overCall_iff.2 h1)
  · rw [he]
    exact .inr h1

/-- C163. What C107 asks for: the method of a request answered TIMEOUT because its deadline had passed is not run, then
or later. -/
theorem C163_timeout (svc : Services) (hello : Nat → Bool) (reg : Registry) (evs evs' : List CoEv) (c : Nat) (l : LSt)
    (j : Nat) (t : Task) (k : Nat) (hc : (coRun svc hello reg evs).srv.conns[c]? = some l) (ht : l.tasks[j]? = some t)
    (hf : t.fate = some .expired) (hk : t.fut = some k) :
    (coRun svc hello reg (evs ++ evs')).srv.futSt (c, k) = some .cancelled ∧
    ∀ o, ((c, k), o) ∉ (coRun svc hello reg (evs ++ evs')).ran := by
  have key : (coRun svc hello reg (evs ++ evs')).srv.futSt (c, k) = some .cancelled := by
    induction evs' using snoc_induct with
    | nil =>
      have h1 := (CoInv.run svc hello reg evs).expired c l j t k hc ht hf hk
      rw [List.append_nil]
      unfold SrvSt.futSt
      dsimp only
      rw [hc]
      exact h1
    | snoc evs' e ih =>
      rw [← List.append_assoc, coRun_append]
      have h := CoInv.run svc hello reg (evs ++ evs')
      have hi := h.inv
      generalize coRun svc hello reg (evs ++ evs') = s at ih h hi
      show (coStep svc hello s e).srv.futSt (c, k) = some .cancelled
      have keep : ∀ {s' : SrvSt} (ev : SrvEv), SrvInv s' → s'.futSt (c, k) = some .cancelled →
          (srvStep svc s' ev).futSt (c, k) = some .cancelled := by
        intro s' ev hi' h0
        rcases srv_futSt_step (svc := svc) hi' ev (c, k) _ h0 with h3 | ⟨h3, -⟩ | ⟨h3, -⟩ | ⟨h3, -⟩
        · exact h3
        all_goals cases h3
      cases e with
      | print => exact ih
      | ev e =>
        unfold coStep
        dsimp only
        split
        · exact ih
        · exact keep e hi ih
      | call d o =>
        unfold coStep
        dsimp only
        split
        · exact ih
        · split
          · exact keep _ ((hi.step _).step _) (keep _ (hi.step _) (keep _ hi ih))
          · exact keep _ hi ih
  refine ⟨key, fun o ho => ?_⟩
  have := ((CoInv.run svc hello reg (evs ++ evs')).out (c, k) o).1 ho
  rw [key] at this
  cases this

/-- C163. The answer to a request whose method has been run is what the method gave, however long it took: such a request
is one-way, or still waits, or has that answer; and if it waits, it gets it as soon as its coroutine goes on. -/
theorem C163_answered (svc : Services) (hello : Nat → Bool) (reg : Registry) (evs : List CoEv) (c : Nat) (l : LSt)
    (j : Nat) (t : Task) (k : Nat) (o : Outcome) (hc : (coRun svc hello reg evs).srv.conns[c]? = some l)
    (ht : l.tasks[j]? = some t) (hk : t.fut = some k) (ho : ((c, k), o) ∈ (coRun svc hello reg evs).ran) :
    t.fate = some .accepted ∨ t.fate = some (.answered o) ∨
    (t.fate = none ∧ ∃ l' t', (coRun svc hello reg (evs ++ [.ev (.conn c (.result j))])).srv.conns[c]? = some l' ∧
      l'.tasks[j]? = some t' ∧ t'.fate = some (.answered o)) := by
  have h := CoInv.run svc hello reg evs
  have hfin : l.futSt k = some (.finished o) := by
    have := (h.out (c, k) o).1 ho
    unfold SrvSt.futSt at this
    dsimp only at this
    rw [hc] at this
    exact this
  have h0 := (h.linv hc).task j t ht
  unfold TaskOk at h0
  split at h0
  · rw [hk] at h0; cases h0.1
  · next r hkind =>
    obtain ⟨h1, h2, -⟩ := h0
    cases hfate : t.fate with
    | none =>
      right; right
      refine ⟨rfl, ?_⟩
      have hst : ∃ d, t.st = .waiting d := by
        cases hs : t.st with
        | new => rw [hs] at h1; rw [h1.1] at hk; cases hk
        | waiting d => exact ⟨d, rfl⟩
        | writing m =>
          rw [hs] at h1
          obtain ⟨f, h3, -⟩ := h1
          rw [hfate] at h3; cases h3
        | ended =>
          rw [hs] at h1
          have h1 : t.fate.isSome = true := h1
          rw [hfate] at h1; cases h1
      obtain ⟨d, hst⟩ := hst
      rw [coRun_append]
      generalize coRun svc hello reg evs = s at hc
      have e1 : lstep svc l (.result j) = l.setTask j { t with st := afterCall r.id o, fate := some (.answered o) } := by
        show (match l.tasks[j]? with | some t => _ | none => _) = _
        rw [ht]
        dsimp only
        rw [hst, hkind, hk]
        dsimp only
        rw [hfin]
        split
        · next e => injection e with e; injection e with e; rw [e] at ho; exact absurd ho (h.stop _)
        · next e => injection e with e; injection e with e; rw [e]
        · next h1 h2 => exact (h2 _ rfl).elim
      have e2 : (coStep svc hello s (.ev (.conn c (.result j)))).srv.conns = s.srv.conns.set c (lstep svc l (.result j)) := by
        unfold coStep
        dsimp only
        rw [if_neg (by intro hh; cases hh)]
        unfold srvStep
        dsimp only
        rw [if_pos (show LEv.isLocal (.result j) = true from rfl), hc]
      refine ⟨l.setTask j { t with st := afterCall r.id o, fate := some (.answered o) },
        { t with st := afterCall r.id o, fate := some (.answered o) }, ?_, ?_, rfl⟩
      · show (coStep svc hello s (.ev (.conn c (.result j)))).srv.conns[c]? = _
        rw [e2, List.getElem?_set_self (List.getElem?_eq_some_iff.1 hc).1, e1]
      · unfold LSt.setTask
        dsimp only
        rw [List.getElem?_set_self (List.getElem?_eq_some_iff.1 ht).1]
    | some f =>
      have h3 := h2 f hfate
      cases f with
      | badName => rw [h3.2] at hk; cases hk
      | badCarrier => rw [h3.2.2.1] at hk; cases hk
      | notFound => rw [h3.1] at hk; cases hk
      | failed e => rw [h3.1] at hk; cases hk
      | accepted => exact .inl rfl
      | expired =>
        have := h.expired c l j t k hc ht hfate hk
        rw [hfin] at this
        cases this
      | answered o' =>
        obtain ⟨-, k', f, h4, h5, h6⟩ := h3
        rw [hk] at h4
        injection h4 with h4
        subst h4
        unfold LSt.futSt at hfin
        rw [h5] at hfin
        simp only [Option.map_some, h6, Option.some.injEq, FutSt.finished.injEq] at hfin
        rw [hfin]
        exact .inr (.inl rfl)

/-- C163. What C106 asks for, if methods return: as long as a submitted call has been neither run nor cancelled, the loop
has something to do. -/
theorem C163_taken (svc : Services) (hello : Nat → Bool) (reg : Registry) (evs : List CoEv) (d : Nat) (o : Outcome)
    (x : Nat × Nat) (hidle : (coRun svc hello reg (evs ++ [.call d o])) = coRun svc hello reg evs) :
    (coRun svc hello reg evs).srv.futSt x ≠ some .queued := by
  intro hx
  have h := CoInv.run svc hello reg evs
  rw [coRun_append] at hidle
  generalize coRun svc hello reg evs = s at hx h hidle
  have hidle : coStep svc hello s (.call d o) = s := hidle
  have hi := h.inv
  obtain ⟨pre, h1, h2⟩ := hi.queue
  have hm : x ∈ s.srv.queue := by
    have : x ∈ s.srv.subs := (hi.subs x).2 (by rw [hx]; rfl)
    rw [h1] at this
    rcases List.mem_append.1 this with h3 | h3
    · exact absurd hx (h2 x h3)
    · exact h3
  cases hq : s.srv.queue with
  | nil => rw [hq] at hm; cases hm
  | cons y q =>
    have hlen : (coStep svc hello s (.call d o)).srv.queue = q := by
      unfold coStep
      dsimp only
      rw [hq]
      dsimp only
      split
      · next hy => exact (srv_call (svc := svc) hi h.none hq hy d (inCoro o)).queue
      · next hy => rw [srv_drop (svc := svc) h.none hq hy]
    rw [hidle, hq] at hlen
    exact absurd (congrArg List.length hlen) (by simp)

/-- the calls of `hello` that have returned -/
def Spec.helloDone (hello : Nat → Bool) (s : SrvSt) (x : Nat × Nat) : Bool :=
  (match s.futSt x with
    | some (.finished (.ret _)) => true
    | _ => false) && (s.func x).any hello

theorem sum_count {α : Type} (f : α → Nat) (p : α → Bool) (l : List α) (h : ∀ x ∈ l, f x = if p x then 1 else 0) :
    (l.map f).sum = (l.filter p).length := by
  induction l with
  | nil => rfl
  | cons a l ih =>
    rw [List.map_cons, List.sum_cons, ih (fun x hx => h x (by simp [hx])), h a (by simp), List.filter_cons]
    split <;> simp <;> omega

/-- C163. The counter is the number of calls of `hello` that have returned: no increment is lost. -/
theorem C163_counted (svc : Services) (hello : Nat → Bool) (reg : Registry) (evs : List CoEv) :
    (coRun svc hello reg evs).count =
      ((coRun svc hello reg evs).srv.subs.filter (helloDone hello (coRun svc hello reg evs).srv)).length := by
  have h := CoInv.run svc hello reg evs
  generalize coRun svc hello reg evs = s at h
  have e1 : s.count = ((s.ran.map Prod.fst).map fun x => if helloDone hello s.srv x then 1 else 0).sum := by
    rw [h.count, List.map_map]
    congr 1
    refine List.map_congr_left fun p hp => ?_
    obtain ⟨x, o⟩ := p
    have := (h.out x o).1 hp
    show countOf hello (s.srv.func x) o = if helloDone hello s.srv x then 1 else 0
    unfold helloDone
    rw [this]
    cases o with
    | ret v => simp [countOf]
    | raised e => simp [countOf]
  rw [e1, sum_count _ (helloDone hello s.srv) _ (fun x _ => rfl), h.ran, List.filter_filter]
  congr 1
  refine List.filter_congr fun x _ => ?_
  unfold helloDone overCall
  cases s.srv.futSt x with
  | none => rfl
  | some st => cases st with
    | finished o => simp
    | _ => rfl

/-- the lines printed by `print_count` -/
structure PrintOk (s : CoSt) : Prop where
  secs : s.printed.length = s.secs
  lines : ∀ (n : Nat) (p : Nat × Nat × Int), s.printed[n]? = some p → p.1 = n + 1 ∧ p.2.1 ≤ s.last ∧ 0 ≤ p.2.2
  sum : (s.printed.map fun p => p.2.2).sum = s.last
  last : s.last ≤ s.count

theorem coStep_count (svc : Services) (hello : Nat → Bool) (s : CoSt) (e : CoEv) (he : e ≠ .print) :
    (coStep svc hello s e).secs = s.secs ∧ (coStep svc hello s e).last = s.last ∧
    (coStep svc hello s e).printed = s.printed ∧ s.count ≤ (coStep svc hello s e).count := by
  cases e with
  | print => exact absurd rfl he
  | ev e => unfold coStep; dsimp only; split <;> exact ⟨rfl, rfl, rfl, Nat.le_refl _⟩
  | call d o =>
    unfold coStep
    dsimp only
    split
    · exact ⟨rfl, rfl, rfl, Nat.le_refl _⟩
    · split
      · exact ⟨rfl, rfl, rfl, Nat.le_add_right _ _⟩
      · exact ⟨rfl, rfl, rfl, Nat.le_refl _⟩

theorem PrintOk.run (svc : Services) (hello : Nat → Bool) (reg : Registry) (evs : List CoEv) :
    PrintOk (coRun svc hello reg evs) := by
  induction evs using snoc_induct with
  | nil => exact ⟨rfl, fun n p h => (by cases h), rfl, Nat.le_refl _⟩
  | snoc evs e ih =>
    rw [coRun_append]
    generalize coRun svc hello reg evs = s at ih
    show PrintOk (coStep svc hello s e)
    by_cases he : e = .print
    · subst he
      have hl := ih.last
      refine ⟨?_, fun n p hp => ?_, ?_, Nat.le_refl _⟩
      · show (s.printed ++ [_]).length = s.secs + 1
        rw [List.length_append, ih.secs]; rfl
      · have hp : (s.printed ++ [(s.secs + 1, s.count, (s.count : Int) - s.last)])[n]? = some p := hp
        show p.1 = n + 1 ∧ p.2.1 ≤ s.count ∧ 0 ≤ p.2.2
        rw [List.getElem?_append] at hp
        split at hp
        · obtain ⟨h1, h2, h3⟩ := ih.lines n p hp
          exact ⟨h1, by omega, h3⟩
        · next hn =>
          have h1 := List.mem_singleton.1 (List.mem_of_getElem? hp)
          have h2 : n - s.printed.length < 1 := by simpa using (List.getElem?_eq_some_iff.1 hp).1
          have := ih.secs
          subst h1
          exact ⟨by dsimp only; omega, Nat.le_refl _, by dsimp only; omega⟩
      · show ((s.printed ++ [(s.secs + 1, s.count, (s.count : Int) - s.last)]).map fun p => p.2.2).sum = (s.count : Int)
        rw [List.map_append, List.sum_append, ih.sum]
        simp
        omega
    · obtain ⟨h1, h2, h3, h4⟩ := coStep_count svc hello s e he
      refine ⟨by rw [h1, h3]; exact ih.secs, fun n p hp => ?_, by rw [h2, h3]; exact ih.sum, ?_⟩
      · rw [h3] at hp; rw [h2]; exact ih.lines n p hp
      · rw [h2]; exact Nat.le_trans ih.last h4

/-- C163. What is printed: line `n` names second `n`, the count at that moment is the number of calls of `hello` that
have returned, and the requests per second printed so far add up to it. -/
theorem C163_printed (svc : Services) (hello : Nat → Bool) (reg : Registry) (evs : List CoEv) :
    ∃ (lines : List (Nat × Nat × Int)) (secs : Nat) (rate : Int),
      (coRun svc hello reg (evs ++ [.print])).printed = lines ++
        [(secs, ((coRun svc hello reg evs).srv.subs.filter (helloDone hello (coRun svc hello reg evs).srv)).length, rate)] ∧
      lines = (coRun svc hello reg evs).printed ∧ secs = lines.length + 1 ∧ 0 ≤ rate ∧
      (((coRun svc hello reg evs).srv.subs.filter (helloDone hello (coRun svc hello reg evs).srv)).length : Int) =
        (lines.map fun p => p.2.2).sum + rate := by
  have h := PrintOk.run svc hello reg evs
  rw [← C163_counted]
  refine ⟨(coRun svc hello reg evs).printed, (coRun svc hello reg evs).secs + 1,
    ((coRun svc hello reg evs).count : Int) - (coRun svc hello reg evs).last, ?_, rfl, by rw [h.secs], ?_, ?_⟩
  · rw [coRun_append]; rfl
  · have := h.last; omega
  · rw [h.sum]; omega

/-! ## An example -/

/-- two requests with the timeout 100 on one connection, dispatched -/
def exCo : List CoEv :=
  .ev .accept :: ((exSubmit 0 ++ exSubmit 1).filter fun e => !e.isPool).map CoEv.ev

set_option maxRecDepth 40000 in
/-- The first method takes 200 ms. It is answered with its result all the same; the second call is not run any more, and
its request is answered TIMEOUT. The counter shows one call. -/
example :
    let s := coRun exServices (fun _ => true) exReg (exCo ++ [.call 200 (.ret (.bytes [7])), .ev (.conn 0 (.expire 0)),
      .ev (.conn 0 (.expire 1)), .call 0 (.ret (.bytes [8])), .ev (.conn 0 (.result 0)), .print])
    s.ran = [((0, 0), .ret (.bytes [7]))] ∧ s.srv.futSt (0, 1) = some .cancelled ∧ s.count = 1 ∧
    s.printed = [(1, 1, 1)] ∧
    (s.srv.conns.map fun l => l.tasks.map fun t => t.fate) = [[some (.answered (.ret (.bytes [7]))), some .expired]] := by
  decide +kernel

end Bolt
