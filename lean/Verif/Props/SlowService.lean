import Verif.Model.SlowService
import Verif.Props.AioExit
/-!
# C190: service objects that take long to make hold up nothing else
-/
namespace Bolt
open Spec

/-- C190 as listed: whatever service objects are being made, everything else that the listener could do it does, on the other
connections at least. -/
def C190_full : Prop :=
  ∀ (svc : Services) (reg : Registry) (evs : List SlowEv) (m : Making) (c : Nat) (e : LEv),
    (slowRun svc reg evs).making = some m → c ≠ m.conn →
    (slowStep svc (slowRun svc reg evs) (.ev (.conn c e))).srv = srvStep svc (slowRun svc reg evs).srv (.conn c e)

theorem slowRun_snoc (svc : Services) (reg : Registry) (evs : List SlowEv) (e : SlowEv) :
    slowRun svc reg (evs ++ [e]) = slowStep svc (slowRun svc reg evs) e := by simp [slowRun]

/-! ## the loop stands still -/

/-- What happens, always: while a service object is being made, no connection is accepted, none is read, nothing is written
and no task goes on, whatever happens in the other threads and however much time passes. -/
theorem C190_always (svc : Services) (reg : Registry) (evs more : List SlowEv) (m : Making)
    (h : (slowRun svc reg evs).making = some m) (hm : SlowEv.made ∉ more) :
    (slowRun svc reg (evs ++ more)).making = some m ∧ Frozen (slowRun svc reg evs).srv (slowRun svc reg (evs ++ more)).srv := by
  induction more using snoc_induct with
  | nil => rw [List.append_nil]; exact ⟨h, Frozen.rfl' _⟩
  | snoc more e ih =>
    obtain ⟨h1, h2⟩ := ih fun he => hm (List.mem_append_left _ he)
    rw [← List.append_assoc, slowRun_snoc]
    cases e with
    | made => exact absurd (List.mem_append_right _ (List.mem_singleton.2 rfl)) hm
    | begin c i f =>
      have e1 : slowStep svc (slowRun svc reg (evs ++ more)) (.begin c i f) = slowRun svc reg (evs ++ more) := by
        unfold slowStep
        dsimp only
        rw [h1]
      rw [e1]
      exact ⟨h1, h2⟩
    | ev e =>
      unfold slowStep
      dsimp only
      split
      · exact ⟨h1, h2⟩
      · next hc =>
        rw [h1] at hc
        exact ⟨h1, h2.trans (srvStep_frozen svc _ e (by simpa using hc))⟩

/-- C190, the threads of the pool: they go on while a service object is being made. -/
theorem C190_threads (svc : Services) (s : SlowSt) (e : SrvEv) (h : e.inLoop = false) :
    slowStep svc s (.ev e) = { s with srv := srvStep svc s.srv e } := by
  simp only [slowStep, h, Bool.and_false]
  rfl

/-! ## registrations commute with what the other threads do -/

/-- the same listener with changed registries -/
def mapReg (R : Registry → Registry) (s : SrvSt) : SrvSt :=
  { s with reg := R s.reg, conns := s.conns.map fun l => { l with reg := R l.reg } }

theorem mapReg_futSt (R : Registry → Registry) (s : SrvSt) (x : Nat × Nat) : (mapReg R s).futSt x = s.futSt x := by
  unfold SrvSt.futSt mapReg
  simp only [List.getElem?_map]
  cases s.conns[x.1]? <;> rfl

theorem lstep_fut_reg (svc : Services) (R : Registry → Registry) (l : LSt) (e : LEv)
    (he : (∃ k, e = .futStart k) ∨ (∃ k o, e = .futFinish k o) ∨ ∃ d, e = .tick d) :
    lstep svc { l with reg := R l.reg } e = { lstep svc l e with reg := R (lstep svc l e).reg } := by
  rcases he with ⟨k, rfl⟩ | ⟨k, o, rfl⟩ | ⟨d, rfl⟩
  · simp only [lstep]
    by_cases h : l.futSt k = some .queued
    · rw [if_pos h, if_pos (show ({ l with reg := R l.reg } : LSt).futSt k = some .queued from h)]
      rfl
    · rw [if_neg h, if_neg (show ¬ ({ l with reg := R l.reg } : LSt).futSt k = some .queued from h)]
  · simp only [lstep]
    by_cases h : l.futSt k = some .running
    · rw [if_pos h, if_pos (show ({ l with reg := R l.reg } : LSt).futSt k = some .running from h)]
      rfl
    · rw [if_neg h, if_neg (show ¬ ({ l with reg := R l.reg } : LSt).futSt k = some .running from h)]
  · rfl

theorem map_modify_comm {α : Type} (l : List α) (i : Nat) (f g : α → α) (h : ∀ a, f (g a) = g (f a)) :
    (l.map g).modify i f = (l.modify i f).map g := by
  apply List.ext_getElem?
  intro n
  simp only [List.getElem?_modify, List.getElem?_map]
  cases l[n]? with
  | none => rfl
  | some a =>
    simp only [Option.map_some]
    by_cases e : i = n
    · simp [e, h]
    · simp [e]

/-- what other threads do, except registering -/
def outside : SrvEv → Bool
  | .take | .finish _ _ _ | .tick _ | .shutdown => true
  | _ => false

theorem srvStep_mapReg (svc : Services) (R : Registry → Registry) (s : SrvSt) (e : SrvEv) (he : outside e = true) :
    srvStep svc (mapReg R s) e = mapReg R (srvStep svc s e) := by
  cases e with
  | accept => cases he
  | conn c e => cases he
  | register r => cases he
  | shutdown => rfl
  | tick d =>
    simp only [srvStep, mapReg, List.map_map]
    rfl
  | take =>
    simp only [srvStep]
    show (match s.queue with | [] => _ | x :: q => _) = _
    cases hq : s.queue with
    | nil => rfl
    | cons x q =>
      dsimp only
      by_cases h1 : s.running.length < maxWorker
      · rw [if_pos h1, if_pos (show (mapReg R s).running.length < maxWorker from h1)]
        rw [mapReg_futSt]
        by_cases h2 : s.futSt x = some .queued
        · rw [if_pos h2, if_pos h2]
          unfold mapReg
          dsimp only
          rw [map_modify_comm _ _ _ _ fun a => lstep_fut_reg svc R a _ (.inl ⟨_, rfl⟩)]
        · rw [if_neg h2, if_neg h2]
          rfl
      · rw [if_neg h1, if_neg (show ¬ (mapReg R s).running.length < maxWorker from h1)]
  | finish c k o =>
    simp only [srvStep]
    by_cases h1 : (c, k) ∈ s.running
    · rw [if_pos h1, if_pos (show (c, k) ∈ (mapReg R s).running from h1)]
      unfold mapReg
      dsimp only
      rw [map_modify_comm _ _ _ _ fun a => lstep_fut_reg svc R a _ (.inr (.inl ⟨_, _, rfl⟩))]
    · rw [if_neg h1, if_neg (show (c, k) ∉ (mapReg R s).running from h1)]

theorem srvStep_register (svc : Services) (s : SrvSt) (r : Registration) :
    srvStep svc s (.register r) = mapReg (fun g => registerInterface g r) s := rfl

theorem foldl_register (svc : Services) (rs : List Registration) (s : SrvSt) :
    (rs.map SrvEv.register).foldl (srvStep svc) s = mapReg (fun g => rs.foldl registerInterface g) s := by
  induction rs generalizing s with
  | nil =>
    unfold mapReg
    simp
  | cons r rs ih =>
    rw [List.map_cons, List.foldl_cons, ih, srvStep_register]
    unfold mapReg
    simp only [List.map_map]
    rfl

/-- these threads change no registry -/
theorem srvStep_outside_reg (svc : Services) (s : SrvSt) (e : SrvEv) (he : outside e = true) (c : Nat) (l : LSt)
    (hl : (srvStep svc s e).conns[c]? = some l) : ∃ l0, s.conns[c]? = some l0 ∧ l0.reg = l.reg := by
  have hmod : ∀ (i : Nat) (e : LEv), ((∃ k, e = .futStart k) ∨ (∃ k o, e = .futFinish k o)) →
      (s.conns.modify i fun l => lstep svc l e)[c]? = some l → ∃ l0, s.conns[c]? = some l0 ∧ l0.reg = l.reg := by
    intro i e he h
    rw [List.getElem?_modify] at h
    cases h0 : s.conns[c]? with
    | none => rw [h0] at h; cases h
    | some l0 =>
      rw [h0] at h
      refine ⟨l0, rfl, ?_⟩
      by_cases ei : i = c
      · simp [ei] at h
        subst h
        rcases he with ⟨k, rfl⟩ | ⟨k, o, rfl⟩ <;> (simp only [lstep, LSt.setFut]; split <;> rfl)
      · simp [ei] at h
        rw [h]
  cases e with
  | accept => cases he
  | conn c e => cases he
  | register r => cases he
  | shutdown => exact ⟨l, hl, rfl⟩
  | tick d =>
    simp only [srvStep, List.getElem?_map] at hl
    cases h0 : s.conns[c]? with
    | none => rw [h0] at hl; cases hl
    | some l0 =>
      rw [h0] at hl
      cases hl
      exact ⟨l0, rfl, rfl⟩
  | take =>
    revert hl
    simp only [srvStep]
    repeat' split
    all_goals first
      | (intro hl; exact ⟨l, hl, rfl⟩)
      | (intro hl; exact hmod _ _ (.inl ⟨_, rfl⟩) hl)
  | finish c' k o =>
    revert hl
    simp only [srvStep]
    split
    · intro hl; exact hmod _ _ (.inr ⟨_, _, rfl⟩) hl
    · intro hl; exact ⟨l, hl, rfl⟩

/-! ## as if making objects took no time -/

theorem lstep_run_reg (svc : Services) (l : LSt) (i : Nat) (f : PyStr) : (lstep svc l (.run i f)).reg = l.reg := by
  simp only [lstep, LSt.dispatch, LSt.setTask]
  repeat' split
  all_goals rfl

theorem finishMaking_eq (svc : Services) (R : Registry → Registry) (s : SrvSt) (m : Making) (l : LSt)
    (hl : s.conns[m.conn]? = some l) (hr : l.reg = m.reg) :
    (mapReg R s).finishMaking svc m = mapReg R (srvStep svc s (.conn m.conn (.run m.task m.fresh))) := by
  have h1 : (mapReg R s).conns[m.conn]? = some { l with reg := R l.reg } := by
    unfold mapReg
    simp only [List.getElem?_map, hl]
    rfl
  have h2 : ({ ({ l with reg := R l.reg } : LSt) with reg := m.reg } : LSt) = l := by rw [← hr]
  unfold SrvSt.finishMaking
  rw [h1]
  dsimp only at h2 ⊢
  rw [h2]
  have h3 : (LEv.run m.task m.fresh).isLocal = true := rfl
  simp only [srvStep, h3, if_true, hl]
  unfold mapReg
  dsimp only
  rw [List.map_set, lstep_run_reg]
  rfl

/-- the connection being served, if a service object is being made, as if the registrations of the meantime had not been made
yet -/
def SlowInv (svc : Services) (reg : Registry) (s : SlowSt) : Prop :=
  match s.making with
  | none => ∃ evs, s.srv = srvRun svc reg evs
  | some m => ∃ (evs : List SrvEv) (rs : List Registration), s.srv = mapReg (fun g => rs.foldl registerInterface g) (srvRun svc reg evs) ∧
      ∃ l, (srvRun svc reg evs).conns[m.conn]? = some l ∧ l.reg = m.reg

theorem srvRun_snoc' (svc : Services) (reg : Registry) (evs : List SrvEv) (e : SrvEv) :
    srvRun svc reg (evs ++ [e]) = srvStep svc (srvRun svc reg evs) e := by simp [srvRun]

theorem mapReg_run (svc : Services) (reg : Registry) (evs : List SrvEv) (rs : List Registration) :
    mapReg (fun g => rs.foldl registerInterface g) (srvRun svc reg evs) = srvRun svc reg (evs ++ rs.map .register) := by
  rw [← foldl_register svc]
  simp [srvRun]

theorem srvStep_outside_conn (svc : Services) (s : SrvSt) (e : SrvEv) (he : outside e = true) (c : Nat) (l : LSt)
    (hl : s.conns[c]? = some l) : ∃ l', (srvStep svc s e).conns[c]? = some l' ∧ l'.reg = l.reg := by
  have hin : e.inLoop = false := by cases e <;> first | rfl | cases he
  obtain ⟨l', h1, -⟩ := (srvStep_frozen svc s e hin).2 c l hl
  obtain ⟨l0, h2, h3⟩ := srvStep_outside_reg svc s e he c l' h1
  rw [hl] at h2
  cases h2
  exact ⟨l', h1, h3.symm⟩

theorem SlowInv.run (svc : Services) (reg : Registry) (evs : List SlowEv) : SlowInv svc reg (slowRun svc reg evs) := by
  induction evs using snoc_induct with
  | nil => exact ⟨[], rfl⟩
  | snoc evs e ih =>
    rw [slowRun_snoc]
    generalize slowRun svc reg evs = s at ih
    obtain ⟨srv, making⟩ := s
    cases making with
    | none =>
      obtain ⟨es, h⟩ := ih
      dsimp only at h
      subst h
      cases e with
      | ev e => exact ⟨es ++ [e], by rw [srvRun_snoc']; rfl⟩
      | made => exact ⟨es, rfl⟩
      | begin c i f =>
        simp only [slowStep]
        cases hl : (srvRun svc reg es).conns[c]? with
        | none => exact ⟨es, rfl⟩
        | some l =>
          dsimp only
          split
          · refine ⟨es, [], ?_, l, hl, rfl⟩
            rw [mapReg_run, List.map_nil, List.append_nil]
          · exact ⟨es, rfl⟩
    | some m =>
      obtain ⟨es, rs, h, l, hl, hr⟩ := ih
      dsimp only at h
      subst h
      cases e with
      | begin c i f => exact ⟨es, rs, rfl, l, hl, hr⟩
      | made =>
        refine ⟨(es ++ [.conn m.conn (.run m.task m.fresh)]) ++ rs.map .register, ?_⟩
        rw [← mapReg_run, srvRun_snoc', ← finishMaking_eq svc _ _ m l hl hr]
        rfl
      | ev e =>
        have out : outside e = true → SlowInv svc reg
            (slowStep svc ⟨mapReg (fun g => rs.foldl registerInterface g) (srvRun svc reg es), some m⟩ (.ev e)) := by
          intro he
          have hin : e.inLoop = false := by cases e <;> first | rfl | cases he
          rw [C190_threads svc _ e hin]
          obtain ⟨l', h1, h2⟩ := srvStep_outside_conn svc _ e he m.conn l hl
          refine ⟨es ++ [e], rs, ?_, l', ?_, h2.trans hr⟩
          · rw [srvRun_snoc', ← srvStep_mapReg svc _ _ e he]
          · rw [srvRun_snoc']; exact h1
        cases e with
        | accept => exact ⟨es, rs, rfl, l, hl, hr⟩
        | conn c e => exact ⟨es, rs, rfl, l, hl, hr⟩
        | take => exact out rfl
        | finish c k o => exact out rfl
        | tick d => exact out rfl
        | shutdown => exact out rfl
        | register r =>
          refine ⟨es, rs ++ [r], ?_, l, hl, hr⟩
          rw [C190_threads svc _ _ rfl]
          dsimp only
          rw [mapReg_run, mapReg_run, ← srvRun_snoc']
          simp

/-- C190, what holds: whatever has happened, the connections, the queue of the pool and the registry are as after some schedule
of the listener whose service objects are made in no time; what is proved of all of those (C71-C77, C104, C105 and others)
therefore holds while and after service objects are made. Missing: that the others need not wait (`C190_always`). -/
theorem C190_refines_partial (svc : Services) (reg : Registry) (evs : List SlowEv) :
    ∃ evs', (slowRun svc reg evs).srv = srvRun svc reg evs' := by
  have h := SlowInv.run svc reg evs
  unfold SlowInv at h
  split at h
  · exact h
  · obtain ⟨es, rs, h, -⟩ := h
    exact ⟨es ++ rs.map .register, by rw [h, mapReg_run]⟩

/-- Schedules without slow service objects are those of the other properties. -/
theorem C190_same (svc : Services) (reg : Registry) (evs : List SrvEv) :
    slowRun svc reg (evs.map .ev) = { srv := srvRun svc reg evs, making := none } := by
  induction evs using snoc_induct with
  | nil => rfl
  | snoc evs e ih =>
    rw [List.map_append, List.map_cons, List.map_nil, slowRun_snoc, ih, srvRun_snoc']
    rfl

/-! ## deadlines -/

/-- A consequence: while a service object is being made any amount of time can pass in which a request of any connection stays
as it is; if its time is over, it is not told so until the object is there. -/
theorem C190_late (svc : Services) (reg : Registry) (evs : List SlowEv) (m : Making) (c j : Nat) (l : LSt) (t : Task) (T : Nat)
    (h : (slowRun svc reg evs).making = some m) (hl : (slowRun svc reg evs).srv.conns[c]? = some l)
    (ht : l.tasks[j]? = some t) :
    let s := slowRun svc reg (evs ++ [.ev (.tick T)])
    (∃ l', s.srv.conns[c]? = some l' ∧ l'.tasks[j]? = some t ∧ l'.out = l.out ∧ l'.now = l.now + T) ∧
      slowStep svc s (.ev (.conn c (.expire j))) = s := by
  intro s
  obtain ⟨h1, h2, h3⟩ := C190_always svc reg evs [.ev (.tick T)] m h (by intro he; simp at he)
  obtain ⟨l', a1, -, a3, a4, -⟩ := h3 c l hl
  refine ⟨⟨l', a1, by rw [a3]; exact ht, a4, ?_⟩, ?_⟩
  · have e : s = slowStep svc (slowRun svc reg evs) (.ev (.tick T)) := slowRun_snoc svc reg evs _
    rw [C190_threads svc _ _ rfl] at e
    have a1' : s.srv.conns[c]? = some l' := a1
    rw [e] at a1'
    simp only [srvStep, List.getElem?_map, hl, Option.map_some, Option.some.injEq] at a1'
    rw [← a1']
    rfl
  · have h1' : s.making = some m := h1
    unfold slowStep
    dsimp only
    rw [h1']
    rfl

/-! ### examples -/

/-- two connections, a request on each; a service object is being made for the first -/
def exSlowEvs : List SlowEv :=
  [.ev .accept, .ev .accept, .ev (.conn 0 (.data (exReq 3 [1]).bytes)), .ev (.conn 0 .reader), .ev (.conn 0 .reader),
    .ev (.conn 0 .reader), .ev (.conn 0 .reader), .ev (.conn 1 (.data (exReq 4 [1]).bytes)), .ev (.conn 1 .reader),
    .ev (.conn 1 .reader), .ev (.conn 1 .reader), .ev (.conn 1 .reader), .begin 0 0 (py "t")]

/-- what the second connection would do -/
def exSlowMore : List SlowEv :=
  [.ev (.conn 1 (.run 0 (py "t"))), .ev .take, .ev (.finish 1 0 (.ret (.bytes [7]))), .ev (.conn 1 (.result 0)),
    .ev (.conn 1 (.write 0))]

set_option maxRecDepth 20000 in
theorem C190_violated : ¬ C190_full := by
  intro h
  have e1 : (slowRun exServices exReg exSlowEvs).making = some ⟨0, 0, py "t", exReg⟩ := by decide +kernel
  have e2 := h exServices exReg exSlowEvs _ 1 (.run 0 (py "t")) e1 (by decide)
  have e3 := congrArg (fun s : SrvSt => s.queue) e2
  revert e3
  decide +kernel

set_option maxRecDepth 20000 in
/-- While the object for the first connection is being made nothing comes of the second one; otherwise it is answered. -/
example : (slowRun exServices exReg (exSlowEvs ++ exSlowMore)).srv.conns.map LSt.wire = [[], []] ∧
    (slowRun exServices exReg (exSlowEvs ++ .made :: exSlowMore)).srv.queue = [(1, 0)] ∧
    (slowRun exServices exReg (exSlowEvs.dropLast ++ exSlowMore)).srv.conns.map LSt.wire = [[], reply 4 0 [7]] := by
  refine ⟨by decide +kernel, by decide +kernel, by decide +kernel⟩

set_option maxRecDepth 20000 in
/-- the class in the registry is replaced while it is being called: the request is served by the old one -/
example : (slowRun exServices exReg (exSlowEvs ++ [.ev (.register ⟨py "svc", 5, [], []⟩), .made])).srv.queue = [(0, 0)] := by
  decide +kernel

end Bolt
