import Verif.Props.AioServer
/-!
# C170: requests whose method raises
-/
namespace Bolt
open Spec

namespace Spec

/-- Nothing is left for a task to do at this moment: its call, if over, has woken it; what it had to write is written. -/
def spent (svc : Services) (s : LSt) (j : Nat) : Prop := lstep svc s (.result j) = s ∧ lstep svc s (.write j) = s

/-- the call of a task is over, and this is how it ended -/
def callOver (s : LSt) (t : Task) (o : Outcome) : Prop :=
  ∃ (k : Nat) (f : Fut), t.fut = some k ∧ s.futs[k]? = some f ∧ f.st = .finished o

end Spec

/-- C170 as listed: when the method called for a two-way request has raised an exception, and there is nothing left to do
for the request, and the connection is open, a response has been written. -/
def C170_full : Prop :=
  ∀ (svc : Services) (reg : Registry) (evs : List LEv) (j : Nat) (t : Task) (r : Req) (e : PyExc),
    (lrun svc reg evs).tasks[j]? = some t → t.kind = .dispatch r → r.callType ≠ 2 →
    callOver (lrun svc reg evs) t (.raised e) → spent svc (lrun svc reg evs) j → (lrun svc reg evs).closed = false →
    ∃ m, (Origin.task j, m) ∈ (lrun svc reg evs).out

/-- the task of a call that is over: it has nothing left to do only if it has ended, or its call ended in StopIteration -/
theorem spent_ended {svc : Services} {s : LSt} (h : LInv svc s) {j : Nat} {t : Task} {r : Req} {o : Outcome}
    (ht : s.tasks[j]? = some t) (hk : t.kind = .dispatch r) (ho : callOver s t o) (hs : spent svc s j) :
    t.st = .ended ∨ ((∃ d, t.st = .waiting d) ∧ o = .raised .stopIteration) := by
  obtain ⟨k, f, h1, h2, h3⟩ := ho
  have htk := h.task j t ht
  unfold TaskOk at htk
  rw [hk] at htk
  have hlt := (List.getElem?_eq_some_iff.1 ht).1
  have upd : ∀ u : Task, s.setTask j u = s → u = t := by
    intro u hu
    have := congrArg (fun s : LSt => s.tasks[j]?) hu
    dsimp only [LSt.setTask] at this
    rw [List.getElem?_set_self hlt, ht] at this
    injection this
  cases hst : t.st with
  | ended => exact .inl rfl
  | new =>
    rw [hst] at htk
    have := htk.1.1
    rw [h1] at this
    cases this
  | writing m =>
    have hw := hs.2
    simp only [lstep, ht, hst] at hw
    have := congrArg (fun s : LSt => s.tasks[j]?) hw
    dsimp only [LSt.setTask] at this
    rw [show (s.write (.task j) m).tasks = s.tasks by unfold LSt.write; split <;> rfl, List.getElem?_set_self hlt,
      ht] at this
    injection this with this
    rw [← this] at hst
    cases hst
  | waiting d =>
    right
    refine ⟨⟨d, rfl⟩, ?_⟩
    apply Classical.byContradiction
    intro hne
    have hr := hs.1
    have hfs : s.futSt k = some (.finished o) := by unfold LSt.futSt; rw [h2, Option.map_some, h3]
    simp only [lstep, ht, hst, hk, h1] at hr
    rw [hfs] at hr
    have hfate : t.fate = none := by rw [hst] at htk; exact htk.1.1
    split at hr
    · next e => injection e with e; injection e with e; exact hne e
    · next o' _ e =>
      have := upd _ hr
      have := congrArg Task.fate this
      rw [hfate] at this
      cases this
    · next h' => exact h' _ rfl

theorem owed_raised (id : Int) (e : PyExc) :
    owed id (.answered (.raised e)) = some (reply id 0x03 []) ∨ owed id (.answered (.raised e)) = some (reply id 0x07 []) := by
  by_cases h1 : e = .timeoutError
  · subst h1; exact .inr rfl
  · by_cases h2 : e = .cancelledError
    · subst h2; exact .inr rfl
    · left
      cases e <;> first | exact absurd rfl h1 | exact absurd rfl h2 | rfl

/-- C170, what holds: with any exception but StopIteration, the response has been written, and its status is UNKNOWN or
TIMEOUT. Missing for C170: StopIteration. -/
theorem C170_raised_partial (svc : Services) (reg : Registry) (evs : List LEv) (j : Nat) (t : Task) (r : Req) (e : PyExc)
    (ht : (lrun svc reg evs).tasks[j]? = some t) (hk : t.kind = .dispatch r) (h2 : r.callType ≠ 2)
    (ho : callOver (lrun svc reg evs) t (.raised e)) (hs : spent svc (lrun svc reg evs) j)
    (hc : (lrun svc reg evs).closed = false) (he : e ≠ .stopIteration) :
    (Origin.task j, reply r.id 0x03 []) ∈ (lrun svc reg evs).out ∨
    (Origin.task j, reply r.id 0x07 []) ∈ (lrun svc reg evs).out := by
  have h := LInv.run svc reg evs
  rcases spent_ended h ht hk ho hs with hst | ⟨-, h1⟩
  · obtain ⟨k, f, e1, e2, e3⟩ := ho
    have htk := h.task j t ht
    unfold TaskOk at htk
    rw [hk, hst] at htk
    obtain ⟨hf, hfate, -⟩ := htk
    obtain ⟨fa, hfa⟩ := Option.isSome_iff_exists.1 (show t.fate.isSome = true from hf)
    have hfo := hfate fa hfa
    have out : ∀ m, owed r.id fa = some m → (Origin.task j, m) ∈ (lrun svc reg evs).out := by
      intro m hm
      rcases h.ended j t m ht hst (by simp [taskReply, hk, hfa, hm]) with h3 | h3
      · rw [hc] at h3; cases h3
      · exact h3
    cases fa with
    | badName => rw [hfo.2] at e1; cases e1
    | badCarrier => rw [hfo.2.2.1] at e1; cases e1
    | notFound => rw [hfo.1] at e1; cases e1
    | failed e => rw [hfo.1] at e1; cases e1
    | accepted => exact absurd hfo.1 h2
    | expired => exact .inr (out _ rfl)
    | answered o =>
      obtain ⟨-, k', f', g1, g2, g3⟩ := hfo
      rw [e1] at g1
      injection g1 with g1
      subst g1
      rw [e2] at g2
      injection g2 with g2
      subst g2
      rw [e3] at g3
      injection g3 with g3
      subst g3
      rcases owed_raised r.id e with h4 | h4
      · exact .inl (out _ h4)
      · exact .inr (out _ h4)
  · injection h1 with h1
    exact absurd h1 he

/-- C170: the same for calls that return: when nothing is left to do, their task has ended (see C72 for what they have sent). -/
theorem C170_returned (svc : Services) (reg : Registry) (evs : List LEv) (j : Nat) (t : Task) (r : Req) (v : PyObj)
    (ht : (lrun svc reg evs).tasks[j]? = some t) (hk : t.kind = .dispatch r)
    (ho : callOver (lrun svc reg evs) t (.ret v)) (hs : spent svc (lrun svc reg evs) j) : t.st = .ended := by
  rcases spent_ended (LInv.run svc reg evs) ht hk ho hs with h | ⟨-, h⟩
  · exact h
  · cases h

/-- a task that has submitted its call keeps it -/
theorem call_stays {svc : Services} {s : LSt} (h : LInv svc s) (ev : LEv) {j : Nat} {t : Task} {k : Nat}
    (ht : s.tasks[j]? = some t) (hf : t.fut = some k) :
    ∃ t' : Task, (lstep svc s ev).tasks[j]? = some t' ∧ t'.kind = t.kind ∧ t'.fut = some k ∧ t'.started = t.started := by
  have hlt := (List.getElem?_eq_some_iff.1 ht).1
  have same : ∀ l : List Task, l = s.tasks →
      ∃ t' : Task, l[j]? = some t' ∧ t'.kind = t.kind ∧ t'.fut = some k ∧ t'.started = t.started :=
    fun l e => ⟨t, by rw [e, ht], rfl, hf, rfl⟩
  have upd : ∀ (l : List Task) (i : Nat) (u x : Task), s.tasks[i]? = some u → l = s.tasks.set i x →
      x.kind = u.kind → x.fut = u.fut → x.started = u.started →
      ∃ t' : Task, l[j]? = some t' ∧ t'.kind = t.kind ∧ t'.fut = some k ∧ t'.started = t.started := by
    intro l i u x hi e a b c
    rw [e]
    by_cases hij : i = j
    · subst hij
      rw [ht] at hi
      cases hi
      exact ⟨x, List.getElem?_set_self hlt, a, b.trans hf, c⟩
    · exact ⟨t, by rw [List.getElem?_set_ne hij, ht], rfl, hf, rfl⟩
  have perf : ∀ (s' : LSt) (a : Act), s'.tasks = s.tasks →
      ∃ t' : Task, (s'.perform a).tasks[j]? = some t' ∧ t'.kind = t.kind ∧ t'.fut = some k ∧ t'.started = t.started := by
    intro s' a e
    refine ⟨t, ?_, rfl, hf, rfl⟩
    unfold LSt.perform
    dsimp only
    split
    · dsimp only; rw [e, List.getElem?_append_left hlt, ht]
    · split
      · dsimp only; rw [e, List.getElem?_append_left hlt, ht]
      · dsimp only; rw [e, ht]
    · split <;> (dsimp only; rw [e, ht])
    · dsimp only; rw [e, ht]
    · dsimp only; rw [e, ht]
  cases ev with
  | data bs => simp only [lstep]; split <;> exact same _ rfl
  | eof => exact same _ rfl
  | reset => exact same _ rfl
  | reader =>
    simp only [lstep]
    unfold LSt.reader
    split
    · split
      · exact same _ rfl
      · exact same _ rfl
      · exact perf _ _ rfl
    · exact same _ (by unfold LSt.write; split <;> rfl)
    · exact same _ rfl
    · exact same _ (by unfold LSt.write; split <;> rfl)
  | run i fresh =>
    simp only [lstep]
    split
    · next u hi =>
      split
      · next r hst hk =>
        have hij : i ≠ j := by
          rintro rfl
          have htk := h.task i u hi
          unfold TaskOk at htk
          rw [hk, hst] at htk
          rw [ht] at hi
          cases hi
          have := htk.1.1
          rw [hf] at this
          cases this
        have other' : ∀ x : Task, ∃ t' : Task, (s.tasks.set i x)[j]? = some t' ∧ t'.kind = t.kind ∧ t'.fut = some k ∧
            t'.started = t.started := fun x => ⟨t, by rw [List.getElem?_set_ne hij, ht], rfl, hf, rfl⟩
        unfold LSt.dispatch
        split
        · exact other' _
        · split
          · exact other' _
          · split
            · exact other' _
            · dsimp only
              split
              · exact other' _
              · exact other' _
              · split <;> exact other' _
      · exact same _ rfl
    · exact same _ rfl
  | result i =>
    simp only [lstep]
    split
    · next u hi =>
      split
      · split
        · exact same _ rfl
        · exact upd _ i u _ hi rfl rfl rfl rfl
        · exact same _ rfl
      · exact same _ rfl
    · exact same _ rfl
  | expire i =>
    simp only [lstep]
    split
    · next u hi =>
      split
      · next d r k' _ _ _ =>
        split
        · exact upd _ i u { u with st := toWrite (failMsg r.id .timeout), fate := some .expired } hi
            (by unfold LSt.setTask LSt.cancelFut; split <;> rfl) rfl rfl rfl
        · exact same _ rfl
      · exact same _ rfl
    · exact same _ rfl
  | write i =>
    simp only [lstep]
    split
    · next u hi =>
      split
      · exact upd _ i u { u with st := .ended } hi (by unfold LSt.setTask LSt.write; split <;> rfl) rfl rfl rfl
      · exact same _ rfl
    · exact same _ rfl
  | futStart k => simp only [lstep]; split <;> exact same _ rfl
  | futFinish k o => simp only [lstep]; split <;> exact same _ rfl
  | tick d => exact same _ rfl
  | register r => exact same _ rfl

/-- a call that is over stays so -/
theorem callOver_stays (svc : Services) (reg : Registry) (evs evs' : List LEv) {j : Nat} {t : Task} {o : Outcome}
    (ht : (lrun svc reg evs).tasks[j]? = some t) (ho : callOver (lrun svc reg evs) t o) :
    ∃ t' : Task, (lrun svc reg (evs ++ evs')).tasks[j]? = some t' ∧ t'.kind = t.kind ∧ t'.started = t.started ∧
      callOver (lrun svc reg (evs ++ evs')) t' o := by
  induction evs' using snoc_induct with
  | nil => rw [List.append_nil]; exact ⟨t, ht, rfl, rfl, ho⟩
  | snoc evs' e ih =>
    obtain ⟨t1, h1, h2, h3, k, f, h4, h5, h6⟩ := ih
    rw [← List.append_assoc, lrun_snoc]
    obtain ⟨t2, g1, g2, g3, g4⟩ := call_stays (LInv.run svc reg (evs ++ evs')) e h1 h4
    refine ⟨t2, g1, g2.trans h2, g4.trans h3, k, ?_⟩
    have hfs : (lrun svc reg (evs ++ evs')).futSt k = some (.finished o) := by
      unfold LSt.futSt; rw [h5, Option.map_some, h6]
    have : (lstep svc (lrun svc reg (evs ++ evs')) e).futSt k = some (.finished o) := by
      rcases futSt_lstep svc _ e k _ hfs with h7 | ⟨h7, -⟩ | ⟨h7, -⟩ | ⟨h7, -⟩
      · exact h7
      all_goals cases h7
    unfold LSt.futSt at this
    obtain ⟨f', a, b⟩ := Option.map_eq_some_iff.1 this
    exact ⟨f', g3, a, b⟩

/-- C170, the case left out: a request whose call ended in StopIteration gets no response but TIMEOUT, and that not before
its time is up, whatever happens later. So a request without a positive timeout gets none. -/
theorem C170_stop_iteration (svc : Services) (reg : Registry) (evs evs' : List LEv) (j : Nat) (t : Task) (r : Req)
    (ht : (lrun svc reg evs).tasks[j]? = some t) (hk : t.kind = .dispatch r)
    (ho : callOver (lrun svc reg evs) t (.raised .stopIteration)) (m : Bytes)
    (hm : (Origin.task j, m) ∈ (lrun svc reg (evs ++ evs')).out) :
    r.timeout > 0 ∧ m = reply r.id 0x07 [] ∧
      ∃ t0, t.started = some t0 ∧ t0 + r.timeout ≤ (lrun svc reg (evs ++ evs')).now := by
  obtain ⟨t', h1, h2, h3, k, f, h4, h5, h6⟩ := callOver_stays svc reg evs evs' ht ho
  have h := LInv.run svc reg (evs ++ evs')
  obtain ⟨t1, g1, g2, g3⟩ := h.outTask j m hm
  rw [h1] at g1
  injection g1 with g1
  subst g1
  have htk := h.task j t' h1
  unfold TaskOk at htk
  rw [h2, hk, g2] at htk
  obtain ⟨hf, hfate, -⟩ := htk
  obtain ⟨fa, hfa⟩ := Option.isSome_iff_exists.1 (show t'.fate.isSome = true from hf)
  have hfo := hfate fa hfa
  simp only [taskReply, h2, hk, hfa, Option.bind_some] at g3
  cases fa with
  | badName => rw [hfo.2] at h4; cases h4
  | badCarrier => rw [hfo.2.2.1] at h4; cases h4
  | notFound => rw [hfo.1] at h4; cases h4
  | failed e => rw [hfo.1] at h4; cases h4
  | accepted => cases g3
  | expired =>
    cases g3
    obtain ⟨-, -, hp, t0, a, b⟩ := hfo
    exact ⟨hp, rfl, t0, by rw [← h3]; exact a, b⟩
  | answered o =>
    obtain ⟨⟨-, hne⟩, k', f', e1, e2, e3⟩ := hfo
    rw [h4] at e1
    injection e1 with e1
    subst e1
    rw [h5] at e2
    injection e2 with e2
    subst e2
    rw [h6] at e3
    injection e3 with e3
    exact absurd e3.symm hne

/-- a two-way request without a timeout -/
def exNoTimeout : ReqFrame := ⟨⟨1, 1, 1, 1, 3, 11, 0⟩, exHdrBytes, exReqHeader, [1]⟩

/-- its task when its call is over -/
def exStopTask : Task := ⟨.dispatch exNoTimeout.req, .waiting none, some 0, none, some exReg, some 0⟩

set_option maxRecDepth 20000 in
/-- A request whose method raises StopIteration is not answered. -/
theorem C170_violated : ¬ C170_full := by
  intro h
  have hs : (lrun exServices exReg (exCallEvs exNoTimeout.bytes (.raised .stopIteration))).tasks = [exStopTask] := by
    decide +kernel
  have hf : ∃ f : Fut, (lrun exServices exReg (exCallEvs exNoTimeout.bytes (.raised .stopIteration))).futs[0]? = some f ∧
      f.st = .finished (.raised .stopIteration) := by
    have h1 : (lrun exServices exReg (exCallEvs exNoTimeout.bytes (.raised .stopIteration))).futSt 0 =
        some (.finished (.raised .stopIteration)) := by decide +kernel
    unfold LSt.futSt at h1
    exact Option.map_eq_some_iff.1 h1
  obtain ⟨f, hf, hst⟩ := hf
  have hsp : spent exServices (lrun exServices exReg (exCallEvs exNoTimeout.bytes (.raised .stopIteration))) 0 := by
    unfold spent
    decide +kernel
  obtain ⟨m, hm⟩ := h exServices exReg (exCallEvs exNoTimeout.bytes (.raised .stopIteration)) 0 exStopTask exNoTimeout.req
    .stopIteration (by rw [hs]; rfl) rfl (by decide) ⟨0, f, rfl, hf, hst⟩ hsp (by decide +kernel)
  have : (lrun exServices exReg (exCallEvs exNoTimeout.bytes (.raised .stopIteration))).out = [] := by decide +kernel
  rw [this] at hm
  cases hm

set_option maxRecDepth 20000 in
/-- Another exception: UNKNOWN. StopIteration and a timeout of 100: TIMEOUT, when that time has passed. -/
example :
    let s := lrun exServices exReg (exCallEvs exNoTimeout.bytes (.raised .other) ++ [.write 0])
    let s' := lrun exServices exReg (exCallEvs (exReq 3 [1]).bytes (.raised .stopIteration) ++
      [.tick 99, .expire 0, .write 0])
    let s'' := lrun exServices exReg (exCallEvs (exReq 3 [1]).bytes (.raised .stopIteration) ++
      [.tick 99, .expire 0, .write 0] ++ [.tick 1, .expire 0, .write 0])
    (s.out = [(.task 0, reply 3 3 [])] ∧ s.futSt 0 = some (.finished (.raised .other)) ∧
      s.tasks.map Task.fut = [some 0] ∧ s.closed = false ∧
      lstep exServices s (.result 0) = s ∧ lstep exServices s (.write 0) = s) ∧
    (s'.out = [] ∧ s'.futSt 0 = some (.finished (.raised .stopIteration)) ∧
      lstep exServices s' (.result 0) = s' ∧ lstep exServices s' (.write 0) = s') ∧
    s''.out = [(.task 0, reply 3 7 [])] := by
  decide +kernel

end Bolt
