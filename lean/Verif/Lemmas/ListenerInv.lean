import Verif.Lemmas.Listener
/-!
# The invariant of a listener connection
-/
namespace Bolt
open Spec

/-- futures only make progress -/
def FutsLe (fs fs' : List Fut) : Prop :=
  ∀ (k : Nat) (f : Fut), fs[k]? = some f → ∃ f' : Fut, fs'[k]? = some f' ∧ f'.func = f.func ∧ f'.body = f.body ∧ f'.ctx = f.ctx ∧
    f'.heap = f.heap ∧ ∀ o, f.st = .finished o → f'.st = .finished o

theorem FutsLe.refl (fs : List Fut) : FutsLe fs fs := fun _ f h => ⟨f, h, rfl, rfl, rfl, rfl, fun _ h => h⟩

theorem FutsLe.append (fs x : List Fut) : FutsLe fs (fs ++ x) := by
  intro k f h
  refine ⟨f, ?_, rfl, rfl, rfl, rfl, fun _ h => h⟩
  rw [List.getElem?_append_left (List.getElem?_eq_some_iff.1 h).1, h]

theorem FutsLe.setFut (s : LSt) (k : Nat) (st : FutSt) (h : ∀ o, s.futSt k ≠ some (.finished o)) :
    FutsLe s.futs (s.setFut k st).futs := by
  intro j f hf
  by_cases hj : k = j
  · subst hj
    refine ⟨{ f with st := st }, ?_, rfl, rfl, rfl, rfl, ?_⟩
    · simp [LSt.setFut, hf]
    · intro o ho
      exact absurd (by simp [LSt.futSt, hf, ho]) (h o)
  · exact ⟨f, by simp [LSt.setFut, hj, hf], rfl, rfl, rfl, rfl, fun _ h => h⟩

/-- the call a task has submitted is the one its request asks for -/
def FutOk (svc : Services) (futs : List Fut) (r : Req) (t : Task) (k : Nat) : Prop :=
  ∃ (f : Fut) (sname mname : PyStr) (reg : Registry) (h0 : Heap) (fresh : PyStr), futs[k]? = some f ∧ f.body = r.body ∧ serviceOf r.header = some sname ∧
    methodOf r.header = some mname ∧ extract h0 fresh r.header = .ok (f.heap, f.ctx) ∧ t.ran = some reg ∧
    findMethod svc reg f.heap f.ctx sname mname = .ok f.func ∧ t.started.isSome

/-- the recorded fate is true -/
def FateOk (svc : Services) (futs : List Fut) (now : Int) (r : Req) (t : Task) : Fate → Prop
  | .badName => (serviceOf r.header = none ∨ methodOf r.header = none) ∧ t.fut = none
  | .badCarrier => (serviceOf r.header).isSome ∧ (methodOf r.header).isSome ∧ t.fut = none ∧
      ∃ h0 fresh e, extract h0 fresh r.header = .error e
  | .notFound => t.fut = none ∧ ∃ sname mname reg h0 fresh h ctx, serviceOf r.header = some sname ∧
      methodOf r.header = some mname ∧ extract h0 fresh r.header = .ok (h, ctx) ∧ t.ran = some reg ∧
      findMethod svc reg h ctx sname mname = .error .noProcessor
  | .failed e => t.fut = none ∧ e ≠ .noProcessor ∧ ∃ sname mname reg h0 fresh h ctx,
      serviceOf r.header = some sname ∧ methodOf r.header = some mname ∧
      extract h0 fresh r.header = .ok (h, ctx) ∧ t.ran = some reg ∧
      findMethod svc reg h ctx sname mname = .error e
  | .accepted => r.callType = 2 ∧ t.fut.isSome
  | .expired => r.callType ≠ 2 ∧ t.fut.isSome ∧ r.timeout > 0 ∧ ∃ t0, t.started = some t0 ∧ t0 + r.timeout ≤ now
  | .answered o => (r.callType ≠ 2 ∧ o ≠ .raised .stopIteration) ∧ ∃ (k : Nat) (f : Fut), t.fut = some k ∧ futs[k]? = some f ∧ f.st = .finished o

/-- the state of a dispatch task and its record agree -/
def StOk (r : Req) (t : Task) : TaskSt → Prop
  | .new => t.fut = none ∧ t.fate = none
  | .waiting d => t.fate = none ∧ r.callType ≠ 2 ∧ t.fut.isSome ∧
      d = if r.timeout > 0 then t.started.map (· + r.timeout) else none
  | .writing m => ∃ f, t.fate = some f ∧ owed r.id f = some m
  | .ended => t.fate.isSome

/-- a task is as it should be -/
def TaskOk (svc : Services) (futs : List Fut) (now : Int) (t : Task) : Prop :=
  match t.kind with
  | .heartbeat id => t.fut = none ∧ (t.st = .ended ∨ t.st = .writing (heartbeatAck id))
  | .dispatch r => StOk r t t.st ∧ (∀ f : Fate, t.fate = some f → FateOk svc futs now r t f) ∧
      (∀ k : Nat, t.fut = some k → FutOk svc futs r t k)

theorem FutOk.mono {svc : Services} {fs fs' : List Fut} (h : FutsLe fs fs') {r : Req} {t : Task} {k : Nat}
    (hk : FutOk svc fs r t k) : FutOk svc fs' r t k := by
  obtain ⟨f, a, b, reg, h0, fresh, e1, e2, e3, e4, e5, e6, e7, e8⟩ := hk
  obtain ⟨f', g1, g2, g3, g4, g5, -⟩ := h k f e1
  exact ⟨f', a, b, reg, h0, fresh, g1, by rw [g3, e2], e3, e4, by rw [g4, g5, e5], e6, by rw [g2, g4, g5, e7], e8⟩

theorem FateOk.mono {svc : Services} {fs fs' : List Fut} (h : FutsLe fs fs') {now now' : Int} (hn : now ≤ now')
    {r : Req} {t : Task} {f : Fate} (hf : FateOk svc fs now r t f) : FateOk svc fs' now' r t f := by
  cases f with
  | answered o =>
    obtain ⟨h1, k, f, e1, e2, e3⟩ := hf
    obtain ⟨f', g1, -, -, -, -, g2⟩ := h k f e2
    exact ⟨h1, k, f', e1, g1, g2 o e3⟩
  | expired =>
    obtain ⟨h1, h2, h3, t0, e1, e2⟩ := hf
    exact ⟨h1, h2, h3, t0, e1, by omega⟩
  | _ => exact hf

theorem TaskOk.mono {svc : Services} {fs fs' : List Fut} (h : FutsLe fs fs') {now now' : Int} (hn : now ≤ now')
    {t : Task} (ht : TaskOk svc fs now t) : TaskOk svc fs' now' t := by
  unfold TaskOk at *
  split
  · next e => rw [e] at ht; exact ht
  · next e =>
    rw [e] at ht
    exact ⟨ht.1, fun f hf => (ht.2.1 f hf).mono h hn, fun k hk => (ht.2.2 k hk).mono h⟩

/-- a task keeps its kind and, once it has one, its future -/
structure LInv (svc : Services) (s : LSt) : Prop where
  rdOk : s.rd.Ok
  actsOk : ∀ a ∈ s.acts, ∀ i, actId a = some i → IdOk i
  kinds : s.tasks.map Task.kind = s.acts.filterMap actTask
  task : ∀ (i : Nat) (t : Task), s.tasks[i]? = some t → TaskOk svc s.futs s.now t
  outTask : ∀ (i : Nat) (m : Bytes), (Origin.task i, m) ∈ s.out →
    ∃ t : Task, s.tasks[i]? = some t ∧ t.st = .ended ∧ taskReply t = some m
  outReader : ∀ (n : Nat) (m : Bytes), (Origin.reader n, m) ∈ s.out →
    ∃ a : Act, s.acts[n]? = some a ∧ actReply a = some m ∧ (s.tail = .reading ∨ n + 1 < s.acts.length)
  nodup : (s.out.map Prod.fst).Nodup
  ended : ∀ (i : Nat) (t : Task) (m : Bytes), s.tasks[i]? = some t → t.st = .ended → taskReply t = some m →
    s.closed = true ∨ (Origin.task i, m) ∈ s.out
  readerOut : ∀ (n : Nat) (a : Act) (m : Bytes), s.acts[n]? = some a → actReply a = some m →
    s.closed = true ∨ (Origin.reader n, m) ∈ s.out ∨ (n + 1 = s.acts.length ∧ s.tail ≠ .reading)
  replying : ∀ m, s.tail = .replying m → ∃ a, s.acts.getLast? = some a ∧ actReply a = some m
  closing : ∀ mo, s.tail = .closing mo → ∃ a, s.acts.getLast? = some a ∧ actReply a = mo
  futInj : ∀ (i j : Nat) (ti tj : Task) (k : Nat), s.tasks[i]? = some ti → s.tasks[j]? = some tj →
    ti.fut = some k → tj.fut = some k → i = j
  futOwner : ∀ k, k < s.futs.length → ∃ (i : Nat) (t : Task), s.tasks[i]? = some t ∧ t.fut = some k

theorem LInv.init (svc : Services) (reg : Registry) : LInv svc { reg := reg } where
  rdOk := ReadSt.ok_init
  actsOk := by intro a ha; cases ha
  kinds := rfl
  task := by intro i t h; cases h
  outTask := by intro i m h; cases h
  outReader := by intro i m h; cases h
  nodup := List.nodup_nil
  ended := by intro i t m h; cases h
  readerOut := by intro n a m h; cases h
  replying := by intro m h; cases h
  closing := by intro m h; cases h
  futInj := by intro i j ti tj k h; cases h
  futOwner := by intro k h; cases h

/-- changes to fields the invariant does not read, new bytes, passing time, progress of futures -/
theorem LInv.congr {svc : Services} {s s' : LSt} (h : LInv svc s) (e1 : s'.rd = s.rd) (e2 : s'.tail = s.tail)
    (e3 : s'.acts = s.acts) (e4 : s'.tasks = s.tasks) (e5 : FutsLe s.futs s'.futs)
    (e5' : s'.futs.length = s.futs.length) (e6 : s'.out = s.out)
    (e7 : s'.closed = s.closed) (e8 : s.now ≤ s'.now) : LInv svc s' where
  rdOk := e1 ▸ h.rdOk
  actsOk := e3 ▸ h.actsOk
  kinds := by rw [e4, e3]; exact h.kinds
  task := by rw [e4]; intro i t ht; exact (h.task i t ht).mono e5 e8
  outTask := by rw [e4, e6]; exact h.outTask
  outReader := by rw [e3, e6, e2]; exact h.outReader
  nodup := by rw [e6]; exact h.nodup
  ended := by rw [e4, e6, e7]; exact h.ended
  readerOut := by rw [e3, e6, e7, e2]; exact h.readerOut
  replying := by rw [e2, e3]; exact h.replying
  closing := by rw [e2, e3]; exact h.closing
  futInj := by rw [e4]; exact h.futInj
  futOwner := by rw [e4, e5']; exact h.futOwner

/-- a task that is not ended has written nothing; it may change its state and record -/
theorem LInv.setTask {svc : Services} {s s' : LSt} (h : LInv svc s) {i : Nat} {t t' : Task}
    (ht : s.tasks[i]? = some t) (hst : t.st ≠ .ended) (hk : t'.kind = t.kind)
    (e0 : s'.tasks = s.tasks.set i t')
    (e1 : s'.rd = s.rd) (e2 : s'.tail = s.tail) (e3 : s'.acts = s.acts) (e5 : FutsLe s.futs s'.futs)
    (e6 : s'.out = s.out) (e7 : s'.closed = s.closed) (e8 : s.now ≤ s'.now)
    (hok : TaskOk svc s'.futs s'.now t') (hend : t'.st = .ended → taskReply t' = none)
    (hfut : (t'.fut = t.fut ∧ s'.futs.length = s.futs.length) ∨
      (t.fut = none ∧ t'.fut = some s.futs.length ∧ s'.futs.length = s.futs.length + 1)) : LInv svc s' := by
  have hi : i < s.tasks.length := (List.getElem?_eq_some_iff.1 ht).1
  have get : ∀ j, s'.tasks[j]? = if i = j then some t' else s.tasks[j]? := by
    intro j; rw [e0, List.getElem?_set]
    by_cases e : i = j
    · subst e; simp [hi]
    · simp [e]
  have futlt : ∀ (j : Nat) (u : Task) (k : Nat), s.tasks[j]? = some u → u.fut = some k → k < s.futs.length := by
    intro j u k hu hk
    have := h.task j u hu
    unfold TaskOk at this
    split at this
    · rw [this.1] at hk; cases hk
    · obtain ⟨f, _, _, _, _, _, hf, _⟩ := this.2.2 k hk
      exact (List.getElem?_eq_some_iff.1 hf).1
  refine ⟨e1 ▸ h.rdOk, e3 ▸ h.actsOk, ?_, ?_, ?_, ?_, by rw [e6]; exact h.nodup, ?_, ?_, ?_, ?_, ?_, ?_⟩
  · rw [e3, ← h.kinds, e0, List.map_set, hk]
    have : s.tasks.map Task.kind = (s.tasks.map Task.kind).set i t.kind := by
      rw [← List.map_set]
      congr 1
      have := List.getElem?_eq_some_iff.1 ht
      rw [← this.2, List.set_getElem_self]
    exact this.symm
  · intro j u hu
    rw [get] at hu
    split at hu
    · cases hu; exact hok
    · exact (h.task j u hu).mono e5 e8
  · intro j m hm
    rw [e6] at hm
    obtain ⟨u, hu, he, hr⟩ := h.outTask j m hm
    refine ⟨u, ?_, he, hr⟩
    rw [get]
    split
    · next e => subst e; rw [ht] at hu; cases hu; exact absurd he hst
    · exact hu
  · rw [e3, e6, e2]; exact h.outReader
  · intro j u m hu he hr
    rw [get] at hu
    rw [e6, e7]
    split at hu
    · cases hu; rw [hend he] at hr; cases hr
    · exact h.ended j u m hu he hr
  · rw [e3, e6, e7, e2]; exact h.readerOut
  · rw [e2, e3]; exact h.replying
  · rw [e2, e3]; exact h.closing
  · intro a b ta tb k ha hb hka hkb
    rw [get] at ha hb
    rcases hfut with ⟨hf, -⟩ | ⟨hf, hf', -⟩
    · split at ha <;> split at hb
      · omega
      · next e1 _ => cases ha; subst e1; exact h.futInj i b t tb k ht hb (hf ▸ hka) hkb
      · next e1 => cases hb; subst e1; exact h.futInj a i ta t k ha ht hka (hf ▸ hkb)
      · exact h.futInj a b ta tb k ha hb hka hkb
    · split at ha <;> split at hb
      · omega
      · cases ha; rw [hf'] at hka; cases hka; exact absurd (futlt b tb _ hb hkb) (by omega)
      · cases hb; rw [hf'] at hkb; cases hkb; exact absurd (futlt a ta _ ha hka) (by omega)
      · exact h.futInj a b ta tb k ha hb hka hkb
  · intro k hk
    rcases hfut with ⟨hf, hl⟩ | ⟨hf, hf', hl⟩
    · obtain ⟨j, u, hu, hku⟩ := h.futOwner k (by omega)
      by_cases e : i = j
      · subst e; rw [ht] at hu; cases hu
        exact ⟨i, t', by rw [get, if_pos rfl], by rw [hf, hku]⟩
      · exact ⟨j, u, by rw [get, if_neg e, hu], hku⟩
    · by_cases e : k = s.futs.length
      · exact ⟨i, t', by rw [get, if_pos rfl], by rw [hf', e]⟩
      · obtain ⟨j, u, hu, hku⟩ := h.futOwner k (by omega)
        refine ⟨j, u, ?_, hku⟩
        rw [get, if_neg]
        · exact hu
        · rintro rfl; rw [ht] at hu; cases hu; rw [hf] at hku; cases hku

theorem toWrite_ok (b : Bytes) : toWrite (.ok b) = .writing b := rfl

/-- the id of a dispatch task fits -/
theorem LInv.idOk {svc : Services} {s : LSt} (h : LInv svc s) {i : Nat} {t : Task} (ht : s.tasks[i]? = some t)
    {r : Req} (hk : t.kind = .dispatch r) : IdOk r.id := by
  have h1 : TaskKind.dispatch r ∈ s.tasks.map Task.kind := by
    rw [List.mem_map]; exact ⟨t, List.mem_of_getElem? ht, hk⟩
  rw [h.kinds, List.mem_filterMap] at h1
  obtain ⟨a, ha, he⟩ := h1
  cases a <;> simp only [actTask] at he <;> cases he
  exact h.actsOk _ ha _ rfl

theorem afterCall_spec (id : Int) (hid : IdOk id) (o : Outcome) :
    (∃ m, afterCall id o = .writing m ∧ owed id (.answered o) = some m) ∨
    (afterCall id o = .ended ∧ owed id (.answered o) = none) := by
  cases o with
  | raised e =>
    cases e <;> left <;> simp only [afterCall, owed, failMsg_ok id hid, toWrite] <;> exact ⟨_, rfl, rfl⟩
  | ret v =>
    cases v with
    | bytes c =>
      simp only [afterCall, owed, PyObj.truthy]
      by_cases hc : c = []
      · right; simp [hc]
      · rw [resultMsg_bytes id hid]
        by_cases hl : c.length < 4294967296
        · left; simp [hc, hl, toWrite]
        · right; simp [hl, toWrite]
    | none => right; exact ⟨rfl, rfl⟩
    | _ =>
      right
      refine ⟨?_, rfl⟩
      simp only [afterCall]
      split
      · rw [resultMsg_other id _ (by intro c h; cases h)]; rfl
      · rfl

theorem LInv.dispatch {svc : Services} {s : LSt} (h : LInv svc s) {i : Nat} {t : Task} {r : Req}
    (ht : s.tasks[i]? = some t) (hst : t.st = .new) (hk : t.kind = .dispatch r) (fresh : PyStr) :
    LInv svc (s.dispatch svc i t r fresh) := by
  have hid := h.idOk ht hk
  have hne : t.st ≠ .ended := by rw [hst]; intro hh; cases hh
  have hto := h.task i t ht
  unfold TaskOk at hto
  rw [hk] at hto
  simp only [hst] at hto
  obtain ⟨⟨hfut, hfate⟩, -, -⟩ := hto
  have bad : ∀ (st : RespStatus) (f : Fate) (s' : LSt) (ran : Option Registry), s'.tasks = s.tasks.set i
      { t with st := toWrite (failMsg r.id st), fate := some f, ran := ran } →
      s'.rd = s.rd → s'.tail = s.tail → s'.acts = s.acts → s'.futs = s.futs → s'.out = s.out →
      s'.closed = s.closed → s'.now = s.now → owed r.id f = some (reply r.id st.code []) →
      FateOk svc s.futs s.now r { t with st := toWrite (failMsg r.id st), fate := some f, ran := ran } f →
      LInv svc s' := by
    intro st f s' ran e0 e1 e2 e3 e5 e6 e7 e8 ho hf
    refine h.setTask (t' := ⟨t.kind, toWrite (failMsg r.id st), t.fut, some f, ran, t.started⟩) ht hne rfl e0 e1 e2 e3 (e5 ▸ FutsLe.refl _) e6 e7 (by omega) ?_ ?_ (.inl ⟨rfl, by rw [e5]⟩)
    · unfold TaskOk
      rw [hk]
      dsimp only
      rw [failMsg_ok _ hid, toWrite_ok]
      refine ⟨⟨f, rfl, ho⟩, ?_, ?_⟩
      · intro f' hf'; cases hf'; rw [e5, e8]; rw [failMsg_ok _ hid, toWrite_ok] at hf; exact hf
      · intro k hk'; replace hk' : t.fut = some k := hk'; rw [hfut] at hk'; cases hk'
    · intro he; rw [failMsg_ok _ hid] at he; cases he
  unfold LSt.dispatch
  split
  · next hs => exact bad .clientSendError .badName _ t.ran rfl rfl rfl rfl rfl rfl rfl rfl rfl ⟨.inl hs, hfut⟩
  · next sname hs =>
    split
    · next hm => exact bad .clientSendError .badName _ t.ran rfl rfl rfl rfl rfl rfl rfl rfl rfl ⟨.inr hm, hfut⟩
    · next mname hm =>
      split
      · next e he =>
        refine h.setTask ht hne (t' := { t with st := .ended, fate := some .badCarrier }) rfl rfl rfl rfl rfl
          (FutsLe.refl _) rfl rfl (Int.le_refl _) ?_ ?_ (.inl ⟨rfl, rfl⟩)
        · unfold TaskOk; rw [hk]
          refine ⟨rfl, ?_, ?_⟩
          · intro f' hf'; cases hf'
            exact ⟨by rw [hs]; rfl, by rw [hm]; rfl, hfut, _, _, _, he⟩
          · intro k hk'; replace hk' : t.fut = some k := hk'; rw [hfut] at hk'; cases hk'
        · intro _; simp [taskReply, hk, owed]
      · next heap ctx he =>
        dsimp only
        split
        · next hf =>
          exact bad .noProcessor .notFound _ (some s.reg) rfl rfl rfl rfl rfl rfl rfl rfl rfl
            ⟨hfut, sname, mname, s.reg, _, _, heap, ctx, hs, hm, he, rfl, hf⟩
        · next e hne' hf =>
          exact bad .serverException (.failed e) _ (some s.reg) rfl rfl rfl rfl rfl rfl rfl rfl rfl
            ⟨hfut, by rintro rfl; exact hne' rfl, sname, mname, s.reg, _, _, heap, ctx, hs, hm, he, rfl, hf⟩
        · next func hf =>
          have hget : (s.futs ++ [({ func := func, body := r.body, ctx := ctx, heap := heap } : Fut)])[s.futs.length]? =
              some { func := func, body := r.body, ctx := ctx, heap := heap } := by simp
          split
          · next hone =>
            refine h.setTask ht hne (t' := ⟨t.kind, .ended, some s.futs.length, some .accepted,
              some s.reg, some s.now⟩) rfl rfl rfl rfl rfl
              (FutsLe.append _ _) rfl rfl (Int.le_refl _) ?_ ?_
              (.inr ⟨hfut, rfl, by simp [LSt.setTask]⟩)
            · unfold TaskOk; rw [hk]
              refine ⟨rfl, ?_, ?_⟩
              · intro f' hf'; cases hf'
                exact ⟨hone.symm, rfl⟩
              · intro k hk'; cases hk'
                exact ⟨_, sname, mname, s.reg, _, _, hget, rfl, hs, hm, he, rfl, hf, rfl⟩
            · intro _; simp [taskReply, hk, owed]
          · next hone =>
            refine h.setTask ht hne (t' := ⟨t.kind,
              .waiting (if r.timeout > 0 then some (s.now + r.timeout) else none), some s.futs.length, t.fate,
              some s.reg, some s.now⟩) rfl rfl rfl rfl rfl
              (FutsLe.append _ _) rfl rfl (Int.le_refl _) ?_ ?_
              (.inr ⟨hfut, rfl, by simp [LSt.setTask]⟩)
            · unfold TaskOk; rw [hk]
              refine ⟨⟨hfate, fun hh => hone hh.symm, rfl, rfl⟩, ?_, ?_⟩
              · intro f' hf'; dsimp only at hf'; rw [hfate] at hf'; cases hf'
              · intro k hk'; cases hk'
                exact ⟨_, sname, mname, s.reg, _, _, hget, rfl, hs, hm, he, rfl, hf, rfl⟩
            · intro hh; cases hh

/-- writing the message of a task, which then ends -/
theorem LInv.writeTask {svc : Services} {s : LSt} (h : LInv svc s) {i : Nat} {t : Task} {m : Bytes}
    (ht : s.tasks[i]? = some t) (hst : t.st = .writing m) :
    LInv svc ((s.write (.task i) m).setTask i { t with st := .ended }) := by
  have hi : i < s.tasks.length := (List.getElem?_eq_some_iff.1 ht).1
  have hto := h.task i t ht
  have hrep : taskReply { t with st := .ended } = some m := by
    unfold TaskOk at hto
    unfold taskReply
    dsimp only
    split at hto
    · next id hk =>
      rw [hk]
      rcases hto.2 with e | e
      · rw [e] at hst; cases hst
      · rw [e] at hst; cases hst; rfl
    · next r hk =>
      rw [hk]
      rw [hst] at hto
      obtain ⟨⟨f, hf, ho⟩, -⟩ := hto
      rw [hf]; exact ho
  have hok : TaskOk svc s.futs s.now { t with st := .ended } := by
    unfold TaskOk at *
    dsimp only
    split at hto
    · exact ⟨hto.1, .inl rfl⟩
    · rw [hst] at hto
      obtain ⟨⟨f, hf, ho⟩, h2, h3⟩ := hto
      refine ⟨by simp [StOk, hf], ?_, ?_⟩
      · intro f hf; have := h2 f hf; cases f <;> exact this
      · exact h3
  have hnot : ∀ m', (Origin.task i, m') ∉ s.out := by
    intro m' hm'
    obtain ⟨u, hu, he, -⟩ := h.outTask i m' hm'
    rw [ht] at hu; cases hu; rw [hst] at he; cases he
  have get : ∀ j, (s.tasks.set i { t with st := .ended })[j]? =
      if i = j then some { t with st := .ended } else s.tasks[j]? := by
    intro j; rw [List.getElem?_set]
    by_cases e : i = j
    · subst e; simp [hi]
    · simp [e]
  have e0 : ((s.write (.task i) m).setTask i { t with st := .ended }).tasks = s.tasks.set i { t with st := .ended } := by
    unfold LSt.setTask LSt.write; split <;> rfl
  have efut : ((s.write (.task i) m).setTask i { t with st := .ended }).futs = s.futs := by
    unfold LSt.setTask LSt.write; split <;> rfl
  have enow : ((s.write (.task i) m).setTask i { t with st := .ended }).now = s.now := by
    unfold LSt.setTask LSt.write; split <;> rfl
  have eacts : ((s.write (.task i) m).setTask i { t with st := .ended }).acts = s.acts := by
    unfold LSt.setTask LSt.write; split <;> rfl
  have etail : ((s.write (.task i) m).setTask i { t with st := .ended }).tail = s.tail := by
    unfold LSt.setTask LSt.write; split <;> rfl
  have erd : ((s.write (.task i) m).setTask i { t with st := .ended }).rd = s.rd := by
    unfold LSt.setTask LSt.write; split <;> rfl
  have eclosed : ((s.write (.task i) m).setTask i { t with st := .ended }).closed = s.closed := by
    unfold LSt.setTask LSt.write; split <;> rfl
  have eout : ((s.write (.task i) m).setTask i { t with st := .ended }).out =
      if s.closed then s.out else s.out ++ [(.task i, m)] := by
    unfold LSt.setTask LSt.write; split <;> rfl
  have hmem : ∀ x, x ∈ ((s.write (.task i) m).setTask i { t with st := .ended }).out →
      x ∈ s.out ∨ x = (.task i, m) := by
    intro x hx; rw [eout] at hx
    split at hx
    · exact .inl hx
    · simpa using hx
  have hsub : ∀ x, x ∈ s.out → x ∈ ((s.write (.task i) m).setTask i { t with st := .ended }).out := by
    intro x hx; rw [eout]; split
    · exact hx
    · simp [hx]
  refine ⟨erd ▸ h.rdOk, eacts ▸ h.actsOk, ?_, ?_, ?_, ?_, ?_, ?_, ?_, ?_, ?_, ?_, ?_⟩
  · rw [eacts, ← h.kinds, e0, List.map_set]
    have : s.tasks.map Task.kind = (s.tasks.map Task.kind).set i t.kind := by
      rw [← List.map_set]
      congr 1
      have := List.getElem?_eq_some_iff.1 ht
      rw [← this.2, List.set_getElem_self]
    exact this.symm
  · intro j u hu
    rw [e0, get] at hu
    rw [efut, enow]
    split at hu
    · cases hu; exact hok
    · exact h.task j u hu
  · intro j m' hm'
    rw [e0]
    rcases hmem _ hm' with hm' | hm'
    · obtain ⟨u, hu, he, hr⟩ := h.outTask j m' hm'
      refine ⟨u, ?_, he, hr⟩
      rw [get, if_neg]
      · exact hu
      · rintro rfl; exact hnot _ hm'
    · cases hm'
      exact ⟨_, by rw [get, if_pos rfl], rfl, hrep⟩
  · intro n m' hm'
    rw [eacts, etail]
    rcases hmem _ hm' with hm' | hm'
    · exact h.outReader n m' hm'
    · cases hm'
  · rw [eout]
    split
    · exact h.nodup
    · rw [List.map_append, List.nodup_append]
      refine ⟨h.nodup, by simp, ?_⟩
      intro a ha b hb
      simp at hb
      subst hb
      rintro rfl
      rw [List.mem_map] at ha
      obtain ⟨⟨o, m'⟩, hx, hy⟩ := ha
      cases hy
      exact hnot _ hx
  · intro j u m' hu he hr
    rw [e0, get] at hu
    rw [eclosed]
    split at hu
    · next e =>
      cases hu; subst e
      rw [hrep] at hr; cases hr
      by_cases hc : s.closed = true
      · exact .inl hc
      · right; rw [eout, if_neg hc]; simp
    · rcases h.ended j u m' hu he hr with hc | hc
      · exact .inl hc
      · exact .inr (hsub _ hc)
  · intro n a m' ha hr
    rw [eacts] at ha ⊢
    rw [eclosed, etail]
    rcases h.readerOut n a m' ha hr with hc | hc | hc
    · exact .inl hc
    · exact .inr (.inl (hsub _ hc))
    · exact .inr (.inr hc)
  · rw [etail, eacts]; exact h.replying
  · rw [etail, eacts]; exact h.closing
  · intro a b ta tb k ha hb hka hkb
    rw [e0, get] at ha hb
    split at ha <;> split at hb
    · omega
    · next e1 _ => cases ha; subst e1; exact h.futInj i b t tb k ht hb hka hkb
    · next e1 => cases hb; subst e1; exact h.futInj a i ta t k ha ht hka hkb
    · exact h.futInj a b ta tb k ha hb hka hkb
  · intro k hk
    rw [efut] at hk
    obtain ⟨j, u, hu, hku⟩ := h.futOwner k hk
    rw [e0]
    by_cases e : i = j
    · subst e; rw [ht] at hu; cases hu
      exact ⟨i, { t with st := .ended }, by rw [get, if_pos rfl], hku⟩
    · exact ⟨j, u, by rw [get, if_neg e, hu], hku⟩


/-- the reader has acted: a new action, the task it starts, the answer it is about to give -/
theorem LInv.addAct {svc : Services} {s s' : LSt} (h : LInv svc s) (a : Act) (ts : List Task)
    (htail : s.tail = .reading) (hid : ∀ i, actId a = some i → IdOk i)
    (e1 : s'.rd.Ok) (e3 : s'.acts = s.acts ++ [a]) (e4 : s'.tasks = s.tasks ++ ts)
    (e5 : s'.futs = s.futs) (e6 : s'.out = s.out) (e7 : s'.closed = s.closed) (e8 : s'.now = s.now)
    (hts : ts.map Task.kind = (actTask a).toList)
    (hok : ∀ t ∈ ts, TaskOk svc s.futs s.now t ∧ t.fut = none ∧ t.st ≠ .ended)
    (ht' : (s'.tail = .reading ∧ actReply a = none) ∨ (∃ m, s'.tail = .replying m ∧ actReply a = some m) ∨
      (∃ mo, s'.tail = .closing mo ∧ actReply a = mo)) : LInv svc s' := by
  have get : ∀ (j : Nat) (u : Task), s'.tasks[j]? = some u → s.tasks[j]? = some u ∨ u ∈ ts := by
    intro j u hu
    rw [e4, List.getElem?_append] at hu
    split at hu
    · exact .inl hu
    · exact .inr (List.mem_of_getElem? hu)
  have getl : ∀ (j : Nat) (u : Task), s.tasks[j]? = some u → s'.tasks[j]? = some u := by
    intro j u hu
    rw [e4, List.getElem?_append_left (List.getElem?_eq_some_iff.1 hu).1, hu]
  have acl : ∀ (n : Nat) (x : Act), s.acts[n]? = some x → s'.acts[n]? = some x ∧ n + 1 < s'.acts.length := by
    intro n x hx
    have := (List.getElem?_eq_some_iff.1 hx).1
    refine ⟨?_, by rw [e3]; simp; omega⟩
    rw [e3, List.getElem?_append_left this, hx]
  have alast : s'.acts.getLast? = some a := by rw [e3]; simp
  refine ⟨e1, ?_, ?_, ?_, ?_, ?_, by rw [e6]; exact h.nodup, ?_, ?_, ?_, ?_, ?_, ?_⟩
  · intro x hx i hi
    rw [e3, List.mem_append] at hx
    rcases hx with hx | hx
    · exact h.actsOk x hx i hi
    · simp at hx; subst hx; exact hid i hi
  · rw [e4, e3, List.map_append, h.kinds, hts, List.filterMap_append]
    cases hh : actTask a <;> simp [hh]
  · intro i t ht
    rw [e5, e8]
    rcases get i t ht with ht | ht
    · exact h.task i t ht
    · exact (hok t ht).1
  · intro i m hm
    rw [e6] at hm
    obtain ⟨t, ht, he⟩ := h.outTask i m hm
    exact ⟨t, getl i t ht, he⟩
  · intro n m hm
    rw [e6] at hm
    obtain ⟨x, hx, he, -⟩ := h.outReader n m hm
    exact ⟨x, (acl n x hx).1, he, .inr (acl n x hx).2⟩
  · intro i t m ht he hr
    rw [e6, e7]
    rcases get i t ht with ht | ht
    · exact h.ended i t m ht he hr
    · exact absurd he (hok t ht).2.2
  · intro n x m hx hr
    rw [e6, e7]
    by_cases hn : n < s.acts.length
    · rw [e3, List.getElem?_append_left hn] at hx
      rcases h.readerOut n x m hx hr with hc | hc | hc
      · exact .inl hc
      · exact .inr (.inl hc)
      · exact absurd htail hc.2
    · rw [e3, List.getElem?_append_right (by omega)] at hx
      have hlen := (List.getElem?_eq_some_iff.1 hx).1
      simp at hlen
      have : n = s.acts.length := by omega
      subst this
      simp at hx
      subst hx
      right; right
      refine ⟨by rw [e3]; simp, ?_⟩
      rcases ht' with ⟨-, hh⟩ | ⟨m, hh, -⟩ | ⟨m, hh, -⟩
      · rw [hh] at hr; cases hr
      · rw [hh]; intro hc; cases hc
      · rw [hh]; intro hc; cases hc
  · intro m hm
    rcases ht' with ⟨hh, -⟩ | ⟨m', hh, hr⟩ | ⟨m', hh, -⟩
    · rw [hh] at hm; cases hm
    · rw [hh] at hm; cases hm; exact ⟨a, alast, hr⟩
    · rw [hh] at hm; cases hm
  · intro m hm
    rcases ht' with ⟨hh, -⟩ | ⟨m', hh, hr⟩ | ⟨m', hh, hr⟩
    · rw [hh] at hm; cases hm
    · rw [hh] at hm; cases hm
    · rw [hh] at hm; cases hm; exact ⟨a, alast, hr⟩
  · intro i j ti tj k hi hj hki hkj
    rcases get i ti hi with hi | hi
    · rcases get j tj hj with hj | hj
      · exact h.futInj i j ti tj k hi hj hki hkj
      · rw [(hok tj hj).2.1] at hkj; cases hkj
    · rw [(hok ti hi).2.1] at hki; cases hki
  · intro k hk
    rw [e5] at hk
    obtain ⟨i, t, ht, he⟩ := h.futOwner k hk
    exact ⟨i, t, getl i t ht, he⟩

theorem LInv.perform {svc : Services} {s : LSt} (h : LInv svc s) (a : Act)
    (htail : s.tail = .reading) (hid : ∀ i, actId a = some i → IdOk i) (rd : ReadSt) (hrd : rd.Ok) (buf : Bytes) :
    LInv svc (LSt.perform { s with rd := rd, buf := buf } a) ∧
      (LSt.perform { s with rd := rd, buf := buf } a).rd = rd := by
  unfold LSt.perform
  dsimp only
  split
  · next r =>
    refine ⟨h.addAct _ [{ kind := .dispatch r }] htail hid hrd rfl rfl rfl rfl rfl rfl rfl ?_ (.inl ⟨htail, rfl⟩), rfl⟩
    intro t ht
    simp at ht; subst ht
    refine ⟨⟨⟨rfl, rfl⟩, ?_, ?_⟩, rfl, ?_⟩
    · intro f hf; cases hf
    · intro k hk; cases hk
    · intro hh; cases hh
  · next id =>
    rw [heartbeatMsg_ok id (hid id rfl)]
    refine ⟨h.addAct _ [{ kind := .heartbeat id, st := .writing (heartbeatAck id) }] htail hid hrd rfl rfl rfl rfl rfl
      rfl rfl ?_ (.inl ⟨htail, rfl⟩), rfl⟩
    intro t ht
    simp at ht; subst ht
    refine ⟨⟨rfl, .inr rfl⟩, rfl, ?_⟩
    intro hh; cases hh
  · next id st =>
    rw [failMsg_ok id (hid id rfl)]
    refine ⟨h.addAct _ [] htail hid hrd rfl (by simp) rfl rfl rfl rfl rfl ?_ (.inr (.inl ⟨_, rfl, rfl⟩)), rfl⟩
    intro t ht; cases ht
  · next id st =>
    refine ⟨h.addAct _ [] htail hid hrd rfl (by simp) rfl rfl rfl rfl rfl ?_ (.inr (.inr ⟨_, rfl, ?_⟩)), rfl⟩
    · intro t ht; cases ht
    · cases id with
      | none => rfl
      | some i => simp [actReply, failMsg_ok i (hid i rfl), Except.toOption]
  · refine ⟨h.addAct _ [] htail hid hrd rfl (by simp) rfl rfl rfl rfl rfl ?_ (.inl ⟨htail, rfl⟩), rfl⟩
    intro t ht; cases ht

/-- the reader writes its pending answer (and perhaps closes) -/
theorem LInv.writeReader {svc : Services} {s s' : LSt} (h : LInv svc s) {m : Bytes} {a : Act}
    (hlast : s.acts.getLast? = some a) (hr : actReply a = some m) (hrd : s.tail ≠ .reading)
    (e1 : s'.rd = s.rd) (e2 : s'.tail = .reading) (e3 : s'.acts = s.acts) (e4 : s'.tasks = s.tasks)
    (e5 : s'.futs = s.futs) (e6 : s'.out = if s.closed then s.out else s.out ++ [(.reader (s.acts.length - 1), m)])
    (e7 : s.closed = true → s'.closed = true) (e8 : s'.now = s.now) : LInv svc s' := by
  have hpos : s.acts ≠ [] := by intro hh; rw [hh] at hlast; cases hlast
  have hlen : 0 < s.acts.length := List.length_pos_iff.2 hpos
  have hget : s.acts[s.acts.length - 1]? = some a := by rw [← List.getLast?_eq_getElem?]; exact hlast
  have hmem : ∀ x, x ∈ s'.out → x ∈ s.out ∨ x = (.reader (s.acts.length - 1), m) := by
    intro x hx; rw [e6] at hx
    split at hx
    · exact .inl hx
    · simpa using hx
  have hsub : ∀ x, x ∈ s.out → x ∈ s'.out := by
    intro x hx; rw [e6]; split
    · exact hx
    · simp [hx]
  have hnot : ∀ m', (Origin.reader (s.acts.length - 1), m') ∉ s.out := by
    intro m' hm'
    obtain ⟨x, -, -, hh | hh⟩ := h.outReader _ _ hm'
    · exact hrd hh
    · omega
  refine ⟨e1 ▸ h.rdOk, e3 ▸ h.actsOk, by rw [e4, e3]; exact h.kinds, by rw [e4, e5, e8]; exact h.task, ?_, ?_, ?_,
    ?_, ?_, ?_, ?_, by rw [e4]; exact h.futInj, by rw [e4, e5]; exact h.futOwner⟩
  · intro i m' hm'
    rw [e4]
    rcases hmem _ hm' with hm' | hm'
    · exact h.outTask i m' hm'
    · cases hm'
  · intro n m' hm'
    rw [e3, e2]
    rcases hmem _ hm' with hm' | hm'
    · obtain ⟨x, hx, he, -⟩ := h.outReader n m' hm'
      exact ⟨x, hx, he, .inl rfl⟩
    · cases hm'
      exact ⟨a, hget, hr, .inl rfl⟩
  · rw [e6]
    split
    · exact h.nodup
    · rw [List.map_append, List.nodup_append]
      refine ⟨h.nodup, by simp, ?_⟩
      intro x hx y hy
      simp at hy
      subst hy
      rintro rfl
      rw [List.mem_map] at hx
      obtain ⟨⟨o, m'⟩, hx, hy⟩ := hx
      cases hy
      exact hnot _ hx
  · intro i t m' ht he hr'
    rw [e4] at ht
    rcases h.ended i t m' ht he hr' with hc | hc
    · exact .inl (e7 hc)
    · exact .inr (hsub _ hc)
  · intro n x m' hx hr'
    rw [e3] at hx
    rcases h.readerOut n x m' hx hr' with hc | hc | hc
    · exact .inl (e7 hc)
    · exact .inr (.inl (hsub _ hc))
    · by_cases hcl : s.closed = true
      · exact .inl (e7 hcl)
      · right; left
        have : n = s.acts.length - 1 := by omega
        subst this
        rw [hget] at hx; cases hx
        rw [hr] at hr'; cases hr'
        rw [e6, if_neg hcl]; simp
  · intro m' hm'; rw [e2] at hm'; cases hm'
  · intro m' hm'; rw [e2] at hm'; cases hm'

/-- nothing is written any more -/
theorem LInv.close {svc : Services} {s s' : LSt} (h : LInv svc s) (hrd : s'.rd.Ok)
    (e2 : s'.tail = .reading) (e3 : s'.acts = s.acts) (e4 : s'.tasks = s.tasks)
    (e5 : s'.futs = s.futs) (e6 : s'.out = s.out) (e7 : s'.closed = true) (e8 : s'.now = s.now) : LInv svc s' := by
  refine ⟨hrd, e3 ▸ h.actsOk, by rw [e4, e3]; exact h.kinds, by rw [e4, e5, e8]; exact h.task,
    by rw [e4, e6]; exact h.outTask, ?_, by rw [e6]; exact h.nodup, fun _ _ _ _ _ _ => .inl e7,
    fun _ _ _ _ _ => .inl e7, ?_, ?_, by rw [e4]; exact h.futInj, by rw [e4, e5]; exact h.futOwner⟩
  · intro n m' hm'
    rw [e6] at hm'
    obtain ⟨x, hx, he, -⟩ := h.outReader n m' hm'
    exact ⟨x, by rw [e3]; exact hx, he, .inl e2⟩
  · intro m' hm'; rw [e2] at hm'; cases hm'
  · intro m' hm'; rw [e2] at hm'; cases hm'

theorem LInv.reader {svc : Services} {s : LSt} (h : LInv svc s) : LInv svc s.reader := by
  unfold LSt.reader
  split
  · next htail =>
    split
    · exact h
    · next rd buf hi =>
      have := readerIter_ok h.rdOk hi
      exact ⟨this.1, h.actsOk, h.kinds, h.task, h.outTask, h.outReader, h.nodup, h.ended, h.readerOut, h.replying,
        h.closing, h.futInj, h.futOwner⟩
    · next rd buf a hi =>
      have := readerIter_ok h.rdOk hi
      exact (h.perform a htail (fun i ha => this.1.last i (this.2.1 a i rfl ha)) rd this.1 buf).1
  · next m htail =>
    obtain ⟨a, ha, hr⟩ := h.replying m htail
    refine h.writeReader ha hr (by rw [htail]; intro hh; cases hh) ?_ ?_ ?_ ?_ ?_ ?_ ?_ ?_
    all_goals (unfold LSt.write; split <;> first | rfl | (intro hh; exact hh) | simp_all)
  · next htail =>
    exact h.close h.rdOk rfl rfl rfl rfl rfl rfl rfl
  · next m htail =>
    obtain ⟨a, ha, hr⟩ := h.closing _ htail
    refine h.writeReader ha hr (by rw [htail]; intro hh; cases hh) ?_ ?_ ?_ ?_ ?_ ?_ ?_ ?_
    all_goals (unfold LSt.write; split <;> first | rfl | (intro hh; rfl) | simp_all)

theorem LInv.step {svc : Services} {s : LSt} (h : LInv svc s) (ev : LEv) : LInv svc (lstep svc s ev) := by
  cases ev with
  | data bs =>
    simp only [lstep]
    split
    · exact h
    · exact h.congr rfl rfl rfl rfl (FutsLe.refl _) rfl rfl rfl (Int.le_refl _)
  | eof => exact h.congr rfl rfl rfl rfl (FutsLe.refl _) rfl rfl rfl (Int.le_refl _)
  | reset =>
    refine h.close ⟨?_, h.rdOk.last⟩ rfl rfl rfl rfl rfl rfl rfl
    intro x hx; cases hx
  | reader => exact h.reader
  | run i fresh =>
    simp only [lstep]
    split
    · next t ht =>
      split
      · next hst hk => exact h.dispatch ht hst hk fresh
      · exact h
    · exact h
  | result i =>
    simp only [lstep]
    split
    · next t ht =>
      split
      · next d r k hst hk hf =>
        split
        · exact h
        · next o hno ho =>
          have hid := h.idOk ht hk
          have hto := h.task i t ht
          unfold TaskOk at hto
          rw [hk] at hto
          simp only [hst] at hto
          obtain ⟨⟨hfate, hct, hfs, hd⟩, -, hfo⟩ := hto
          obtain ⟨f, hfk, hfst⟩ : ∃ f : Fut, s.futs[k]? = some f ∧ f.st = .finished o := by
            unfold LSt.futSt at ho
            rw [Option.map_eq_some_iff] at ho
            exact ho
          refine h.setTask (t' := { t with st := afterCall r.id o, fate := some (.answered o) }) ht
            (by rw [hst]; intro hh; cases hh) rfl rfl rfl rfl rfl
            (FutsLe.refl _) rfl rfl (Int.le_refl _) ?_ ?_ (.inl ⟨rfl, rfl⟩)
          · unfold TaskOk
            rw [hk]
            refine ⟨?_, ?_, ?_⟩
            · dsimp only
              rcases afterCall_spec r.id hid o with ⟨m, e1, e2⟩ | ⟨e1, -⟩
              · rw [e1]; exact ⟨_, rfl, e2⟩
              · rw [e1]; rfl
            · intro f' hf'; cases hf'
              exact ⟨⟨hct, hno⟩, k, f, hf, hfk, hfst⟩
            · intro k' hk'
              obtain ⟨f, a, b, reg, h0, fresh, e⟩ := hfo k' hk'
              exact ⟨f, a, b, reg, h0, fresh, e⟩
          · intro he
            rcases afterCall_spec r.id hid o with ⟨m, e1, e2⟩ | ⟨-, e2⟩
            · dsimp only at he; rw [e1] at he; cases he
            · simp [taskReply, hk, e2]
        · exact h
      · exact h
    · exact h
  | expire i =>
    simp only [lstep]
    split
    · next t ht =>
      split
      · next d r k hst hk hf =>
        split
        · next hd =>
          have hid := h.idOk ht hk
          have hto := h.task i t ht
          unfold TaskOk at hto
          rw [hk] at hto
          simp only [hst] at hto
          obtain ⟨⟨hfate, hct, hfs, hdd⟩, -, hfo⟩ := hto
          have hle : FutsLe s.futs (s.cancelFut k).futs := by
            unfold LSt.cancelFut
            split
            · next hq => exact FutsLe.setFut s k _ (by intro o ho; rw [hq] at ho; cases ho)
            · exact FutsLe.refl _
          have hlen : (s.cancelFut k).futs.length = s.futs.length := by
            unfold LSt.cancelFut; split
            · simp [LSt.setFut]
            · rfl
          refine h.setTask (t' := { t with st := toWrite (failMsg r.id .timeout), fate := some .expired }) ht
            (by rw [hst]; intro hh; cases hh) rfl ?_ ?_ ?_ ?_ hle ?_ ?_ ?_ ?_ ?_ (.inl ⟨rfl, hlen⟩)
          · unfold LSt.setTask LSt.cancelFut; split <;> rfl
          · unfold LSt.setTask LSt.cancelFut; split <;> rfl
          · unfold LSt.setTask LSt.cancelFut; split <;> rfl
          · unfold LSt.setTask LSt.cancelFut; split <;> rfl
          · unfold LSt.setTask LSt.cancelFut; split <;> rfl
          · unfold LSt.setTask LSt.cancelFut; split <;> rfl
          · unfold LSt.setTask LSt.cancelFut; split <;> exact Int.le_refl _
          · have hnow : ((s.cancelFut k).setTask i
              { t with st := toWrite (failMsg r.id .timeout), fate := some .expired }).now = s.now := by
              unfold LSt.setTask LSt.cancelFut; split <;> rfl
            rw [hnow]
            unfold TaskOk
            rw [hk]
            dsimp only
            rw [failMsg_ok _ hid]
            refine ⟨⟨_, rfl, rfl⟩, ?_, ?_⟩
            · intro f' hf'; cases hf'
              obtain ⟨t0, ht0, hto, hpos⟩ : ∃ t0, t.started = some t0 ∧ t0 + r.timeout = d ∧ r.timeout > 0 := by
                split at hdd
                · next hp =>
                  cases hs : t.started with
                  | none => rw [hs] at hdd; cases hdd
                  | some t0 => rw [hs] at hdd; simp at hdd; exact ⟨t0, rfl, hdd.symm, hp⟩
                · cases hdd
              exact ⟨hct, hfs, hpos, t0, ht0, by omega⟩
            · intro k' hk'
              have := (hfo k' hk').mono hle
              obtain ⟨f, a, b, reg, h0, fresh, e⟩ := this
              exact ⟨f, a, b, reg, h0, fresh, e⟩
          · intro he; rw [failMsg_ok _ hid] at he; cases he
        · exact h
      · exact h
    · exact h
  | write i =>
    simp only [lstep]
    split
    · next t ht =>
      split
      · next m hst => exact h.writeTask ht hst
      · exact h
    · exact h
  | futStart k =>
    simp only [lstep]
    split
    · next hq =>
      exact h.congr rfl rfl rfl rfl (FutsLe.setFut s k _ (by intro o ho; rw [hq] at ho; cases ho))
        (by simp [LSt.setFut]) rfl rfl (Int.le_refl _)
    · exact h
  | futFinish k o =>
    simp only [lstep]
    split
    · next hq =>
      exact h.congr rfl rfl rfl rfl (FutsLe.setFut s k _ (by intro o ho; rw [hq] at ho; cases ho))
        (by simp [LSt.setFut]) rfl rfl (Int.le_refl _)
    · exact h
  | tick d =>
    exact h.congr rfl rfl rfl rfl (FutsLe.refl _) rfl rfl rfl (by simp only [lstep]; omega)
  | register r => exact h.congr rfl rfl rfl rfl (FutsLe.refl _) rfl rfl rfl (Int.le_refl _)

theorem LInv.foldl {svc : Services} {s : LSt} (h : LInv svc s) (evs : List LEv) :
    LInv svc (evs.foldl (lstep svc) s) := by
  induction evs generalizing s with
  | nil => exact h
  | cons e evs ih => exact ih (h.step e)

/-- every schedule keeps the invariant -/
theorem LInv.run (svc : Services) (reg : Registry) (evs : List LEv) : LInv svc (lrun svc reg evs) :=
  (LInv.init svc reg).foldl evs

end Bolt
