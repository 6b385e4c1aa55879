import Verif.Model.HostName
import Verif.Props.Tracer
import Verif.Props.ListenerReplies
import Verif.Props.ListenerFlowWait
/-!
# C188: requests are served whether or not the name of the host can be resolved
-/
namespace Bolt
open Spec

namespace Spec

/-- the header of the request carries a trace id -/
def CarriesTraceId (header : PyDict PyStr PyStr) : Prop :=
  PyDict.contains header (py "rpc_trace_context.sofaTraceId") = true

/-- the request names its service and method, and its trace context, as far as it has one, can be decoded -/
def Served (header : PyDict PyStr PyStr) : Prop :=
  (serviceOf header).isSome ∧ (methodOf header).isSome ∧ ∃ r, extract [] [] header = .ok r

end Spec

/-- C188 as listed: no request whose names and rpc id are in order is dropped. -/
def C188_full : Prop :=
  ∀ (svc : Services) (reg : Registry) (evs : List NEv) (j : Nat) (t : Task) (r : Req),
    (nrun svc reg evs).tasks[j]? = some t → t.kind = .dispatch r → Served r.header → t.fate ≠ some .badCarrier

/-! ## extract -/

theorem kwargsN_some (h : Heap) (f : PyStr) (kwargs : PyDict PyStr PyStr) :
    spanCtxFromKwargsN h (some f) kwargs = spanCtxFromKwargs h f kwargs := by
  unfold spanCtxFromKwargsN spanCtxFromKwargs traceIdN
  split
  · rfl
  · cases PyDict.get? kwargs kTraceId <;> rfl

theorem kwargsN_given (h : Heap) (f : PyStr) (fresh : Option PyStr) (kwargs : PyDict PyStr PyStr)
    (hg : (PyDict.get? kwargs kTraceId).isSome) : spanCtxFromKwargsN h fresh kwargs = spanCtxFromKwargs h f kwargs := by
  unfold spanCtxFromKwargsN spanCtxFromKwargs traceIdN
  split
  · rfl
  · obtain ⟨s, hs⟩ := Option.isSome_iff_exists.1 hg
    rw [hs]
    rfl

theorem kwargsN_missing (h : Heap) (kwargs : PyDict PyStr PyStr) (hg : PyDict.get? kwargs kTraceId = none) :
    ∃ e, spanCtxFromKwargsN h none kwargs = .error e := by
  unfold spanCtxFromKwargsN traceIdN
  split
  · exact ⟨_, rfl⟩
  · rw [hg]
    exact ⟨_, rfl⟩

theorem extractItems_trace (carrier : PyDict PyStr PyStr) :
    (PyDict.get? (extractItems carrier) kTraceId).isSome = true ↔ CarriesTraceId carrier := by
  unfold extractItems PyDict.ofPairs
  rw [PyDict.get?_isSome_iff, PyDict.mem_keys_update, ← PyDict.get?_isSome_iff _ kTraceId, ← PyDict.get?_isSome_iff _ kTraceId,
    extract_pairs_get?]
  simp [CarriesTraceId, PyDict.contains, PyDict.get?]
  rfl

/-- C188, `extract`: with a name that can be resolved it is the `extract` of the other properties; without one it gives the
same context for a carrier with a trace id, whatever id would have been generated, and raises InvalidCarrierException for a
carrier without one. -/
theorem C188_extract (h : Heap) (carrier : PyDict PyStr PyStr) :
    (∀ f, extractN h (some f) carrier = extract h f carrier) ∧
    (CarriesTraceId carrier → ∀ f, extractN h none carrier = extract h f carrier) ∧
    (¬ CarriesTraceId carrier → extractN h none carrier = .error .invalidCarrier) := by
  have hname := extractItems_trace carrier
  refine ⟨?_, ?_, ?_⟩
  · intro f
    unfold extractN extract
    rw [kwargsN_some]
    rfl
  · intro hc f
    unfold extractN extract
    rw [kwargsN_given h f none _ (hname.2 hc)]
    rfl
  · intro hc
    unfold extractN
    obtain ⟨e, he⟩ := kwargsN_missing h (extractItems carrier) (by
      cases hg : PyDict.get? (extractItems carrier) kTraceId with
      | none => rfl
      | some v => exact absurd (hname.1 (by rw [hg]; rfl)) hc)
    rw [he]

/-- C188, spans: no first span of a trace can be started without the name, any other can. -/
theorem C188_root (h : Heap) : (∃ e, rootSpanN h none = .error e) ∧ ∀ f, rootSpanN h (some f) = spanCtxFromKwargs h f [] :=
  ⟨kwargsN_missing h [] rfl, fun f => kwargsN_some h f []⟩

/-! ## the listener -/

theorem dispatchN_eq {svc : Services} {s : LSt} {i : Nat} {t : Task} {r : Req} {fresh : Option PyStr} {f : PyStr}
    (h : extractN s.heap fresh r.header = extract s.heap f r.header) : s.dispatchN svc i t r fresh = s.dispatch svc i t r f := by
  unfold LSt.dispatchN LSt.dispatch
  rw [h]
  rfl

/-- the events as they would be with a name that can be resolved -/
def named : NEv → LEv
  | .ev e => e
  | .runNameless i => .run i []

/-- C188, what holds: as long as every request that is started while the name cannot be resolved carries a trace id, the
connection fares as if the name could be resolved all the time, so that C66-C77 apply. Missing: requests without a trace
id (`C188_always`). -/
theorem C188_named_partial (svc : Services) (reg : Registry) (evs : List NEv)
    (h : ∀ pre i post, evs = pre ++ .runNameless i :: post → ∀ t r, (nrun svc reg pre).tasks[i]? = some t →
      t.kind = .dispatch r → CarriesTraceId r.header) :
    nrun svc reg evs = lrun svc reg (evs.map named) := by
  induction evs using snoc_induct with
  | nil => rfl
  | snoc evs e ih =>
    have ih := ih fun pre i post he => h pre i (post ++ [e]) (by rw [he]; simp)
    have e1 : nrun svc reg (evs ++ [e]) = nstep svc (nrun svc reg evs) e := by simp [nrun]
    have e2 : lrun svc reg ((evs ++ [e]).map named) = lstep svc (lrun svc reg (evs.map named)) (named e) := by simp [lrun]
    rw [e1, e2, ← ih]
    cases e with
    | ev e => rfl
    | runNameless i =>
      simp only [nstep, named, lstep]
      cases ht : (nrun svc reg evs).tasks[i]? with
      | none => rfl
      | some t =>
        dsimp only
        cases hst : t.st <;> cases hk : t.kind <;> try rfl
        exact dispatchN_eq ((C188_extract _ _).2.1 (h evs i [] rfl t _ ht hk) [])

/-! ## a request without a trace id -/

/-- at most task `i` has changed, and nothing was written -/
def OnlyTask (s : LSt) (i : Nat) (s' : LSt) : Prop := (∃ t', s'.tasks = s.tasks.set i t') ∧ s'.out = s.out

theorem dispatch_tasks (svc : Services) (s : LSt) (i : Nat) (t : Task) (r : Req) (f : PyStr) :
    (∃ t', (s.dispatch svc i t r f).tasks = s.tasks.set i t') ∧ (s.dispatch svc i t r f).out = s.out := by
  have key : OnlyTask s i (s.dispatch svc i t r f) := by
    unfold LSt.dispatch LSt.setTask
    dsimp only
    repeat' split
    all_goals exact ⟨⟨_, rfl⟩, rfl⟩
  exact key

theorem dispatchN_tasks (svc : Services) (s : LSt) (i : Nat) (t : Task) (r : Req) (f : Option PyStr) :
    (∃ t', (s.dispatchN svc i t r f).tasks = s.tasks.set i t') ∧ (s.dispatchN svc i t r f).out = s.out := by
  have key : OnlyTask s i (s.dispatchN svc i t r f) := by
    unfold LSt.dispatchN LSt.setTask
    dsimp only
    repeat' split
    all_goals exact ⟨⟨_, rfl⟩, rfl⟩
  exact key

theorem reader_out_task (s : LSt) (i : Nat) (m : Bytes) (h : (Origin.task i, m) ∈ s.reader.out) : (Origin.task i, m) ∈ s.out := by
  revert h
  unfold LSt.reader LSt.write LSt.perform
  repeat' (first | split | exact id | (intro h; simpa using h) | dsimp only)

/-- One event: tasks that have ended stay as they are; what a task writes it writes when it ends. -/
theorem nstep_task (svc : Services) (s : LSt) (e : NEv) (i : Nat) :
    (∀ t, s.tasks[i]? = some t → t.st = .ended → (nstep svc s e).tasks[i]? = some t) ∧
    (∀ m, (Origin.task i, m) ∈ (nstep svc s e).out → (Origin.task i, m) ∈ s.out ∨
      (∃ t, s.tasks[i]? = some t ∧ t.st ≠ .ended) ∧ ∃ t, (nstep svc s e).tasks[i]? = some t ∧ t.st = .ended) := by
  have hset : ∀ (k : Nat) (tk tk' : Task), s.tasks[k]? = some tk → tk.st ≠ .ended → ∀ t, s.tasks[i]? = some t → t.st = .ended →
      (s.tasks.set k tk')[i]? = some t := by
    intro k tk tk' hk hne t ht hend
    by_cases e : k = i
    · subst e
      rw [hk] at ht
      cases ht
      exact absurd hend hne
    · rw [List.getElem?_set_ne e]; exact ht
  cases e with
  | runNameless k =>
    simp only [nstep]
    split
    · next tk hk =>
      split
      · next r hst hkind =>
        obtain ⟨⟨t', h1⟩, h2⟩ := dispatchN_tasks svc s k tk r none
        rw [h1, h2]
        exact ⟨hset k tk t' hk (by rw [hst]; intro h; cases h), fun m hm => .inl hm⟩
      · exact ⟨fun _ h _ => h, fun m hm => .inl hm⟩
    · exact ⟨fun _ h _ => h, fun m hm => .inl hm⟩
  | ev e =>
    simp only [nstep]
    cases e with
    | reader => exact ⟨fun t h _ => LSt.reader_tasks s i t h, fun m hm => .inl (reader_out_task s i m hm)⟩
    | run k f =>
      simp only [lstep]
      split
      · next tk hk =>
        split
        · next r hst hkind =>
          obtain ⟨⟨t', h1⟩, h2⟩ := dispatch_tasks svc s k tk r f
          rw [h1, h2]
          exact ⟨hset k tk t' hk (by rw [hst]; intro h; cases h), fun m hm => .inl hm⟩
        · exact ⟨fun _ h _ => h, fun m hm => .inl hm⟩
      · exact ⟨fun _ h _ => h, fun m hm => .inl hm⟩
    | result k =>
      simp only [lstep]
      split
      · next tk hk =>
        split
        · next d r k' hst hkind hfut =>
          split
          · exact ⟨fun _ h _ => h, fun m hm => .inl hm⟩
          · exact ⟨hset k tk _ hk (by rw [hst]; intro h; cases h), fun m hm => .inl hm⟩
          · exact ⟨fun _ h _ => h, fun m hm => .inl hm⟩
        · exact ⟨fun _ h _ => h, fun m hm => .inl hm⟩
      · exact ⟨fun _ h _ => h, fun m hm => .inl hm⟩
    | expire k =>
      simp only [lstep]
      split
      · next tk hk =>
        split
        · next d r k' hst hkind hfut =>
          split
          · have hc : (s.cancelFut k').tasks = s.tasks ∧ (s.cancelFut k').out = s.out := by
              unfold LSt.cancelFut LSt.setFut
              split <;> exact ⟨rfl, rfl⟩
            unfold LSt.setTask
            dsimp only
            rw [hc.1, hc.2]
            exact ⟨hset k tk _ hk (by rw [hst]; intro h; cases h), fun m hm => .inl hm⟩
          · exact ⟨fun _ h _ => h, fun m hm => .inl hm⟩
        · exact ⟨fun _ h _ => h, fun m hm => .inl hm⟩
      · exact ⟨fun _ h _ => h, fun m hm => .inl hm⟩
    | write k =>
      simp only [lstep]
      split
      · next tk hk =>
        split
        · next m0 hst =>
          have hne : tk.st ≠ .ended := by rw [hst]; intro h; cases h
          have hw : (s.write (.task k) m0).tasks = s.tasks := by unfold LSt.write; split <;> rfl
          unfold LSt.setTask
          dsimp only
          rw [hw]
          refine ⟨hset k tk _ hk hne, ?_⟩
          intro m hm
          unfold LSt.write at hm
          split at hm
          · exact .inl hm
          · rcases List.mem_append.1 hm with hm | hm
            · exact .inl hm
            · cases List.mem_singleton.1 hm
              refine .inr ⟨⟨tk, hk, hne⟩, { tk with st := .ended }, ?_, rfl⟩
              rw [List.getElem?_set_self (List.getElem?_eq_some_iff.1 hk).1]
        · exact ⟨fun _ h _ => h, fun m hm => .inl hm⟩
      · exact ⟨fun _ h _ => h, fun m hm => .inl hm⟩
    | _ =>
      simp only [lstep, LSt.setFut]
      repeat' split
      all_goals exact ⟨fun _ h _ => h, fun m hm => .inl hm⟩

/-- a task that has written something has ended -/
theorem nrun_wrote (svc : Services) (reg : Registry) (evs : List NEv) (i : Nat) (m : Bytes)
    (h : (Origin.task i, m) ∈ (nrun svc reg evs).out) : ∃ t, (nrun svc reg evs).tasks[i]? = some t ∧ t.st = .ended := by
  induction evs using snoc_induct with
  | nil => cases h
  | snoc evs e ih =>
    have e1 : nrun svc reg (evs ++ [e]) = nstep svc (nrun svc reg evs) e := by simp [nrun]
    rw [e1] at h ⊢
    obtain ⟨h1, h2⟩ := nstep_task svc (nrun svc reg evs) e i
    rcases h2 m h with h3 | h3
    · obtain ⟨t, ht, hend⟩ := ih h3
      exact ⟨t, h1 t ht hend, hend⟩
    · exact h3.2

/-- What happens, always: a request that names its service and method but carries no trace id, and is started while the name
of the host cannot be resolved, is dropped; whatever happens later, it gets no answer. -/
theorem C188_always (svc : Services) (reg : Registry) (pre more : List NEv) (i : Nat) (t : Task) (r : Req)
    (ht : (nrun svc reg pre).tasks[i]? = some t) (hk : t.kind = .dispatch r) (hs : t.st = .new)
    (h1 : (serviceOf r.header).isSome) (h2 : (methodOf r.header).isSome) (h3 : ¬ CarriesTraceId r.header) :
    let s := nrun svc reg (pre ++ .runNameless i :: more)
    s.tasks[i]? = some { t with st := .ended, fate := some .badCarrier } ∧ ∀ m, (Origin.task i, m) ∉ s.out := by
  induction more using snoc_induct with
  | nil =>
    have e1 : nrun svc reg (pre ++ [.runNameless i]) = nstep svc (nrun svc reg pre) (.runNameless i) := by simp [nrun]
    have e2 : nstep svc (nrun svc reg pre) (.runNameless i) =
        (nrun svc reg pre).setTask i { t with st := .ended, fate := some .badCarrier } := by
      have e3 : nstep svc (nrun svc reg pre) (.runNameless i) = (nrun svc reg pre).dispatchN svc i t r none := by
        simp only [nstep, ht, hs, hk]
      rw [e3]
      unfold LSt.dispatchN
      obtain ⟨a, ha⟩ := Option.isSome_iff_exists.1 h1
      obtain ⟨b, hb⟩ := Option.isSome_iff_exists.1 h2
      rw [ha, hb, (C188_extract _ r.header).2.2 h3]
    intro s
    have hS : s = _ := e1.trans e2
    rw [hS]
    refine ⟨?_, ?_⟩
    · show ((nrun svc reg pre).tasks.set i _)[i]? = _
      rw [List.getElem?_set_self (List.getElem?_eq_some_iff.1 ht).1]
    · intro m hm
      obtain ⟨t', ht', hend⟩ := nrun_wrote svc reg pre i m hm
      rw [ht] at ht'
      cases ht'
      rw [hs] at hend
      cases hend
  | snoc more e ih =>
    intro s
    have e1 : s = nstep svc (nrun svc reg (pre ++ .runNameless i :: more)) e := by simp [s, nrun]
    obtain ⟨i1, i2⟩ := ih
    obtain ⟨n1, n2⟩ := nstep_task svc (nrun svc reg (pre ++ .runNameless i :: more)) e i
    rw [e1]
    refine ⟨n1 _ i1 rfl, ?_⟩
    intro m hm
    rcases n2 m hm with h | ⟨⟨t', ht', hne⟩, -⟩
    · exact i2 m h
    · rw [i1] at ht'
      cases ht'
      exact hne rfl

/-! ### examples -/

/-- a request without a trace context -/
def exNameless : List NEv := [.ev (.data (exReq 3 [1]).bytes), .ev .reader, .ev .reader, .ev .reader, .ev .reader]

set_option maxRecDepth 20000 in
theorem exNameless_task : (nrun exServices exReg exNameless).tasks = [{ kind := .dispatch (exReq 3 [1]).req }] := by
  decide +kernel

set_option maxRecDepth 20000 in
theorem C188_violated : ¬ C188_full := by
  intro h
  refine h exServices exReg (exNameless ++ [.runNameless 0]) 0
    { kind := .dispatch (exReq 3 [1]).req, st := .ended, fate := some .badCarrier } (exReq 3 [1]).req
    (by decide +kernel) rfl ⟨by decide +kernel, by decide +kernel, ?_⟩ rfl
  cases he : extract [] [] (exReq 3 [1]).req.header with
  | ok r => exact ⟨r, rfl⟩
  | error e =>
    exfalso
    have : (extract [] [] (exReq 3 [1]).req.header).toOption.isSome = true := by decide +kernel
    rw [he] at this
    cases this

set_option maxRecDepth 20000 in
/-- the same request, started a moment earlier, is answered -/
example : ¬ CarriesTraceId (exReq 3 [1]).req.header ∧
    (nrun exServices exReg (exNameless ++ [.ev (.run 0 (py "t")), .ev (.futStart 0), .ev (.futFinish 0 (.ret (.bytes [7]))),
      .ev (.result 0), .ev (.write 0)])).out.length = 1 := by
  unfold CarriesTraceId
  decide +kernel

example : CarriesTraceId [(py "service", py "s"), (py "rpc_trace_context.sofaTraceId", py "0a")] ∧
    extractN [] none [(py "service", py "s"), (py "rpc_trace_context.sofaTraceId", py "0a")] =
      .ok ([⟨[.int 1], 0, none⟩], [(kTraceId, .trace (py "0a")), (kRpcId, .rpc 0)]) := by
  unfold CarriesTraceId
  decide +kernel

end Bolt
