import Verif.Model.SpanApi
import Verif.Props.Spans
/-!
# C136-C138: what span objects record

Times and names of spans, that spans do not disturb each other, and the spans the helpers derive from others.
-/
namespace Bolt
open Spec

/-! ### what the calls on a span do to it -/

/-- What a call does to span number `j` that exists already. -/
def Spec.effect (j : Nat) (b : SpanBody) : ApiOp → SpanBody
  | .setName i n => if i = j then { b with name := n } else b
  | .setTag i k v => if i = j then { b with tags := PyDict.set b.tags k v } else b
  | .setStart i t => if i = j then { b with start := t } else b
  | .enter i t => if i = j then { b with start := t } else b
  | .finish i t => if i = j then { b with fin := some t } else b
  | .exit i t => if i = j then { b with fin := some t } else b
  | _ => b

/-- object `j` after some calls -/
def Spec.after (j : Nat) (o : TObj) (ops : List ApiOp) : TObj := { o with body := o.body.map fun b => ops.foldl (effect j) b }

theorem api_snoc (ops : List ApiOp) (op : ApiOp) : apiRun (ops ++ [op]) = apiStep (apiRun ops) op := by
  unfold apiRun; rw [List.foldl_append]; rfl

theorem api_append (ops more : List ApiOp) : apiRun (ops ++ more) = more.foldl apiStep (apiRun ops) := by
  unfold apiRun; rw [List.foldl_append]

theorem api_start_keeps (s : ApiSt) (name : Option PyStr) (c : ParentArg) (refs : List (RefType × Nat))
    (tags : PyDict PyStr PyStr) (st : Option Int) (now : Int) (fresh : PyStr) (j : Nat) (o : TObj)
    (h : s.objs[j]? = some o) : (s.startSpan name c refs tags st now fresh).objs[j]? = some o := by
  unfold ApiSt.startSpan
  dsimp only
  split
  · exact h
  · dsimp only
    rw [List.getElem?_append_left (List.getElem?_eq_some_iff.1 h).1]
    exact h

theorem onSpan_get (s : ApiSt) (i j : Nat) (f : SpanBody → SpanBody) (o : TObj) (h : s.objs[j]? = some o) :
    (s.onSpan i f).objs[j]? = some (if i = j then { o with body := o.body.map f } else o) := by
  unfold ApiSt.onSpan
  dsimp only
  rw [List.getElem?_modify, h]
  by_cases e : i = j <;> simp [e]

theorem body_id (o : TObj) (j : Nat) (op : ApiOp) (h : ∀ b, effect j b op = b) : after j o [op] = o := by
  obtain ⟨c, b⟩ := o
  cases b with
  | none => rfl
  | some b => simp [after, h]

theorem api_step (s : ApiSt) (op : ApiOp) (j : Nat) (o : TObj) (h : s.objs[j]? = some o) :
    (apiStep s op).objs[j]? = some (after j o [op]) := by
  have span : ∀ (i : Nat) (f : SpanBody → SpanBody), (∀ b, effect j b op = if i = j then f b else b) →
      (s.onSpan i f).objs[j]? = some (after j o [op]) := by
    intro i f hf
    rw [onSpan_get s i j f o h]
    congr 1
    unfold after
    by_cases e : i = j
    · simp only [e, if_true]
      congr 1
      cases o.body with
      | none => rfl
      | some b => simp [hf, e]
    · simp only [e, if_false]
      obtain ⟨c, b⟩ := o
      cases b with
      | none => rfl
      | some b => simp [hf, e]
  cases op with
  | startSpan name c refs tags st now fresh =>
    rw [body_id _ _ _ (fun b => rfl)]
    simp only [apiStep]
    split
    · exact api_start_keeps _ _ _ _ _ _ _ _ _ _ h
    · exact h
  | newSpan name tags now fresh =>
    rw [body_id _ _ _ (fun b => rfl)]
    exact api_start_keeps _ _ _ _ _ _ _ _ _ _ h
  | childSpanOf i name tags now =>
    rw [body_id _ _ _ (fun b => rfl)]
    simp only [apiStep]
    split
    · exact api_start_keeps _ _ _ _ _ _ _ _ _ _ h
    · exact h
  | followsSpanFrom i name tags now =>
    rw [body_id _ _ _ (fun b => rfl)]
    simp only [apiStep]
    split
    · exact api_start_keeps _ _ _ _ _ _ _ _ _ _ h
    · exact h
  | extract fresh carrier =>
    rw [body_id _ _ _ (fun b => rfl)]
    simp only [apiStep]
    split
    · dsimp only
      rw [List.getElem?_append_left (List.getElem?_eq_some_iff.1 h).1]
      exact h
    · exact h
  | setName i n => exact span i _ fun b => rfl
  | setTag i k v => exact span i _ fun b => rfl
  | setStart i t => exact span i _ fun b => rfl
  | finish i t => exact span i _ fun b => rfl
  | enter i t => exact span i _ fun b => rfl
  | exit i t => exact span i _ fun b => rfl
  | setBaggage i k v =>
    rw [body_id _ _ _ (fun b => rfl)]
    simp only [apiStep, setBaggageItem]
    split <;> exact h

theorem after_after (j : Nat) (o : TObj) (a b : List ApiOp) : after j (after j o a) b = after j o (a ++ b) := by
  unfold after
  cases o.body with
  | none => rfl
  | some x => simp [List.foldl_append]

theorem api_foldl (s : ApiSt) (more : List ApiOp) (j : Nat) (o : TObj) (h : s.objs[j]? = some o) :
    (more.foldl apiStep s).objs[j]? = some (after j o more) := by
  induction more generalizing s o with
  | nil =>
    rw [List.foldl_nil, h]
    obtain ⟨c, b⟩ := o
    cases b <;> rfl
  | cons op more ih =>
    rw [List.foldl_cons, ih (apiStep s op) _ (api_step s op j o h), after_after]
    rfl

/-- C137: Whatever a program does after it has got a span (or a context), the span's context stays the same, and its
name, tags and times are what the calls on that very span made of them: no call on another span, no derivation from it
and no `extract` changes them. -/
theorem C137_isolated (ops more : List ApiOp) (j : Nat) (o : TObj) (h : (apiRun ops).objs[j]? = some o) :
    ∃ o', (apiRun (ops ++ more)).objs[j]? = some o' ∧ o'.ctx = o.ctx ∧
      o'.body = o.body.map fun b => more.foldl (effect j) b := by
  refine ⟨after j o more, ?_, rfl, rfl⟩
  rw [api_append]
  exact api_foldl _ more j o h

/-! ### times -/

/-- the start times that calls give to span `j`, in order -/
def Spec.startsOf (j : Nat) (ops : List ApiOp) : List Int :=
  ops.filterMap fun
    | .setStart i t => if i = j then some t else none
    | .enter i t => if i = j then some t else none
    | _ => none

/-- the times at which calls finish span `j`, in order -/
def Spec.finishesOf (j : Nat) (ops : List ApiOp) : List Int :=
  ops.filterMap fun
    | .finish i t => if i = j then some t else none
    | .exit i t => if i = j then some t else none
    | _ => none

theorem startsOf_append (j : Nat) (a b : List ApiOp) : startsOf j (a ++ b) = startsOf j a ++ startsOf j b :=
  List.filterMap_append ..

theorem finishesOf_append (j : Nat) (a b : List ApiOp) : finishesOf j (a ++ b) = finishesOf j a ++ finishesOf j b :=
  List.filterMap_append ..

theorem effect_start (j : Nat) (ops : List ApiOp) (b : SpanBody) :
    (ops.foldl (effect j) b).start = (startsOf j ops).getLast?.getD b.start := by
  induction ops generalizing b with
  | nil => rfl
  | cons op ops ih =>
    rw [List.foldl_cons, ih]
    unfold startsOf
    rw [List.filterMap_cons]
    cases op <;> simp only [effect] <;> split <;> simp_all [List.getLast?_cons]

theorem effect_fin (j : Nat) (ops : List ApiOp) (b : SpanBody) :
    (ops.foldl (effect j) b).fin = (finishesOf j ops).getLast?.or b.fin := by
  induction ops generalizing b with
  | nil => rfl
  | cons op ops ih =>
    rw [List.foldl_cons, ih]
    unfold finishesOf
    rw [List.filterMap_cons]
    cases op <;> simp only [effect] <;> split <;> simp_all [List.getLast?_cons] <;> grind

/-- a span is made: what is known of it at once -/
theorem api_start_new (s : ApiSt) (name : Option PyStr) (c : ParentArg) (refs : List (RefType × Nat))
    (tags : PyDict PyStr PyStr) (st : Option Int) (now : Int) (fresh : PyStr)
    (h : s.objs.length < (s.startSpan name c refs tags st now fresh).objs.length) :
    ∃ ctx tg, (s.startSpan name c refs tags st now fresh).objs =
        s.objs ++ [⟨ctx, some ⟨name, tg, givenStart now st, none⟩⟩] ∧
      (startSpan s.heap fresh (s.parent c) (refs.filterMap fun x => (s.ctx x.2).map (x.1, ·)) tags).2 = .ok ⟨ctx, tg⟩ := by
  unfold ApiSt.startSpan at h ⊢
  dsimp only at h ⊢
  split at h
  · exact absurd h (Nat.lt_irrefl _)
  · next sp hsp =>
    rw [hsp]
    exact ⟨sp.ctx, sp.tags, rfl, rfl⟩

/-- the times of a span: start and finish -/
def Spec.timesOf (s : ApiSt) (j : Nat) : Option (Int × Option Int) :=
  s.objs[j]?.bind fun o => o.body.map fun b => (b.start, b.fin)

/-- C136 as listed: a start time given to `start_span` is the start time of the span until `set_start_time` gives it
another one. -/
def C136_full : Prop :=
  ∀ (ops more : List ApiOp) (name : Option PyStr) (c : ParentArg) (refs : List (RefType × Nat))
    (tags : PyDict PyStr PyStr) (t now : Int) (fresh : PyStr),
    (apiRun ops).objs.length < (apiRun (ops ++ [.startSpan name c refs tags (some t) now fresh])).objs.length →
    (∀ x, .setStart (apiRun ops).objs.length x ∉ more) →
    ∃ fin, timesOf (apiRun (ops ++ [.startSpan name c refs tags (some t) now fresh] ++ more)) (apiRun ops).objs.length =
      some (t, fin)

/-- C136, what holds. A new span starts at the given time, or when it is made if there is none or it is 0; it is not
finished. After that its start time is the last one given by `set_start_time` or by entering a `with` block, and its
finish time the last time of `finish` or of leaving a `with` block. Missing for C136: 0 as a start time, and spans used
in a `with` block, whose start time is overwritten. -/
theorem C136_times_partial (ops more : List ApiOp) (name : Option PyStr) (c : ParentArg) (refs : List (RefType × Nat))
    (tags : PyDict PyStr PyStr) (st : Option Int) (now : Int) (fresh : PyStr)
    (h : (apiRun ops).objs.length < (apiRun (ops ++ [.startSpan name c refs tags st now fresh])).objs.length) :
    let j := (apiRun ops).objs.length
    timesOf (apiRun (ops ++ [.startSpan name c refs tags st now fresh] ++ more)) j =
      some ((startsOf j more).getLast?.getD (if st = none ∨ st = some 0 then now else st.getD 0),
        (finishesOf j more).getLast?) := by
  dsimp only
  rw [api_snoc] at h
  simp only [apiStep] at h
  split at h
  · next hk =>
    obtain ⟨ctx, tg, hn, -⟩ := api_start_new _ _ _ _ _ _ _ _ h
    have h1 : (apiRun (ops ++ [.startSpan name c refs tags st now fresh])).objs[(apiRun ops).objs.length]? =
        some ⟨ctx, some ⟨name, tg, givenStart now st, none⟩⟩ := by
      rw [api_snoc]
      simp only [apiStep]
      rw [if_pos hk, hn]
      simp
    obtain ⟨o', h2, -, h3⟩ := C137_isolated _ more _ _ h1
    simp only [timesOf, h2, Option.bind_some, h3, Option.map_some]
    rw [effect_start, effect_fin]
    congr 2
    · congr 1
      unfold givenStart
      cases st with
      | none => simp
      | some t => by_cases e : t = 0 <;> simp [e]
    · simp
  · exact absurd h (Nat.lt_irrefl _)

/-- C136: a `with` block. Whatever is done in the block (and however it is left: the body may be cut short by an
exception), the span starts when the block is entered and finishes when it is left, if the block itself gives it no
other start time. -/
theorem C136_with (ops body : List ApiOp) (j : Nat) (t1 t2 : Int) (o : TObj) (b : SpanBody)
    (hj : (apiRun ops).objs[j]? = some o) (hb : o.body = some b) (hbody : startsOf j body = []) :
    timesOf (apiRun (ops ++ ([.enter j t1] ++ body ++ [.exit j t2]))) j = some (t1, some t2) := by
  obtain ⟨o', h2, -, h3⟩ := C137_isolated ops ([.enter j t1] ++ body ++ [.exit j t2]) j o hj
  simp only [timesOf, h2, Option.bind_some, h3, hb, Option.map_some]
  rw [effect_start, effect_fin]
  have e1 : startsOf j ([.enter j t1] ++ body ++ [.exit j t2]) = [t1] := by
    rw [startsOf_append, startsOf_append, hbody]
    simp [startsOf]
  have e2 : finishesOf j ([.enter j t1] ++ body ++ [.exit j t2]) = finishesOf j body ++ [t2] := by
    rw [finishesOf_append, finishesOf_append]
    simp [finishesOf]
  rw [e1, e2]
  simp

/-- A span that is made with an explicit start time and used in a `with` block loses that time. -/
theorem C136_violated : ¬ C136_full := by
  intro h
  obtain ⟨fin, h1⟩ := h [] [.enter 0 60] (some (py "op")) .none [] [] 10 50 (py "t") (by decide) (by simp)
  revert h1
  have e : timesOf (apiRun ([] ++ [.startSpan (some (py "op")) .none [] [] (some 10) 50 (py "t")] ++ [.enter 0 60]))
      (apiRun []).objs.length = some (60, none) := by decide
  rw [e]
  simp

/-- without any `with` block, 0 is still not taken -/
example : timesOf (apiRun [.startSpan (some (py "op")) .none [] [] (some 0) 50 (py "t")]) 0 = some (50, none) := by decide

/-- a `with` block around a child that is left early -/
example : (apiRun [.newSpan (some (py "a")) [] 5 (py "t"), .childSpanOf 0 none [] 6]).objs[1]?.isSome = true ∧
    timesOf (apiRun ([.newSpan (some (py "a")) [] 5 (py "t"), .childSpanOf 0 none [] 6] ++
      ([.enter 1 7] ++ [.setTag 1 (py "k") (py "v"), .finish 0 8] ++ [.exit 1 9]))) 1 = some (7, some 9) := by decide

/-! ### derived spans -/

theorem ApiSt.ctx_mem {s : ApiSt} {i : Nat} {b : Baggage} (h : s.ctx i = some b) : b ∈ s.objs.map TObj.ctx := by
  unfold ApiSt.ctx at h
  obtain ⟨o, h1, rfl⟩ := Option.map_eq_some_iff.1 h
  exact List.mem_map.2 ⟨o, List.mem_of_getElem? h1, rfl⟩

/-- the contexts of a program -/
def ApiSt.t (s : ApiSt) : TState := ⟨s.heap, s.objs.map TObj.ctx⟩

theorem startSpan_t (s : ApiSt) (name : Option PyStr) (c : ParentArg) (refs : List (RefType × Nat))
    (tags : PyDict PyStr PyStr) (st : Option Int) (now : Int) (fresh : PyStr) :
    (s.startSpan name c refs tags st now fresh).t = s.t.keep
      (startSpan s.t.heap fresh (s.parent c) (refs.filterMap fun x => (s.ctx x.2).map (x.1, ·)) tags) := by
  unfold ApiSt.startSpan TState.keep ApiSt.t
  dsimp only
  split
  · next e => rw [e]
  · next e => rw [e]; simp

theorem startSpan_tinv {s : ApiSt} (I : TInv s.t) (name : Option PyStr) (c : ParentArg) (refs : List (RefType × Nat))
    (tags : PyDict PyStr PyStr) (st : Option Int) (now : Int) (fresh : PyStr) :
    TInv (s.startSpan name c refs tags st now fresh).t := by
  rw [startSpan_t]
  refine (keep_startSpan I fresh _ _ tags ?_ ?_).1
  · intro b hb
    cases c with
    | obj i => exact I.ctxs b (ApiSt.ctx_mem hb)
    | none => cases hb
    | other => cases hb
  · intro t b hb
    obtain ⟨x, -, hx⟩ := List.mem_filterMap.1 hb
    obtain ⟨b', h1, h2⟩ := Option.map_eq_some_iff.1 hx
    cases h2
    exact I.ctxs _ (ApiSt.ctx_mem h1)

theorem onSpan_t (s : ApiSt) (i : Nat) (f : SpanBody → SpanBody) : (s.onSpan i f).t = s.t := by
  unfold ApiSt.onSpan ApiSt.t
  dsimp only
  congr 1
  apply List.ext_getElem?
  intro k
  rw [List.getElem?_map, List.getElem?_map, List.getElem?_modify]
  cases s.objs[k]? with
  | none => rfl
  | some o => by_cases e : i = k <;> simp [e]

theorem api_tinv (ops : List ApiOp) : TInv (apiRun ops).t := by
  suffices ∀ (ops : List ApiOp) (s : ApiSt), TInv s.t → TInv (ops.foldl apiStep s).t from
    this ops {} ⟨HeapOK.nil, by simp [ApiSt.t]⟩
  intro ops
  induction ops with
  | nil => intro s h; exact h
  | cons op ops ih =>
    intro s h
    apply ih
    cases op with
    | startSpan name c refs tags st now fresh =>
      simp only [apiStep]
      split
      · exact startSpan_tinv h ..
      · exact h
    | newSpan name tags now fresh => exact startSpan_tinv h ..
    | childSpanOf i name tags now =>
      simp only [apiStep]
      split
      · exact startSpan_tinv h ..
      · exact h
    | followsSpanFrom i name tags now =>
      simp only [apiStep]
      split
      · exact startSpan_tinv h ..
      · exact h
    | extract fresh carrier =>
      simp only [apiStep]
      have := (tstep_inv h (.extract fresh carrier)).1
      simp only [tstep, ApiSt.t] at this
      split
      · next h1 b e =>
        rw [e] at this
        simpa [ApiSt.t] using this
      · exact h
    | setName i n => simpa only [apiStep, onSpan_t] using h
    | setTag i k v => simpa only [apiStep, onSpan_t] using h
    | setStart i t => simpa only [apiStep, onSpan_t] using h
    | finish i t => simpa only [apiStep, onSpan_t] using h
    | enter i t => simpa only [apiStep, onSpan_t] using h
    | exit i t => simpa only [apiStep, onSpan_t] using h
    | setBaggage i k v =>
      simp only [apiStep, setBaggageItem]
      split <;> exact h

/-- a helper of `mytracer/helpers.py` that derives a span from span `i` -/
def Spec.deriveOp (t : RefType) (i : Nat) (name : Option PyStr) (tags : PyDict PyStr PyStr) (now : Int) : ApiOp :=
  match t with
  | .childOf => .childSpanOf i name tags now
  | .followsFrom => .followsSpanFrom i name tags now

/-- What a derived span has to be: the given name, or that of the span it is derived from; the given tags; made now, not
finished; and a context with the trace id and everything else of the other context except for the rpc id, which is a new
one: for a child, that of the other span followed by one more than the number of ids made under it so far; for a
follow-up, that of the other span with the last number incremented. -/
structure Spec.DerivedSpan (s s' : ApiSt) (t : RefType) (o : TObj) (b : SpanBody) (name : Option PyStr)
    (tags : PyDict PyStr PyStr) (now : Int) (o' : TObj) : Prop where
  body : o'.body = some ⟨if name = none ∨ name = some [] then b.name else name, tags, now, none⟩
  trace : PyDict.get? o'.ctx (py "sofaTraceId") = PyDict.get? o.ctx (py "sofaTraceId")
  bag : ∀ k, k ≠ py "sofaRpcId" → PyDict.get? o'.ctx k = PyDict.get? o.ctx k
  rpc : RpcOf o'.ctx s.heap.length
  newId : ∃ (r : Nat) (x : RpcObj), RpcOf o.ctx r ∧ s.heap[r]? = some x ∧
    match t with
    | .childOf => NewId s.heap s'.heap (some r) (x.segs ++ [.int (((parentsOf s.heap).count (some r) + 1 : Nat) : Int)])
    | .followsFrom => ∃ i, x.segs.getLast? = some (.int i) ∧
        NewId s.heap s'.heap x.parent (x.segs.dropLast ++ [.int (i + 1)])

/-- C138 as listed -/
def C138_full : Prop :=
  ∀ (ops : List ApiOp) (t : RefType) (i : Nat) (name : Option PyStr) (tags : PyDict PyStr PyStr) (now : Int) (o : TObj)
    (b : SpanBody), (apiRun ops).objs[i]? = some o → o.body = some b → PyDict.NodupKeys tags →
    ∃ o', (apiRun (ops ++ [deriveOp t i name tags now])).objs = (apiRun ops).objs ++ [o'] ∧
      DerivedSpan (apiRun ops) (apiRun (ops ++ [deriveOp t i name tags now])) t o b name tags now o'

/-- C138, what holds: without tags, the helpers derive spans as they should. Missing for C138: tags (see C28: a span
cannot be made with tags unless their names have two characters, and then other tags are recorded). -/
theorem C138_derived_partial (ops : List ApiOp) (t : RefType) (i : Nat) (name : Option PyStr) (now : Int) (o : TObj)
    (b : SpanBody) (ho : (apiRun ops).objs[i]? = some o) (hb : o.body = some b) :
    ∃ o', (apiRun (ops ++ [deriveOp t i name [] now])).objs = (apiRun ops).objs ++ [o'] ∧
      DerivedSpan (apiRun ops) (apiRun (ops ++ [deriveOp t i name [] now])) t o b name [] now o' := by
  have I := api_tinv ops
  have hc : (apiRun ops).ctx i = some o.ctx := by rw [ApiSt.ctx, ho]; rfl
  have C : CtxOK (apiRun ops).heap o.ctx := I.ctxs _ (ApiSt.ctx_mem hc)
  obtain ⟨r, h', b', hr1, hr2, hnew, he, -, -, hg⟩ := spanCtxFromRef_ok I.heap C t
  have hname : orSpanName name b.name = if name = none ∨ name = some [] then b.name else name := by
    cases name with
    | none => simp [orSpanName]
    | some n => by_cases e : n = [] <;> simp [orSpanName, e]
  have step : apiRun (ops ++ [deriveOp t i name [] now]) =
      ⟨h', (apiRun ops).objs ++ [⟨b', some ⟨orSpanName name b.name, [], now, none⟩⟩]⟩ := by
    rw [api_snoc]
    cases t with
    | childOf =>
      simp only [deriveOp, apiStep, ho, Option.bind_some, hb]
      unfold ApiSt.startSpan
      simp only [ApiSt.parent, hc, startSpan, chooseRef]
      rw [show spanCtxFromRef (apiRun ops).heap .childOf o.ctx = .ok (h', b') from he]
      rfl
    | followsFrom =>
      simp only [deriveOp, apiStep, ho, Option.bind_some, hb]
      unfold ApiSt.startSpan
      simp only [ApiSt.parent, hc, List.filterMap_cons, List.filterMap_nil, Option.map_some, startSpan, chooseRef,
        List.head?_cons]
      rw [show spanCtxFromRef (apiRun ops).heap .followsFrom o.ctx = .ok (h', b') from he]
      rfl
  obtain ⟨-, n1, n2⟩ := newByRef_newId I.heap hr2 hnew
  refine ⟨⟨b', some ⟨orSpanName name b.name, [], now, none⟩⟩, by rw [step], by rw [hname], ?_, ?_, ?_, ?_⟩
  · show PyDict.get? b' kTraceId = _
    rw [hg, if_neg kTrace_ne_kRpc]
    rfl
  · intro k hk
    show PyDict.get? b' k = _
    rw [hg, if_neg (show k ≠ kRpcId from hk)]
  · show PyDict.get? b' kRpcId = _
    rw [hg, if_pos rfl]
    rfl
  · rw [step]
    refine ⟨r, _, hr1, List.getElem?_eq_getElem hr2, ?_⟩
    cases t with
    | childOf => exact n1 rfl
    | followsFrom => exact n2 rfl

/-- `child_span_of(span, peer='x')` makes no span. -/
theorem C138_violated : ¬ C138_full := by
  intro h
  obtain ⟨o', h1, -⟩ := h [.newSpan (some (py "a")) [] 5 (py "t")] .childOf 0 none [(py "peer", py "x")] 6 _ _ rfl rfl
    (by decide)
  have h2 := congrArg List.length h1
  rw [List.length_append, List.length_singleton] at h2
  exact absurd h2 (by decide)

/-- a chain of derivations: names are inherited -/
example : ((apiRun [.newSpan (some (py "a")) [] 5 (py "t"), .childSpanOf 0 none [] 6, .followsSpanFrom 1 (some (py "b")) [] 7,
      .childSpanOf 2 (some []) [] 8]).objs.map fun o => (o.body.map fun b => (b.name, b.start))) =
    [some (some (py "a"), 5), some (some (py "a"), 6), some (some (py "b"), 7), some (some (py "b"), 8)] := by decide

/-- an object of another type as `child_of` gives a new trace -/
example : (apiRun [.newSpan (some (py "a")) [] 5 (py "t"), .startSpan none .other [(.followsFrom, 0)] [] none 6 (py "u"),
      .startSpan none .other [] [] none 6 (py "u")]).objs.map
      (fun o => PyDict.get? o.ctx (py "sofaTraceId")) =
    [some (.trace (py "t")), some (.trace (py "t")), some (.trace (py "u"))] := by decide

end Bolt
