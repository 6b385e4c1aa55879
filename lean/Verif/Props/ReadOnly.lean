import Verif.Model.ReadOnly
import Verif.Props.Tracer
/-! C157, C158: dictionaries that are meant to be read-only, and injecting into them. -/
namespace Bolt
open Spec

/-! ## C157 -/

/-- C157. Whatever is done to a SofaHeader, to the baggage of a context or to a service map: an entry keeps its value. -/
def C157_full : Prop :=
  ∀ (cls : DictClass) (d : PyDict PyStr PyStr) (ops : List (DictOp PyStr)) (k v : PyStr), cls ≠ .plain →
    PyDict.NodupKeys d → PyDict.get? d k = some v → PyDict.get? (dictRun cls d ops) k = some v

/-- `update` replaces entries, `pop` removes them, in each of the classes. -/
theorem C157_violated : ¬ C157_full ∧ ∀ cls : DictClass,
    dictRun cls [(py "k", py "v")] [.update [(py "k", py "w")]] = [(py "k", py "w")] ∧
    dictRun cls [(py "k", py "v")] [.remove (py "k")] = [] := by
  refine ⟨fun h => ?_, fun cls => ⟨by cases cls <;> decide, by cases cls <;> decide⟩⟩
  have := h .sofaHeader [(py "k", py "v")] [.update [(py "k", py "w")]] (py "k") (py "v") (by decide) (by decide) (by decide)
  revert this
  decide

/-- Operations that leave the entry for `k` alone: assignments by subscript and `setdefault` always (in the three classes),
the others if they are for other keys. -/
def Spec.Spares {V : Type} (k : PyStr) : DictOp V → Prop
  | .set _ _ => True
  | .update kvs => k ∉ kvs.map Prod.fst
  | .setdefault _ _ => True
  | .remove k' => k' ≠ k
  | .discard k' => k' ≠ k
  | .popitem => False
  | .clear => False

theorem dictStep_nodup {V : Type} (cls : DictClass) {d : PyDict PyStr V} (hd : PyDict.NodupKeys d) (op : DictOp V) :
    PyDict.NodupKeys (dictStep cls d op).1 := by
  cases op with
  | set k v =>
    cases cls with
    | plain => exact PyDict.nodup_set hd k v
    | sofaHeader => exact hd
    | baggage => exact hd
    | service =>
      simp only [dictStep, dictSet]
      split
      · exact hd
      · exact PyDict.nodup_set hd k v
  | update kvs => exact PyDict.nodup_update hd kvs
  | setdefault k v =>
    simp only [dictStep]
    split
    · exact hd
    · exact PyDict.nodup_set hd k v
  | remove k =>
    simp only [dictStep]
    split
    · exact PyDict.nodup_erase hd k
    · exact hd
  | discard k => exact PyDict.nodup_erase hd k
  | popitem =>
    simp only [dictStep]
    split
    · exact hd
    · exact hd.sublist ((List.dropLast_sublist d).map _)
  | clear => exact List.nodup_nil

theorem dictStep_spares {V : Type} {cls : DictClass} (hc : cls ≠ .plain) {d : PyDict PyStr V} (hd : PyDict.NodupKeys d)
    {k : PyStr} {v : V} (hk : PyDict.get? d k = some v) {op : DictOp V} (ho : Spares k op) :
    PyDict.get? (dictStep cls d op).1 k = some v := by
  have hin : PyDict.contains d k = true := by unfold PyDict.contains; rw [hk]; rfl
  have hset : ∀ k' v', PyDict.contains d k' ≠ true → PyDict.get? (PyDict.set d k' v') k = some v := by
    intro k' v' h
    rw [PyDict.get?_set, if_neg (by rintro rfl; exact h hin), hk]
  cases op with
  | set k' v' =>
    cases cls with
    | plain => exact absurd rfl hc
    | sofaHeader => exact hk
    | baggage => exact hk
    | service =>
      simp only [dictStep, dictSet]
      split
      · exact hk
      · next h => exact hset k' v' h
  | update kvs =>
    show PyDict.get? (PyDict.update d kvs) k = some v
    rw [PyDict.get?_update, (PyDict.get?_eq_none_iff _ _).2 (by rw [List.map_reverse, List.mem_reverse]; exact ho)]
    simpa using hk
  | setdefault k' v' =>
    simp only [dictStep]
    split
    · exact hk
    · next h => exact hset k' v' h
  | remove k' =>
    simp only [dictStep]
    split
    · rw [PyDict.get?_erase hd, if_neg (fun e => ho e)]; exact hk
    · exact hk
  | discard k' =>
    show PyDict.get? (PyDict.erase d k') k = some v
    rw [PyDict.get?_erase hd, if_neg (fun e => ho e)]; exact hk
  | popitem => cases ho
  | clear => cases ho

/-- C157, what holds. In the three classes an entry keeps its value as long as it is not the subject of `update`, `del`,
`pop`, `popitem` or `clear`; assignments by subscript never change an entry. Missing: those methods, which `dict` does not
implement by `__setitem__`. -/
theorem C157_spared_partial {V : Type} (cls : DictClass) (hc : cls ≠ .plain) (d : PyDict PyStr V) (ops : List (DictOp V))
    (k : PyStr) (v : V) (hd : PyDict.NodupKeys d) (hk : PyDict.get? d k = some v) (ho : ∀ op ∈ ops, Spares k op) :
    PyDict.get? (dictRun cls d ops) k = some v := by
  induction ops generalizing d with
  | nil => exact hk
  | cons op ops ih =>
    exact ih (dictStep cls d op).1 (dictStep_nodup cls hd op) (dictStep_spares hc hd hk (ho op List.mem_cons_self))
      fun op' h => ho op' (List.mem_cons_of_mem _ h)

/-- Under assignments by subscript only, a SofaHeader and the baggage of a context do not change at all: the one takes them
without effect, the other refuses them all. The service map refuses exactly those to existing keys. -/
theorem C157_assignments {V : Type} (d : PyDict PyStr V) (k : PyStr) (v : V) :
    dictStep .sofaHeader d (.set k v) = (d, .ok ()) ∧ dictStep .baggage d (.set k v) = (d, .error .typeError) ∧
    dictStep .service d (.set k v) =
      (if k ∈ d.map Prod.fst then (d, .error .keyError) else (d ++ [(k, v)], .ok ())) := by
  refine ⟨rfl, rfl, ?_⟩
  simp only [dictStep, dictSet]
  by_cases h : k ∈ d.map Prod.fst
  · rw [if_pos h, if_pos ((PyDict.contains_iff d k).2 h)]
  · rw [if_neg h, if_neg (fun h' => h ((PyDict.contains_iff d k).1 h')), PyDict.set_of_not_mem h]

/-- operations of all kinds around an entry -/
example : (∀ op ∈ ([.set (py "k") (py "w"), .update [(py "a", py "b")], .setdefault (py "k") (py "w"),
      .remove (py "a")] : List (DictOp PyStr)), Spares (py "k") op) ∧
    dictRun .service [(py "k", py "v")] [.set (py "k") (py "w"), .update [(py "a", py "b")], .setdefault (py "k") (py "w"),
      .remove (py "a")] = [(py "k", py "v")] := by
  refine ⟨?_, by decide⟩
  intro op h
  simp only [List.mem_cons, List.not_mem_nil, or_false] at h
  rcases h with rfl | rfl | rfl | rfl
  · trivial
  · show _ ∉ _; decide
  · trivial
  · show _ ≠ _; decide

/-! ## C158 -/

/-- C158. Injecting a context into a carrier of any of the classes, if it raises nothing, leaves a carrier from which
`extract` gives the items of the context. -/
def C158_full : Prop :=
  ∀ (cls : DictClass) (ops : List TOp) (b : Baggage), b ∈ (trun ops).ctxs → ∀ (c c' : PyDict PyStr PyStr),
    PyDict.NodupKeys c → PyDict.get? c (py "rpc_trace_context.reference") = none →
    PyDict.get? c (py "rpc_trace_context.self") = none → injectLoop cls (trun ops).heap b c = (c', .ok ()) →
    ∀ (heap2 : Heap) (fresh : PyStr), ∃ h' b', extract heap2 fresh c' = .ok (h', b') ∧
      ∀ k v, PyDict.get? b k = some v → (PyDict.get? b' k).map (BagVal.toStr h') = some (v.toStr (trun ops).heap)

/-- A SofaHeader, the one carrier that the documentation of `extract` names, silently stays as it was. -/
theorem C158_violated : ¬ C158_full := by
  intro h
  obtain ⟨h', b', h1, h2⟩ := h .sofaHeader [.root (py "t")] [(kTraceId, .trace (py "t")), (kRpcId, .rpc 0)] (by decide)
    [] [] (by decide) (by decide) (by decide) (by decide) [] (py "u")
  have h3 := h2 kTraceId (.trace (py "t")) (by decide)
  have h4 : (extract [] (py "u") []).toOption.map (fun r => (PyDict.get? r.2 kTraceId).map (BagVal.toStr r.1)) =
    some (some (py "u")) := by decide
  rw [h1] at h4
  simp only [Except.toOption, Option.map_some, Option.some.injEq] at h4
  rw [h4] at h3
  revert h3
  decide

/-- the carrier after the items of `b` have been entered -/
theorem injectLoop_plain (h : Heap) (b : Baggage) (c : PyDict PyStr PyStr) :
    injectLoop .plain h b c = (inject h b c, .ok ()) := by
  induction b generalizing c with
  | nil => rfl
  | cons kv b ih => obtain ⟨k, v⟩ := kv; simp only [injectLoop, dictSet, ih]; rfl

theorem injectLoop_sofa (h : Heap) (b : Baggage) (c : PyDict PyStr PyStr) : injectLoop .sofaHeader h b c = (c, .ok ()) := by
  induction b generalizing c with
  | nil => rfl
  | cons kv b ih => obtain ⟨k, v⟩ := kv; simp only [injectLoop, dictSet, ih]

theorem takeWhile_congr {α : Type} {p q : α → Bool} {l : List α} (h : ∀ x ∈ l, p x = q x) :
    l.takeWhile p = l.takeWhile q := by
  induction l with
  | nil => rfl
  | cons x l ih =>
    simp only [List.takeWhile_cons, h x List.mem_cons_self]
    split
    · rw [ih fun y hy => h y (List.mem_cons_of_mem _ hy)]
    · rfl

theorem prefix_inj {a b : PyStr} (h : tracerPrefix ++ a = tracerPrefix ++ b) : a = b := List.append_cancel_left h

theorem injectLoop_service (h : Heap) (b : Baggage) (hb : PyDict.NodupKeys b) (c : PyDict PyStr PyStr) :
    injectLoop .service h b c =
      if ∀ k ∈ b.map Prod.fst, tracerPrefix ++ k ∉ c.map Prod.fst then (inject h b c, .ok ())
      else (inject h (b.takeWhile fun kv => !PyDict.contains c (tracerPrefix ++ kv.1)) c, .error .keyError) := by
  induction b generalizing c with
  | nil => rfl
  | cons kv b ih =>
    obtain ⟨k, v⟩ := kv
    obtain ⟨hk, hb⟩ := List.nodup_cons.1 hb
    simp only [injectLoop, dictSet]
    by_cases hc : PyDict.contains c (tracerPrefix ++ k) = true
    · rw [if_pos hc]
      rw [if_neg (fun hh => hh k (by simp) ((PyDict.contains_iff _ _).1 hc))]
      simp [hc, inject]
    · rw [if_neg hc]
      simp only []
      have hkc : tracerPrefix ++ k ∉ c.map Prod.fst := fun hh => hc ((PyDict.contains_iff _ _).2 hh)
      have hset : ∀ k' ∈ b.map Prod.fst, (tracerPrefix ++ k' ∈ (PyDict.set c (tracerPrefix ++ k) (v.toStr h)).map Prod.fst ↔
          tracerPrefix ++ k' ∈ c.map Prod.fst) := by
        intro k' hk'
        rw [PyDict.mem_keys_set]
        refine ⟨fun hh => ?_, fun hh => .inr hh⟩
        rcases hh with hh | hh
        · exact absurd (prefix_inj hh) (fun e => hk (e ▸ hk'))
        · exact hh
      rw [ih hb]
      have e1 : (∀ k' ∈ b.map Prod.fst, tracerPrefix ++ k' ∉ (PyDict.set c (tracerPrefix ++ k) (v.toStr h)).map Prod.fst) ↔
          ∀ k' ∈ ((k, v) :: b).map Prod.fst, tracerPrefix ++ k' ∉ c.map Prod.fst := by
        constructor
        · intro hh k' hk'
          rcases List.mem_cons.1 hk' with rfl | hk'
          · exact hkc
          · exact fun hin => hh k' hk' ((hset k' hk').2 hin)
        · intro hh k' hk' hin
          exact hh k' (List.mem_cons_of_mem _ hk') ((hset k' hk').1 hin)
      have e2 : b.takeWhile (fun kv => !PyDict.contains (PyDict.set c (tracerPrefix ++ k) (v.toStr h)) (tracerPrefix ++ kv.1)) =
          b.takeWhile (fun kv => !PyDict.contains c (tracerPrefix ++ kv.1)) := by
        have : ∀ kv ∈ b, PyDict.contains (PyDict.set c (tracerPrefix ++ k) (v.toStr h)) (tracerPrefix ++ kv.1) =
            PyDict.contains c (tracerPrefix ++ kv.1) := by
          intro kv hkv
          have := hset kv.1 (List.mem_map_of_mem hkv)
          rw [← PyDict.contains_iff, ← PyDict.contains_iff] at this
          exact Bool.eq_iff_iff.2 this
        exact takeWhile_congr fun kv hkv => by rw [this kv hkv]
      simp only [e1, e2, List.takeWhile_cons, hc, Bool.not_false, if_true, inject, List.foldl_cons]

/-- C158, what holds, for each class of carrier exactly: a `dict` gets all the items; a SofaHeader stays as it was; the
baggage of a context refuses a non-empty context and stays as it was; a service map gets all the items if none of their
keys is there, otherwise those before the first key that is there, and a KeyError. Missing: the items in a SofaHeader. -/
theorem C158_carriers_partial (h : Heap) (b : Baggage) (hb : PyDict.NodupKeys b) (c : PyDict PyStr PyStr) :
    injectLoop .plain h b c = (inject h b c, .ok ()) ∧
    injectLoop .sofaHeader h b c = (c, .ok ()) ∧
    injectLoop .baggage h b c = (c, if b = [] then .ok () else .error .typeError) ∧
    injectLoop .service h b c =
      (if ∀ k ∈ b.map Prod.fst, py "rpc_trace_context." ++ k ∉ c.map Prod.fst then (inject h b c, .ok ())
       else (inject h (b.takeWhile fun kv => !PyDict.contains c (py "rpc_trace_context." ++ kv.1)) c, .error .keyError)) := by
  refine ⟨injectLoop_plain h b c, injectLoop_sofa h b c, ?_, injectLoop_service h b hb c⟩
  cases b with
  | nil => rfl
  | cons kv b => rfl

/-- For the two classes of carrier that take the items, what C158 asks for holds. -/
theorem C158_taken_partial (cls : DictClass) (hc : cls = .plain ∨ cls = .service) (ops : List TOp) (b : Baggage)
    (hb : b ∈ (trun ops).ctxs) (c c' : PyDict PyStr PyStr) (hn : PyDict.NodupKeys c)
    (h1 : PyDict.get? c (py "rpc_trace_context.reference") = none) (h2 : PyDict.get? c (py "rpc_trace_context.self") = none)
    (hi : injectLoop cls (trun ops).heap b c = (c', .ok ())) (heap2 : Heap) (fresh : PyStr) :
    ∃ h' b', extract heap2 fresh c' = .ok (h', b') ∧
      ∀ k v, PyDict.get? b k = some v → (PyDict.get? b' k).map (BagVal.toStr h') = some (v.toStr (trun ops).heap) := by
  have hc' : c' = inject (trun ops).heap b c := by
    rcases hc with rfl | rfl
    · rw [injectLoop_plain] at hi
      exact (Prod.mk.inj hi).1.symm
    · rw [injectLoop_service _ _ ((trun_inv ops).ctxs b hb).nodup] at hi
      split at hi
      · exact (Prod.mk.inj hi).1.symm
      · exact absurd (Prod.mk.inj hi).2 nofun
  subst hc'
  obtain ⟨h', b', g1, g2, -⟩ := C19_inject_extract_partial ops b hb c hn h1 h2 heap2 fresh
  exact ⟨h', b', g1, g2⟩

/-- a context injected into the four kinds of carrier; the service map has one of the keys already -/
example : let b : Baggage := [(kTraceId, .trace (py "t")), (kRpcId, .rpc 0)]
    let h := (trun [.root (py "t")]).heap
    let c : PyDict PyStr PyStr := [(py "rpc_trace_context.sofaRpcId", py "9")]
    b ∈ (trun [.root (py "t")]).ctxs ∧ PyDict.NodupKeys b ∧
    injectLoop .plain h b c = ([(py "rpc_trace_context.sofaRpcId", py "1"), (py "rpc_trace_context.sofaTraceId", py "t")], .ok ()) ∧
    injectLoop .sofaHeader h b c = (c, .ok ()) ∧
    injectLoop .baggage h b c = (c, .error .typeError) ∧
    injectLoop .service h b c = (c ++ [(py "rpc_trace_context.sofaTraceId", py "t")], .error .keyError) := by
  decide

end Bolt
