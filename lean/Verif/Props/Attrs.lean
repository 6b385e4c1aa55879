import Verif.Model.Attrs
import Verif.Props.ListenerCalls
import Verif.Props.SockStream
/-!
# C150: what a request can call

The name in the header goes to `getattr` as it is, so that a request reaches every attribute of the service object: the
methods that its class is meant to offer, but also private ones, attributes of the object itself, and what every object
has.
-/
namespace Bolt
open Spec

namespace Spec

/-- the name belongs to a method that the classes of the object offer: it does not begin with an underscore, and the first
of the classes that has it has a function there -/
def Offers (p : PyProg) (o : Nat) (name : PyStr) (f : Nat) : Prop :=
  name.head? ≠ some 95 ∧ p.classAttr o name = some (.func f)

/-- the object or one of its classes has an attribute of that name; every object has those of `object` -/
def Has (p : PyProg) (o : Nat) (name : PyStr) : Prop :=
  (∃ v, PyDict.get? (p.dict o) name = some v) ∨ (∃ d ∈ p.mro o, ∃ a, PyDict.get? d name = some a) ∨ name ∈ objectNames

/-- the object has no attribute of its own of that name -/
def Plain (p : PyProg) (o : Nat) (name : PyStr) : Prop := PyDict.get? (p.dict o) name = none

/-- `o` is the object that the factory registered for the service in `g` makes for this request -/
def ObjectFor (p : PyProg) (g : Registry) (h : Heap) (ctx : Baggage) (service : PyStr) (o : Nat) : Prop :=
  ∃ f, PyDict.get? g service = some f ∧ f.call p.services h ctx = .ok o

end Spec

/-- C150 as listed: whatever the listener calls for a request is a method offered by the service object, under the name
that is in the request. -/
def C150_full : Prop :=
  ∀ (p : PyProg) (reg : Registry) (evs : List LEv) (j : Nat) (t : Task) (r : Req) (k : Nat) (f : Fut) (m : PyStr),
    (lrun p.services reg evs).tasks[j]? = some t → t.kind = .dispatch r → t.fut = some k →
    (lrun p.services reg evs).futs[k]? = some f → methodName r.header = some m →
    ∃ o fn, Offers p o m fn ∧ f.func = p.method fn o

/-! ## Lookup -/

theorem classAttr_none {p : PyProg} {o : Nat} {name : PyStr} :
    p.classAttr o name = none ↔ ∀ d ∈ p.mro o, PyDict.get? d name = none := by
  unfold PyProg.classAttr
  rw [List.findSome?_eq_none_iff]

/-- The attribute lookup gives something exactly for the names that the object has, apart from properties that raise. -/
theorem getattr_has (p : PyProg) (o : Nat) (name : PyStr) (hp : ∀ g, p.classAttr o name ≠ some (.prop g)) :
    (Has p o name → ∃ v, p.getattr o name = .ok v) ∧
    (¬ Has p o name → p.getattr o name = .error .attributeError) := by
  unfold PyProg.getattr
  cases hc : p.classAttr o name with
  | some a =>
    have hh : Has p o name := by
      unfold PyProg.classAttr at hc
      obtain ⟨d, hd, ha⟩ := List.exists_of_findSome?_eq_some hc
      exact .inr (.inl ⟨d, hd, a, ha⟩)
    refine ⟨fun _ => ?_, fun h => absurd hh h⟩
    cases a with
    | prop g => exact absurd hc (hp g)
    | func f => exact ⟨_, rfl⟩
    | static f => exact ⟨_, rfl⟩
    | classm f => exact ⟨_, rfl⟩
    | value v => exact ⟨_, rfl⟩
  | none =>
    rw [classAttr_none] at hc
    dsimp only
    by_cases hd : name ∈ dataNames
    · rw [if_pos hd]
      refine ⟨fun _ => ⟨_, rfl⟩, fun h => absurd ?_ h⟩
      exact .inr (.inr (List.mem_append_left _ hd))
    · rw [if_neg hd]
      cases hv : PyDict.get? (p.dict o) name with
      | some v => exact ⟨fun _ => ⟨v, rfl⟩, fun h => absurd (.inl ⟨v, hv⟩) h⟩
      | none =>
        dsimp only
        by_cases ho : name ∈ objectNames
        · rw [if_pos ho]
          exact ⟨fun _ => ⟨_, rfl⟩, fun h => absurd (.inr (.inr ho)) h⟩
        · rw [if_neg ho]
          refine ⟨fun h => ?_, fun _ => rfl⟩
          rcases h with ⟨v, h⟩ | ⟨d, hd', a, h⟩ | h
          · rw [hv] at h; cases h
          · rw [hc d hd'] at h; cases h
          · exact absurd h ho

/-- What is found for a request of a service whose factory makes the object `o`. -/
theorem lookup_object {p : PyProg} {g : Registry} {h : Heap} {ctx : Baggage} {s : PyStr} {o : Nat}
    (ho : ObjectFor p g h ctx s o) (m : PyStr) :
    lookup p.services g h ctx s m =
      match p.getattr o m with
      | .error e => .refused (if e = .attributeError ∨ e = .noProcessor then .noProcessor else .serverException)
      | .ok func => .found func := by
  obtain ⟨f, h1, h2⟩ := ho
  unfold lookup
  rw [h1]
  dsimp only
  rw [h2]
  rfl

/-- If something is found then an object has been made. -/
theorem lookup_found_object {p : PyProg} {g : Registry} {h : Heap} {ctx : Baggage} {s m : PyStr} {func : Nat}
    (hl : lookup p.services g h ctx s m = .found func) :
    ∃ o, ObjectFor p g h ctx s o ∧ p.getattr o m = .ok func := by
  unfold lookup at hl
  cases hg : PyDict.get? g s with
  | none => rw [hg] at hl; cases hl
  | some f =>
    rw [hg] at hl
    dsimp only at hl
    cases hc : f.call p.services h ctx with
    | error e => rw [hc] at hl; cases hl
    | ok o =>
      rw [hc] at hl
      dsimp only at hl
      refine ⟨o, ⟨f, hg, hc⟩, ?_⟩
      change (match p.getattr o m with
        | .error e => Lookup.refused
            (if e = PyExc.attributeError ∨ e = PyExc.noProcessor then RespStatus.noProcessor else RespStatus.serverException)
        | .ok func => .found func) = _ at hl
      cases ha : p.getattr o m with
      | error e => rw [ha] at hl; cases hl
      | ok v => rw [ha] at hl; cases hl; rfl

theorem getattr_ok_has {p : PyProg} {o : Nat} {m : PyStr} {v : Nat} (ha : p.getattr o m = .ok v) : Has p o m := by
  by_cases hp : ∀ g, p.classAttr o m ≠ some (.prop g)
  · by_cases hh : Has p o m
    · exact hh
    · rw [(getattr_has p o m hp).2 hh] at ha; cases ha
  · obtain ⟨g', hg'⟩ := Classical.not_forall.1 hp
    have hg' := Classical.not_not.1 hg'
    unfold PyProg.classAttr at hg'
    obtain ⟨d, hd, hda⟩ := List.exists_of_findSome?_eq_some hg'
    exact .inr (.inl ⟨d, hd, _, hda⟩)

theorem getattr_method {p : PyProg} {o : Nat} {m : PyStr} {v fn : Nat} (ha : p.getattr o m = .ok v)
    (hfn : p.classAttr o m = some (.func fn)) (hpl : Plain p o m) : v = p.method fn o := by
  unfold PyProg.getattr at ha
  rw [hfn] at ha
  dsimp only at ha
  rw [show PyDict.get? (p.dict o) m = none from hpl] at ha
  injection ha with ha
  exact ha.symm

/-! ## What a request gets -/

/-- C150, the calls: what is called for a request is the attribute of the service object under the name in the request;
and the object has an attribute of that name. If the name is that of a method that its classes have, and the object has no
attribute of its own of that name, then it is this method, bound to the object. -/
theorem C150_called_partial (p : PyProg) (reg : Registry) (evs : List LEv) (j : Nat) (t : Task) (r : Req) (k : Nat)
    (ht : (lrun p.services reg evs).tasks[j]? = some t) (hk : t.kind = .dispatch r) (hf : t.fut = some k) :
    ∃ (f : Fut) (s m : PyStr) (g : Registry) (o : Nat), (lrun p.services reg evs).futs[k]? = some f ∧
      serviceName r.header = some s ∧ methodName r.header = some m ∧ t.ran = some g ∧
      ObjectFor p g f.heap f.ctx s o ∧ p.getattr o m = .ok f.func ∧ Has p o m ∧
      ∀ fn, p.classAttr o m = some (.func fn) → Plain p o m → f.func = p.method fn o := by
  obtain ⟨f, s, m, g, h1, h2, h3, h4, h5⟩ := C78_resolution p.services reg evs j t r k ht hk hf
  obtain ⟨o, ho, ha⟩ := lookup_found_object h5
  exact ⟨f, s, m, g, o, h1, h2, h3, h4, ho, ha, getattr_ok_has ha, fun fn e1 e2 => getattr_method ha e1 e2⟩

/-- C150, the refusals: a name that the object does not have, nor any of its classes, is answered NO_PROCESSOR, and
nothing is called; a name that it has, and that is no property, is never refused. -/
theorem C150_refused_partial (p : PyProg) (reg : Registry) (evs : List LEv) (j : Nat) (t : Task) (r : Req) (s m : PyStr)
    (ht : (lrun p.services reg evs).tasks[j]? = some t) (hk : t.kind = .dispatch r) (b : Bytes)
    (hs : serviceName r.header = some s) (hm : methodName r.header = some m)
    (hb : (Origin.task j, b) ∈ (lrun p.services reg evs).out) :
    ∃ (g : Registry) (h : Heap) (ctx : Baggage), t.ran = some g ∧ (∃ h0 fresh, extract h0 fresh r.header = .ok (h, ctx)) ∧
      ∀ o, ObjectFor p g h ctx s o → (∀ q, p.classAttr o m ≠ some (.prop q)) →
        (¬ Has p o m → b = reply r.id 0x06 []) ∧ (Has p o m → b ≠ reply r.id 0x06 [] ∧ t.fut.isSome) := by
  have h := C74_status p.services reg evs j t r b ht hk hb
  rw [serviceOf_eq, methodOf_eq, hs, hm] at h
  dsimp only at h
  obtain ⟨g, h0, h1, fresh, ctx, e1, e2, e3⟩ := h
  refine ⟨g, h1, ctx, e1, ⟨h0, fresh, e2⟩, ?_⟩
  intro o ho hp
  rw [lookup_object ho] at e3
  refine ⟨fun hh => ?_, fun hh => ?_⟩
  · rw [(getattr_has p o m hp).2 hh] at e3
    exact e3
  · obtain ⟨v, hv⟩ := (getattr_has p o m hp).1 hh
    rw [hv] at e3
    dsimp only at e3
    obtain ⟨k, f, hk', -, -, -, hc⟩ := e3
    refine ⟨?_, by rw [hk']; rfl⟩
    have hinv := LInv.run p.services reg evs
    obtain ⟨a, ham, -, hid⟩ := task_act hinv ht
    have hok := hinv.actsOk a ham _ hid
    rw [hk] at hok
    have n : ([] : Bytes).length < 4294967296 := by decide
    rcases hc with ⟨-, -, -, -, e⟩ | ⟨-, -, -, e⟩ | ⟨-, -, -, -, -, e⟩ | ⟨c, -, hne, e⟩ <;> rw [e] <;> intro e'
    · cases (reply_inj (st := .timeout) (st' := .noProcessor) hok hok n n e').2.1
    · cases (reply_inj (st := .timeout) (st' := .noProcessor) hok hok n n e').2.1
    · cases (reply_inj (st := .unknown) (st' := .noProcessor) hok hok n n e').2.1
    · have e3 := congrArg List.length e'
      simp only [reply, frame_length] at e3
      have : c.length = 0 := by simp at e3; simp [e3]
      exact hne (List.length_eq_zero_iff.1 this)

/-- C150, what every object has: whatever the service, a request for one of these names that reaches its object is handed
to the executor. -/
theorem C150_everyone (p : PyProg) (g : Registry) (h : Heap) (ctx : Baggage) (s m : PyStr) (o : Nat)
    (ho : ObjectFor p g h ctx s o) (hm : m ∈ objectNames) (hp : ∀ q, p.classAttr o m ≠ some (.prop q)) :
    ∃ func, findMethod p.services g h ctx s m = .ok func := by
  obtain ⟨f, h1, h2⟩ := ho
  obtain ⟨v, hv⟩ := (getattr_has p o m hp).1 (.inr (.inr hm))
  refine ⟨v, ?_⟩
  unfold findMethod
  rw [h1]
  dsimp only
  rw [h2]
  change (match (p.getattr o m : Except PyExc Nat) with
    | .error .attributeError => Except.error PyExc.noProcessor
    | r => r) = _
  rw [hv]

/-- The attributes that every object has never return bytes when they are called with the body of a request. -/
theorem builtinCall_no_bytes (name : PyStr) (o : Outcome) (h : builtinCall name o) (c : Bytes) : o ≠ .ret (.bytes c) := by
  unfold builtinCall at h
  rintro rfl
  split at h
  · rcases h with ⟨e, h⟩ | ⟨t, h⟩ <;> cases h
  · split at h
    · rcases h with h | h <;> cases h
    · split at h <;> cases h

/-- C150, what such requests get: if the classes of the object do not define the name, and the object has no attribute of
that name, then what `object` gives is called, and the answer, if any, is TIMEOUT or UNKNOWN: never a result. `hbehave` is
how Python's own attributes behave when they are called with the body. -/
theorem C150_builtin (p : PyProg) (reg : Registry) (evs : List LEv) (j : Nat) (t : Task) (r : Req) (s m : PyStr)
    (ht : (lrun p.services reg evs).tasks[j]? = some t) (hk : t.kind = .dispatch r) (b : Bytes)
    (hs : serviceName r.header = some s) (hm : methodName r.header = some m) (hobj : m ∈ objectNames)
    (hmade : ∀ g h ctx, t.ran = some g → (∃ h0 fresh, extract h0 fresh r.header = .ok (h, ctx)) →
      ∃ o, ObjectFor p g h ctx s o ∧ p.classAttr o m = none ∧ Plain p o m)
    (hbehave : ∀ (k : Nat) (f : Fut) (o : Nat), (lrun p.services reg evs).futs[k]? = some f → f.func = p.builtin o m →
      ∀ out, f.st = .finished out → builtinCall m out)
    (hb : (Origin.task j, b) ∈ (lrun p.services reg evs).out) :
    b = reply r.id 0x07 [] ∨ b = reply r.id 0x03 [] := by
  have h := C74_status p.services reg evs j t r b ht hk hb
  rw [serviceOf_eq, methodOf_eq, hs, hm] at h
  dsimp only at h
  obtain ⟨g, h0, h1, fresh, ctx, e1, e2, e3⟩ := h
  obtain ⟨o, ho, hc, hpl⟩ := hmade g h1 ctx e1 ⟨h0, fresh, e2⟩
  have hga : p.getattr o m = .ok (p.builtin o m) := by
    unfold PyProg.getattr
    rw [hc]
    dsimp only
    rw [show PyDict.get? (p.dict o) m = none from hpl]
    dsimp only
    rw [if_pos hobj]
    exact ite_self _
  rw [lookup_object ho, hga] at e3
  dsimp only at e3
  obtain ⟨k, f, -, hf, hfunc, -, hcs⟩ := e3
  rcases hcs with ⟨-, -, -, -, e⟩ | ⟨-, -, -, e⟩ | ⟨-, -, -, -, -, e⟩ | ⟨c, e4, -, -⟩
  · exact .inl e
  · exact .inl e
  · exact .inr e
  · exact absurd rfl (builtinCall_no_bytes m _ (hbehave k f o hf hfunc _ e4) c)

/-- C150, the socket listener: what it calls is the attribute of the service object under the name in the request that
has arrived, and the object has such an attribute. -/
theorem C150_sock (p : PyProg) (reg : Registry) (evs : List SEv) (hn : .reset ∉ evs) (c : SCall)
    (hc : c ∈ (srun p.services reg evs).calls) :
    ∃ (q : AnyFrame) (s m : PyStr) (o : Nat), Complete q (sreceived evs) ∧ serviceName q.header = some s ∧
      methodName q.header = some m ∧ c.body = q.content ∧
      ObjectFor p c.reg c.heap c.ctx s o ∧ p.getattr o m = .ok c.func ∧ Has p o m ∧
      ∀ fn, p.classAttr o m = some (.func fn) → Plain p o m → c.func = p.method fn o := by
  have key : ∀ q, CallFor p.services reg evs q c → Complete q (sreceived evs) →
      ∃ (q : AnyFrame) (s m : PyStr) (o : Nat), Complete q (sreceived evs) ∧ serviceName q.header = some s ∧
      methodName q.header = some m ∧ c.body = q.content ∧
      ObjectFor p c.reg c.heap c.ctx s o ∧ p.getattr o m = .ok c.func ∧ Has p o m ∧
      ∀ fn, p.classAttr o m = some (.func fn) → Plain p o m → c.func = p.method fn o := by
    rintro q ⟨hb, -, s, m, pre, -, hs, hm, -, hl⟩ hq
    obtain ⟨o, ho, ha⟩ := lookup_found_object hl
    exact ⟨q, s, m, o, hq, hs, hm, hb, ho, ha, getattr_ok_has ha, fun fn h1 h2 => getattr_method ha h1 h2⟩
  rcases C110_every_stream p.services reg evs hn with ⟨-, -, -, -, -, h⟩ | ⟨-, -, -, -, h, -⟩ | ⟨-, -, q, hq, -, h, -⟩
  · rw [h] at hc; cases hc
  · rw [h] at hc; cases hc
  · rcases h with ⟨-, -, h⟩ | ⟨-, -, c', h, hcf⟩ | ⟨-, hh⟩
    · rw [h] at hc; cases hc
    · rw [h, List.mem_singleton] at hc
      subst hc
      exact key q hcf hq
    · generalize (srun p.services reg evs).calls = cs at hc hh
      generalize (srun p.services reg evs).result = res at hh
      generalize (srun p.services reg evs).out = out at hh
      cases hh with
      | called h hc' c' o hcall =>
        rw [List.mem_singleton] at hc
        subst hc
        exact key q hcall hq
      | _ => cases hc

/-! ## Examples -/

/-- a service class with the method `m` and a private method `_p`; its objects have the attribute `ctx` (value 50) -/
def exProg : PyProg where
  construct c _ _ _ _ := .ok c
  dict _ := [(py "ctx", 50)]
  mro _ := [[(py "m", .func 1), (py "_p", .func 2)], [(py "__init__", .func 3)]]
  method f o := 1000 + 10 * f + o
  clsMethod f _ := 2000 + f
  getter _ _ := .error .other
  builtin _ _ := 7

/-- the header of a request to `s` for the method with the given name -/
def exNamed (id : Int) (name : String) (content : Bytes) : ReqFrame :=
  ⟨⟨1, 1, 1, 1, id, 11, 0⟩,
    [0, 0, 0, 7] ++ pyb "service" ++ [0, 0, 0, 1] ++ pyb "s" ++
      [0, 0, 0, 21] ++ pyb "sofa_head_method_name" ++ [0, 0, 0, UInt8.ofNat name.length] ++ pyb name,
    [(py "service", py "s"), (py "sofa_head_method_name", py name)], content⟩

/-- reading and dispatching one request -/
def exNamedEvs (q : ReqFrame) : List LEv := [.data q.bytes, .reader, .reader, .reader, .reader, .run 0 (py "t")]

set_option maxRecDepth 20000 in
/-- A request for `__class__` makes another service object, with the body of the request for its context. -/
theorem C150_violated : ¬ C150_full := by
  intro h
  let q := exNamed 3 "__class__" [1, 2]
  have hs : ∃ t f, (lrun exProg.services exReg (exNamedEvs q)).tasks[0]? = some t ∧ t.kind = .dispatch q.req ∧
      t.fut = some 0 ∧ (lrun exProg.services exReg (exNamedEvs q)).futs[0]? = some f ∧
      methodName q.req.header = some (py "__class__") := by
    have h1 : ((lrun exProg.services exReg (exNamedEvs q)).tasks[0]?.map fun t => (t.kind, t.fut)) =
      some (.dispatch q.req, some 0) := by decide +kernel
    have h2 : (lrun exProg.services exReg (exNamedEvs q)).futs[0]?.isSome := by decide +kernel
    obtain ⟨t, ht, he⟩ := Option.map_eq_some_iff.1 h1
    obtain ⟨f, hf⟩ := Option.isSome_iff_exists.1 h2
    injection he with e1 e2
    exact ⟨t, f, ht, e1, e2, hf, by decide +kernel⟩
  obtain ⟨t, f, h1, h2, h3, h4, h5⟩ := hs
  obtain ⟨o, fn, ⟨ho, -⟩, -⟩ := h exProg exReg _ 0 t q.req 0 f _ h1 h2 h3 h4 h5
  exact ho (by decide)

set_option maxRecDepth 20000 in
/-- The hypotheses of the theorems above are met, and what is called: the method `m`; a private method; the attribute
`ctx` of the object (a value that cannot be called); the constructor once more; nothing. -/
example : let run name := lrun exProg.services exReg (exNamedEvs (exNamed 3 name [1]))
    (run "m").futs.map Fut.func = [1010] ∧ (run "_p").futs.map Fut.func = [1020] ∧
    (run "ctx").futs.map Fut.func = [50] ∧ (run "__init__").futs.map Fut.func = [1030] ∧
    (run "__str__").futs.map Fut.func = [7] ∧ (run "nope").futs = [] ∧
    (lrun exProg.services exReg (exNamedEvs (exNamed 3 "nope" [1]) ++ [.write 0])).wire = reply 3 6 [] := by
  decide +kernel

set_option maxRecDepth 20000 in
/-- `__str__` cannot be called with an argument: the answer is UNKNOWN; comparing gives `NotImplemented`, for which nothing
is written. -/
example : let run name o := (lrun exProg.services exReg (exNamedEvs (exNamed 3 name [1]) ++
      [.futStart 0, .futFinish 0 o, .result 0, .write 0])).wire
    py "__str__" ∈ objectNames ∧ builtinCall (py "__str__") (.raised .typeError) ∧
    run "__str__" (.raised .typeError) = reply 3 3 [] ∧
    builtinCall (py "__eq__") (.ret (.obj true)) ∧ run "__eq__" (.ret (.obj true)) = [] := by
  refine ⟨by decide, ?_, by decide +kernel, ?_, by decide +kernel⟩
  · unfold builtinCall
    rw [if_neg (by decide), if_neg (by decide), if_neg (by decide)]
  · unfold builtinCall
    rw [if_neg (by decide), if_neg (by decide), if_pos (by decide)]

example : Offers exProg 0 (py "m") 1 ∧ Has exProg 0 (py "_p") ∧ ¬ Has exProg 0 (py "nope") ∧
    Plain exProg 0 (py "m") ∧ ObjectFor exProg exReg [] [] (py "s") 0 := by
  refine ⟨⟨by decide, by decide⟩, .inr (.inl ⟨_, List.mem_cons_self, .func 2, by decide⟩), ?_, show PyDict.get? _ _ = none by decide,
    .direct 0, by decide, rfl⟩
  rintro (⟨v, h⟩ | ⟨d, hd, a, h⟩ | h)
  · revert h; decide +revert
  · simp only [exProg, List.mem_cons, List.not_mem_nil, or_false] at hd
    rcases hd with rfl | rfl <;> revert h <;> decide +revert
  · revert h; decide

end Bolt
