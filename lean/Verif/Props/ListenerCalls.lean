import Verif.Props.ListenerReplies
/-!
# C78–C82: names, registries and calls of the asyncio listener
-/
namespace Bolt
open Spec

/-! ## C78 -/

namespace Spec

/-- an entry of a header, if it is there and not empty -/
def entry (d : PyDict PyStr PyStr) (k : PyStr) : Option PyStr :=
  match PyDict.get? d k with
  | some [] => none
  | x => x

/-- `sofa_head_target_service` has precedence over `service` -/
def serviceName (d : PyDict PyStr PyStr) : Option PyStr :=
  match entry d (py "sofa_head_target_service") with
  | some s => some s
  | none => entry d (py "service")

def methodName (d : PyDict PyStr PyStr) : Option PyStr := entry d (py "sofa_head_method_name")

end Spec

theorem serviceOf_eq (d : PyDict PyStr PyStr) : serviceOf d = serviceName d := by
  unfold serviceOf serviceName entry orName usable
  cases PyDict.get? d (py "sofa_head_target_service") with
  | none =>
    dsimp only
    cases PyDict.get? d (py "service") with
    | none => rfl
    | some s => cases s <;> rfl
  | some t =>
    cases t with
    | nil =>
      dsimp only [List.isEmpty]
      cases PyDict.get? d (py "service") with
      | none => rfl
      | some s => cases s <;> rfl
    | cons x xs => rfl

theorem methodOf_eq (d : PyDict PyStr PyStr) : methodOf d = methodName d := by
  unfold methodOf methodName entry usable
  cases PyDict.get? d (py "sofa_head_method_name") with
  | none => rfl
  | some s => cases s <;> rfl

/-- C78. The call made for a request is that of the method named by `sofa_head_method_name` of the service named by
`sofa_head_target_service`, or by `service` if the former is absent or empty. -/
theorem C78_resolution (svc : Services) (reg : Registry) (evs : List LEv) (j : Nat) (t : Task) (r : Req) (k : Nat)
    (ht : (lrun svc reg evs).tasks[j]? = some t) (hk : t.kind = .dispatch r) (hf : t.fut = some k) :
    ∃ (f : Fut) (s m : PyStr) (g : Registry), (lrun svc reg evs).futs[k]? = some f ∧
      serviceName r.header = some s ∧ methodName r.header = some m ∧ t.ran = some g ∧
      lookup svc g f.heap f.ctx s m = .found f.func := by
  have htk := (LInv.run svc reg evs).task j t ht
  unfold TaskOk at htk
  rw [hk] at htk
  obtain ⟨f, s, m, g, h0, fresh, e1, -, e3, e4, -, e6, e7, -⟩ := htk.2.2 k hf
  rw [serviceOf_eq] at e3
  rw [methodOf_eq] at e4
  exact ⟨f, s, m, g, e1, e3, e4, e6, (findMethod_lookup svc g f.heap f.ctx s m).1 _ e7⟩

/-- C78. If one of the names is absent or empty the request is refused: nothing is called for it, and nothing but
CLIENT_SEND_ERROR is written for it; exactly once when everything has settled on an open connection. -/
theorem C78_refused (svc : Services) (reg : Registry) (evs : List LEv) (j : Nat) (t : Task) (r : Req)
    (ht : (lrun svc reg evs).tasks[j]? = some t) (hk : t.kind = .dispatch r)
    (hno : serviceName r.header = none ∨ methodName r.header = none) :
    t.fut = none ∧ (∀ m, (Origin.task j, m) ∈ (lrun svc reg evs).out → m = reply r.id 0x08 []) ∧
    ((lrun svc reg evs).settled → (lrun svc reg evs).closed = false →
      (lrun svc reg evs).out.filter (fun x => x.1 = .task j) = [(.task j, reply r.id 0x08 [])]) := by
  rw [← serviceOf_eq, ← methodOf_eq] at hno
  have h := LInv.run svc reg evs
  have htk := h.task j t ht
  unfold TaskOk at htk
  rw [hk] at htk
  obtain ⟨hst, hfate, hfut⟩ := htk
  have hnone : t.fut = none := by
    cases hf : t.fut with
    | none => rfl
    | some k =>
      obtain ⟨f, s, m, g, h0, fresh, -, -, e3, e4, -⟩ := hfut k hf
      rcases hno with e | e
      · rw [e] at e3; cases e3
      · rw [e] at e4; cases e4
  have hall : ∀ f, t.fate = some f → f = .badName := by
    intro f hf
    have hfo := hfate f hf
    cases f with
    | badName => rfl
    | badCarrier =>
      obtain ⟨h1, h2, -⟩ := hfo
      rcases hno with e | e
      · rw [e] at h1; cases h1
      · rw [e] at h2; cases h2
    | notFound =>
      obtain ⟨-, s, m, g, h0, fresh, hh, ctx, e3, e4, -⟩ := hfo
      rcases hno with e | e
      · rw [e] at e3; cases e3
      · rw [e] at e4; cases e4
    | failed x =>
      obtain ⟨-, -, s, m, g, h0, fresh, hh, ctx, e3, e4, -⟩ := hfo
      rcases hno with e | e
      · rw [e] at e3; cases e3
      · rw [e] at e4; cases e4
    | accepted => have := hfo.2; rw [hnone] at this; cases this
    | expired => have := hfo.2.1; rw [hnone] at this; cases this
    | answered o =>
      obtain ⟨-, k, f, e1, -⟩ := hfo
      rw [hnone] at e1; cases e1
  refine ⟨hnone, ?_, ?_⟩
  · intro m hm
    obtain ⟨t', ht', -, hr⟩ := h.outTask j m hm
    rw [ht] at ht'
    cases ht'
    simp only [taskReply, hk] at hr
    cases hf : t.fate with
    | none => rw [hf] at hr; cases hr
    | some f =>
      rw [hf, hall f hf] at hr
      cases hr
      rfl
  · intro hs hc
    have hend := hs.2 t (List.mem_of_getElem? ht)
    rw [hend] at hst
    obtain ⟨f, hf⟩ := Option.isSome_iff_exists.1 (show t.fate.isSome from hst)
    have htr : taskReply t = some (reply r.id 0x08 []) := by
      rw [hall f hf] at hf
      simp [taskReply, hk, hf, owed]
    rw [task_written h hs hc ht, htr]

/-- a request whose target service is empty and whose method name is missing -/
def exNoMethod : ReqFrame :=
  ⟨⟨1, 1, 1, 1, 9, 11, 100⟩, [0, 0, 0, 7, 115, 101, 114, 118, 105, 99, 101, 0, 0, 0, 1, 115], [(py "service", py "s")],
    [1]⟩

set_option maxRecDepth 20000 in
example : headerFromBytes exNoMethod.hdr = .ok exNoMethod.header ∧
    let s := lrun exServices exReg [.data exNoMethod.bytes, .reader, .reader, .reader, .reader, .run 0 [], .write 0]
    s.settled ∧ s.closed = false ∧ s.tasks.map Task.kind = [.dispatch exNoMethod.req] ∧
    serviceName exNoMethod.header = some (py "s") ∧ methodName exNoMethod.header = none ∧ s.wire = reply 9 8 [] := by
  decide +kernel

example : serviceName [(py "service", py "a"), (py "sofa_head_target_service", py "b")] = some (py "b") ∧
    serviceName [(py "sofa_head_target_service", []), (py "service", py "a")] = some (py "a") := by decide

/-! ## C79 -/

namespace Spec

/-- the last of these registrations that is for this interface -/
def lastFor (rs : List Registration) (i : PyStr) : Option Registration :=
  (rs.filter fun r => r.interface = i).getLast?

/-- serving a method: an object of the registered class is made, from the context and the registered arguments -/
def serve (svc : Services) (r : Registration) (h : Heap) (ctx : Baggage) (method : PyStr) : Lookup :=
  match (do let o ← svc.construct r.cls h ctx r.args r.kwargs; svc.getattr o method) with
  | .error e => .refused (if e = .attributeError ∨ e = .noProcessor then .noProcessor else .serverException)
  | .ok func => .found func

/-- the registrations in a schedule -/
def registrations (evs : List LEv) : List Registration :=
  evs.filterMap fun
    | .register r => some r
    | _ => none

end Spec

theorem get?_registrations (rs : List Registration) : ∀ (reg : Registry) (i : PyStr),
    PyDict.get? (rs.foldl registerInterface reg) i =
      match lastFor rs i with
      | some r => some (if !r.args.isEmpty || !r.kwargs.isEmpty then .wrapper r.cls r.args r.kwargs else .direct r.cls)
      | none => PyDict.get? reg i := by
  induction rs with
  | nil => intro reg i; rfl
  | cons r rs ih =>
    intro reg i
    rw [List.foldl_cons, ih]
    unfold lastFor
    rw [List.filter_cons]
    by_cases h : r.interface = i
    · rw [if_pos (by simpa using h)]
      cases hl : (rs.filter fun r => r.interface = i).getLast? with
      | none =>
        rw [List.getLast?_eq_none_iff] at hl
        rw [hl]
        simp only [List.getLast?_singleton]
        unfold registerInterface
        rw [PyDict.get?_set, if_pos h]
      | some x =>
        rw [List.getLast?_cons, hl]
        rfl
    · rw [if_neg (by simpa using h)]
      cases hl : (rs.filter fun r => r.interface = i).getLast? with
      | none =>
        dsimp only
        unfold registerInterface
        rw [PyDict.get?_set, if_neg h]
      | some x => rfl

/-- C79. After any sequence of registrations, a request for an interface is served by the class registered last for
it, constructed with the request's context and the extra arguments of that registration. -/
theorem C79_last_wins (svc : Services) (reg : Registry) (rs : List Registration) (i m : PyStr) (h : Heap)
    (ctx : Baggage) :
    lookup svc (rs.foldl registerInterface reg) h ctx i m =
      match lastFor rs i with
      | some r => serve svc r h ctx m
      | none => lookup svc reg h ctx i m := by
  unfold lookup
  rw [get?_registrations]
  cases lastFor rs i with
  | none => rfl
  | some r =>
    dsimp only
    have hcall : Factory.call svc h ctx
        (if !r.args.isEmpty || !r.kwargs.isEmpty then .wrapper r.cls r.args r.kwargs else .direct r.cls) =
        svc.construct r.cls h ctx r.args r.kwargs := by
      split
      · rfl
      · next hh =>
        simp only [Bool.or_eq_true, Bool.not_eq_true', List.isEmpty_eq_false_iff, not_or, Decidable.not_not] at hh
        rw [hh.1, hh.2]
        rfl
    rw [hcall]
    unfold serve
    cases svc.construct r.cls h ctx r.args r.kwargs with
    | error e => rfl
    | ok o =>
      show (match svc.getattr o m with | .error e => _ | .ok func => _) =
        match svc.getattr o m with | .error e => _ | .ok func => _
      cases svc.getattr o m <;> rfl

theorem lstep_reg (svc : Services) (s : LSt) (ev : LEv) :
    (lstep svc s ev).reg = (registrations [ev]).foldl registerInterface s.reg := by
  cases ev with
  | data bs => simp only [lstep]; split <;> rfl
  | reader => exact (reader_fields s).2.2.2
  | run i fresh =>
    simp only [lstep]
    split
    · split
      · unfold LSt.dispatch
        split
        · rfl
        · split
          · rfl
          · split
            · rfl
            · dsimp only
              split
              · rfl
              · rfl
              · split <;> rfl
      · rfl
    · rfl
  | result i =>
    simp only [lstep]
    split
    · split
      · split <;> rfl
      · rfl
    · rfl
  | expire i =>
    simp only [lstep]
    split
    · split
      · split
        · unfold LSt.setTask LSt.cancelFut
          split <;> rfl
        · rfl
      · rfl
    · rfl
  | write i =>
    simp only [lstep]
    split
    · split
      · unfold LSt.setTask LSt.write
        split <;> rfl
      · rfl
    · rfl
  | futStart k => simp only [lstep]; split <;> rfl
  | futFinish k o => simp only [lstep]; split <;> rfl
  | _ => rfl

theorem registrations_append (a b : List LEv) : registrations (a ++ b) = registrations a ++ registrations b :=
  List.filterMap_append ..

theorem lrun_reg (svc : Services) (reg : Registry) (evs : List LEv) :
    (lrun svc reg evs).reg = (registrations evs).foldl registerInterface reg := by
  unfold lrun
  suffices ∀ s, (evs.foldl (lstep svc) s).reg = (registrations evs).foldl registerInterface s.reg from this _
  induction evs with
  | nil => intro s; rfl
  | cons e evs ih =>
    intro s
    rw [List.foldl_cons, ih, lstep_reg, ← List.foldl_append, ← registrations_append]
    rfl

/-- a task that has looked up its method did so in a `run` event, in the registry of that moment -/
theorem ran_step (svc : Services) (s : LSt) (ev : LEv) (j : Nat) (t : Task) (g : Registry)
    (ht : (lstep svc s ev).tasks[j]? = some t) (hg : t.ran = some g) :
    (∃ t0 : Task, s.tasks[j]? = some t0 ∧ t0.ran = some g) ∨ (∃ fresh, ev = .run j fresh ∧ g = s.reg) := by
  have same : s.tasks[j]? = some t → (∃ t0 : Task, s.tasks[j]? = some t0 ∧ t0.ran = some g) ∨
      (∃ fresh, ev = .run j fresh ∧ g = s.reg) := fun h => .inl ⟨t, h, hg⟩
  -- an event that changes one task but not its `ran`
  have upd : ∀ (i : Nat) (u x : Task), s.tasks[i]? = some u → (s.tasks.set i x)[j]? = some t → x.ran = u.ran →
      ∃ t0 : Task, s.tasks[j]? = some t0 ∧ t0.ran = some g := by
    intro i u x hi hj hx
    by_cases hij : i = j
    · subst hij
      rw [List.getElem?_set_self (List.getElem?_eq_some_iff.1 hi).1] at hj
      cases hj
      exact ⟨u, hi, hx ▸ hg⟩
    · rw [List.getElem?_set_ne hij] at hj
      exact ⟨t, hj, hg⟩
  have add : ∀ x : Task, x.ran = none → (s.tasks ++ [x])[j]? = some t →
      ∃ t0 : Task, s.tasks[j]? = some t0 ∧ t0.ran = some g := by
    intro x hx hj
    rw [List.getElem?_append] at hj
    split at hj
    · exact ⟨t, hj, hg⟩
    · have : t ∈ [x] := List.mem_of_getElem? hj
      simp only [List.mem_singleton] at this
      subst this
      rw [hx] at hg
      cases hg
  cases ev with
  | data bs => simp only [lstep] at ht; split at ht <;> exact same ht
  | reader =>
    left
    simp only [lstep] at ht
    unfold LSt.reader at ht
    split at ht
    · split at ht
      · exact ⟨t, ht, hg⟩
      · exact ⟨t, ht, hg⟩
      · unfold LSt.perform at ht
        dsimp only at ht
        split at ht
        · exact add _ rfl ht
        · split at ht
          · exact add _ rfl ht
          · exact ⟨t, ht, hg⟩
        · split at ht <;> exact ⟨t, ht, hg⟩
        · exact ⟨t, ht, hg⟩
        · exact ⟨t, ht, hg⟩
    · unfold LSt.write at ht; split at ht <;> exact ⟨t, ht, hg⟩
    · exact ⟨t, ht, hg⟩
    · unfold LSt.write at ht; split at ht <;> exact ⟨t, ht, hg⟩
  | run i fresh =>
    simp only [lstep] at ht
    split at ht
    · next u hi =>
      split at ht
      · have new : ∀ (x : Task), x.ran = some s.reg → (s.tasks.set i x)[j]? = some t →
            (∃ t0 : Task, s.tasks[j]? = some t0 ∧ t0.ran = some g) ∨
              (∃ fresh', LEv.run i fresh = .run j fresh' ∧ g = s.reg) := by
          intro x hx hj
          by_cases hij : i = j
          · subst hij
            rw [List.getElem?_set_self (List.getElem?_eq_some_iff.1 hi).1] at hj
            cases hj
            rw [hx] at hg
            cases hg
            exact .inr ⟨fresh, rfl, rfl⟩
          · rw [List.getElem?_set_ne hij] at hj
            exact .inl ⟨t, hj, hg⟩
        unfold LSt.dispatch at ht
        split at ht
        · exact .inl (upd i u _ hi ht rfl)
        · split at ht
          · exact .inl (upd i u _ hi ht rfl)
          · split at ht
            · exact .inl (upd i u _ hi ht rfl)
            · dsimp only at ht
              split at ht
              · exact new _ rfl ht
              · exact new _ rfl ht
              · split at ht <;> exact new _ rfl ht
      · exact same ht
    · exact same ht
  | result i =>
    simp only [lstep] at ht
    split at ht
    · next u hi =>
      split at ht
      · split at ht
        · exact same ht
        · exact .inl (upd i u _ hi ht rfl)
        · exact same ht
      · exact same ht
    · exact same ht
  | expire i =>
    simp only [lstep] at ht
    split at ht
    · next u hi =>
      split at ht
      · next d r k _ _ _ =>
        split at ht
        · have : (s.tasks.set i ⟨u.kind, toWrite (failMsg r.id .timeout), u.fut, some .expired, u.ran, u.started⟩)[j]? =
              some t := by
            unfold LSt.setTask LSt.cancelFut at ht
            split at ht <;> exact ht
          exact .inl (upd i u _ hi this rfl)
        · exact same ht
      · exact same ht
    · exact same ht
  | write i =>
    simp only [lstep] at ht
    split at ht
    · next u hi =>
      split at ht
      · have : (s.tasks.set i ⟨u.kind, .ended, u.fut, u.fate, u.ran, u.started⟩)[j]? = some t := by
          unfold LSt.setTask LSt.write at ht
          split at ht <;> exact ht
        exact .inl (upd i u _ hi this rfl)
      · exact same ht
    · exact same ht
  | futStart k => simp only [lstep] at ht; split at ht <;> exact same ht
  | futFinish k o => simp only [lstep] at ht; split at ht <;> exact same ht
  | _ => exact same ht

theorem ran_run (svc : Services) (evs : List LEv) : ∀ (s : LSt) (j : Nat) (t : Task) (g : Registry),
    (evs.foldl (lstep svc) s).tasks[j]? = some t → t.ran = some g →
    (∃ t0 : Task, s.tasks[j]? = some t0 ∧ t0.ran = some g) ∨
    ∃ pre fresh post, evs = pre ++ .run j fresh :: post ∧ g = (registrations pre).foldl registerInterface s.reg := by
  induction evs with
  | nil => intro s j t g ht hg; exact .inl ⟨t, ht, hg⟩
  | cons e evs ih =>
    intro s j t g ht hg
    rcases ih (lstep svc s e) j t g ht hg with ⟨t0, h1, h2⟩ | ⟨pre, fresh, post, rfl, hr⟩
    · rcases ran_step svc s e j t0 g h1 h2 with h | ⟨fresh, rfl, hr⟩
      · exact .inl h
      · exact .inr ⟨[], fresh, evs, rfl, hr⟩
    · refine .inr ⟨e :: pre, fresh, post, rfl, ?_⟩
      rw [hr, lstep_reg, ← List.foldl_append, ← registrations_append]
      rfl

/-- C79, on a connection: a call made for a request is the one that the registration made last, before the request
was started, for its service gives. -/
theorem C79_serving (svc : Services) (reg : Registry) (evs : List LEv) (j : Nat) (t : Task) (r : Req) (k : Nat)
    (ht : (lrun svc reg evs).tasks[j]? = some t) (hk : t.kind = .dispatch r) (hf : t.fut = some k) :
    ∃ (f : Fut) (s m : PyStr) (pre post : List LEv) (fresh : PyStr), (lrun svc reg evs).futs[k]? = some f ∧
      serviceName r.header = some s ∧ methodName r.header = some m ∧ evs = pre ++ .run j fresh :: post ∧
      (match lastFor (registrations pre) s with
       | some x => serve svc x f.heap f.ctx m
       | none => lookup svc reg f.heap f.ctx s m) = .found f.func := by
  obtain ⟨f, s, m, g, h1, h2, h3, h4, h5⟩ := C78_resolution svc reg evs j t r k ht hk hf
  rcases ran_run svc evs _ j t g ht h4 with ⟨t0, h, -⟩ | ⟨pre, fresh, post, e, hg⟩
  · cases h
  · refine ⟨f, s, m, pre, post, fresh, h1, h2, h3, e, ?_⟩
    rw [hg, C79_last_wins] at h5
    exact h5

set_option maxRecDepth 20000 in
/-- Class 0 is registered, then class 5 with an argument; the request arrives in between and is started afterwards. -/
example : let rs : List Registration := [⟨py "s", 0, [], []⟩, ⟨py "x", 1, [], []⟩, ⟨py "s", 5, [.int 3], []⟩]
    lastFor rs (py "s") = some ⟨py "s", 5, [.int 3], []⟩ ∧
    (lrun exServices [] ([.register ⟨py "s", 0, [], []⟩, .data (exReq 3 [1]).bytes, .reader, .reader, .reader, .reader,
      .register ⟨py "s", 5, [.int 3], []⟩, .run 0 (py "t")])).futs.map Fut.func = [5] := by
  decide +kernel

/-! ## C80 -/

/-- C80 as listed: registering on one listener leaves the registries of the others alone. -/
def C80_full : Prop :=
  ∀ (ops : List HOp) (i j : Nat) (r : Registration), i ≠ j →
    (Handlers.run (ops ++ [.register i r])).registryOf j = (Handlers.run ops).registryOf j

/-- A service registered on listener 0 is served by listener 1. -/
theorem C80_violated : ¬ C80_full := by
  intro h
  have := h [.newListener, .newListener] 0 1 ⟨py "s", 0, [], []⟩ (by decide)
  revert this
  decide

/-- the registrations that were made on existing listeners -/
def Spec.effective : Nat → List HOp → List Registration
  | _, [] => []
  | n, .newListener :: ops => effective (n + 1) ops
  | n, .register i r :: ops => if i < n then r :: effective n ops else effective n ops

/-- C80, what holds: every listener's registry is that of all registrations made in the process, in order, so they all
serve the same interfaces. -/
theorem C80_shared_partial (ops : List HOp) (i : Nat) :
    (Handlers.run ops).registryOf i = (effective 0 ops).foldl registerInterface [] := by
  unfold Handlers.run Handlers.registryOf
  suffices ∀ w : Handlers, (ops.foldl Handlers.step w).mapping =
      (effective w.count ops).foldl registerInterface w.mapping from this {}
  induction ops with
  | nil => intro w; rfl
  | cons o ops ih =>
    intro w
    rw [List.foldl_cons, ih]
    cases o with
    | newListener => rfl
    | register i r =>
      simp only [Handlers.step, effective]
      split <;> rfl

example : (Handlers.run [.newListener, .newListener, .register 0 ⟨py "s", 0, [], []⟩]).registryOf 1 =
    [(py "s", .direct 0)] := by decide

/-! ## C81 -/

/-- the position in `l` of an element of `l.filterMap g` -/
theorem filterMap_index {α β : Type} (g : α → Option β) (l : List α) : ∀ (j : Nat) (y : β),
    (l.filterMap g)[j]? = some y →
    ∃ (n : Nat) (a : α), l[n]? = some a ∧ g a = some y ∧ ((l.take n).filterMap g).length = j := by
  induction l with
  | nil => intro j y h; cases h
  | cons x xs ih =>
    intro j y h
    rw [List.filterMap_cons] at h
    cases hx : g x with
    | none =>
      rw [hx] at h
      obtain ⟨n, a, h1, h2, h3⟩ := ih j y h
      exact ⟨n + 1, a, h1, h2, by simp [hx, h3]⟩
    | some z =>
      rw [hx] at h
      cases j with
      | zero => cases h; exact ⟨0, x, rfl, hx, rfl⟩
      | succ j =>
        obtain ⟨n, a, h1, h2, h3⟩ := ih j y h
        exact ⟨n + 1, a, h1, h2, by simp [hx, h3]⟩

/-- where a message comes from determines the reader action it is due to, and the other way round -/
def OriginAt (acts : List Act) (o : Origin) (n : Nat) (a : Act) : Prop :=
  acts[n]? = some a ∧ o = (if (actTask a).isSome then .task ((acts.take n).filterMap actTask).length else .reader n)

theorem out_index {svc : Services} {s : LSt} (h : LInv svc s) {o : Origin} {m : Bytes} (hm : (o, m) ∈ s.out) :
    ∃ n a id, OriginAt s.acts o n a ∧ actId a = some id ∧ IdOk id ∧ Answers id m ∧
      (actTask a = none → actReply a = some m) := by
  cases o with
  | task i =>
    obtain ⟨t, ht, -, hr⟩ := h.outTask i m hm
    have hk : (s.acts.filterMap actTask)[i]? = some t.kind := by rw [← h.kinds, List.getElem?_map, ht]; rfl
    obtain ⟨n, a, h1, h2, h3⟩ := filterMap_index actTask s.acts i _ hk
    have hid : actId a = some t.kind.id := by
      cases a with
      | dispatch r => simp only [actTask, Option.some.injEq] at h2; rw [← h2]; rfl
      | heartbeat id => simp only [actTask, Option.some.injEq] at h2; rw [← h2]; rfl
      | _ => cases h2
    refine ⟨n, a, _, ⟨h1, ?_⟩, hid, h.actsOk a (List.mem_of_getElem? h1) _ hid, taskReply_answers hr, ?_⟩
    · rw [h2, h3]; rfl
    · intro e; rw [h2] at e; cases e
  | reader n =>
    obtain ⟨a, ha, hr, -⟩ := h.outReader n m hm
    obtain ⟨id, hid, hans⟩ := actReply_answers hr
    refine ⟨n, a, id, ⟨ha, ?_⟩, hid, h.actsOk a (List.mem_of_getElem? ha) id hid, hans, fun _ => hr⟩
    cases a with
    | dispatch r => cases hr
    | heartbeat i => cases hr
    | _ => rfl

theorem nodup_get {α : Type} {l : List α} (h : l.Nodup) {i j : Nat} {x : α} (hi : l[i]? = some x) (hj : l[j]? = some x) :
    i = j := (List.getElem?_inj (List.getElem?_eq_some_iff.1 hi).1 h).1 (hi.trans hj.symm)

theorem verdict_id (q : AnyFrame) : actId q.verdict = some q.f.requestId := by
  unfold AnyFrame.verdict
  split
  · rfl
  · split <;> rfl

/-- C81 as listed: if the request ids in the frames received are distinct, so are the ids in the messages written. -/
def C81_full : Prop :=
  ∀ (svc : Services) (reg : Registry) (evs : List LEv) (qs : List AnyFrame) (more : Bytes), (∀ q ∈ qs, q.Ok) →
    received evs ++ more = framesBytes qs → (qs.map fun q => q.f.requestId).Nodup →
    ∀ (o o' : Origin) (m m' : Bytes) (p p' : Pkg), (o, m) ∈ (lrun svc reg evs).out → (o', m') ∈ (lrun svc reg evs).out →
      fromStream .boltResponse m = .ok p → fromStream .boltResponse m' = .ok p' → p.requestId = p'.requestId →
      o = o'

/-- the reader's actions on a prefix of a sequence of frames -/
theorem acts_prefix (svc : Services) (reg : Registry) (evs : List LEv) (qs : List AnyFrame) (more : Bytes)
    (hq : ∀ q ∈ qs, q.Ok) (hb : received evs ++ more = framesBytes qs) :
    ∃ l l', qs.map AnyFrame.verdict = l ++ l' ∧ ((lrun svc reg evs).acts = l ∨
      (sawEof evs = true ∧ ∃ i, (lrun svc reg evs).acts = l ++ [.close i .connectionClosed])) := by
  obtain ⟨e1, e2, -⟩ := lrun_env svc reg evs
  obtain ⟨l, rd, h1, hc⟩ := ReadInv.run svc reg evs
  rw [e1] at h1
  have h2 := h1.append more
  rw [hb] at h2
  obtain ⟨last', hr, -⟩ := reads_frames qs hq none []
  rw [List.append_nil] at hr
  obtain ⟨l', -, hl⟩ := h2.to_stuck hr rfl
  refine ⟨l, l', hl, ?_⟩
  rcases hc with ⟨ha, -⟩ | ⟨-, ha, -⟩ | ⟨he, -, -, -, ha⟩
  · exact .inl ha
  · exact .inl ha
  · exact .inr ⟨e2 ▸ he, _, ha⟩

/-- C81, what holds: two messages with the same id are the same message, except that at the end of the stream a
CONNECTION_CLOSED message is written with the id of the last request. Missing for C81: that message. -/
theorem C81_distinct_partial (svc : Services) (reg : Registry) (evs : List LEv) (qs : List AnyFrame) (more : Bytes)
    (hq : ∀ q ∈ qs, q.Ok) (hb : received evs ++ more = framesBytes qs)
    (hd : (qs.map fun q => q.f.requestId).Nodup) (o o' : Origin) (m m' : Bytes) (p p' : Pkg)
    (hm : (o, m) ∈ (lrun svc reg evs).out) (hm' : (o', m') ∈ (lrun svc reg evs).out)
    (hp : fromStream .boltResponse m = .ok p) (hp' : fromStream .boltResponse m' = .ok p')
    (hid : p.requestId = p'.requestId) :
    o = o' ∨ (sawEof evs = true ∧ (p.respstatus = .connectionClosed ∨ p'.respstatus = .connectionClosed)) := by
  have h := LInv.run svc reg evs
  obtain ⟨l, l', hl, hacts⟩ := acts_prefix svc reg evs qs more hq hb
  have nd : (l.map actId).Nodup := by
    have : ((l ++ l').map actId).Nodup := by
      rw [← hl, List.map_map]
      have e : (actId ∘ AnyFrame.verdict) = some ∘ (fun q : AnyFrame => q.f.requestId) := by
        funext q; exact verdict_id q
      rw [e, ← List.map_map]
      exact (List.pairwise_map.2 (hd.imp fun hne e => hne (Option.some.inj e)))
    rw [List.map_append] at this
    exact (List.nodup_append.1 this).1
  -- what is known about one message
  have one : ∀ {o : Origin} {m : Bytes} {p : Pkg}, (o, m) ∈ (lrun svc reg evs).out →
      fromStream .boltResponse m = .ok p →
      (∃ n a id, l[n]? = some a ∧ OriginAt (lrun svc reg evs).acts o n a ∧ actId a = some id ∧
        p.requestId = .int id) ∨ (sawEof evs = true ∧ p.respstatus = .connectionClosed) := by
    intro o m p hm hp
    obtain ⟨n, a, id, hor, hai, hok, hans, hrep⟩ := out_index h hm
    have hpid : p.requestId = .int id := by
      obtain ⟨p2, g1, g2, -⟩ := answers_decodes hok hans
      rw [hp] at g1
      cases g1
      exact g2
    have hget := hor.1
    rcases hacts with e | ⟨he, i, e⟩
    · rw [e] at hget
      exact .inl ⟨n, a, id, hget, hor, hai, hpid⟩
    · rw [e, List.getElem?_append] at hget
      split at hget
      · exact .inl ⟨n, a, id, hget, hor, hai, hpid⟩
      · have : a ∈ [Act.close i .connectionClosed] := List.mem_of_getElem? hget
        simp only [List.mem_singleton] at this
        subst this
        right
        refine ⟨he, ?_⟩
        have hr := hrep rfl
        simp only [actId] at hai
        subst hai
        simp only [actReply, Option.some.injEq] at hr
        obtain ⟨p2, g1, -, g3, -⟩ := reply_decodes id .connectionClosed [] hok (by decide)
        rw [hr, hp] at g1
        cases g1
        exact g3
  rcases one hm hp with ⟨n, a, id, g1, g2, g3, g4⟩ | ⟨g1, g2⟩
  · rcases one hm' hp' with ⟨n', a', id', f1, f2, f3, f4⟩ | ⟨f1, f2⟩
    · left
      rw [g4, f4] at hid
      cases hid
      have : n = n' := by
        refine nodup_get nd (x := some id) ?_ ?_
        · rw [List.getElem?_map, g1]; exact congrArg some g3
        · rw [List.getElem?_map, f1]; exact congrArg some f3
      subst this
      rw [g1] at f1
      cases f1
      rw [g2.2, f2.2]
    · exact .inr ⟨f1, .inr f2⟩
  · exact .inr ⟨g1, .inl g2⟩

/-- C81 for a connection that the client keeps open. -/
theorem C81_open_partial (svc : Services) (reg : Registry) (evs : List LEv) (qs : List AnyFrame) (more : Bytes)
    (hq : ∀ q ∈ qs, q.Ok) (hb : received evs ++ more = framesBytes qs) (he : sawEof evs = false)
    (hd : (qs.map fun q => q.f.requestId).Nodup) (o o' : Origin) (m m' : Bytes) (p p' : Pkg)
    (hm : (o, m) ∈ (lrun svc reg evs).out) (hm' : (o', m') ∈ (lrun svc reg evs).out)
    (hp : fromStream .boltResponse m = .ok p) (hp' : fromStream .boltResponse m' = .ok p')
    (hid : p.requestId = p'.requestId) : o = o' ∧ m = m' := by
  rcases C81_distinct_partial svc reg evs qs more hq hb hd o o' m m' p p' hm hm' hp hp' hid with rfl | ⟨h, -⟩
  · refine ⟨rfl, ?_⟩
    have := filter_one (LInv.run svc reg evs).nodup hm
    rw [filter_one (LInv.run svc reg evs).nodup hm'] at this
    cases this
    rfl
  · rw [he] at h; cases h

set_option maxRecDepth 20000 in
/-- A client that sends one request, gets its answer and closes its side is sent a second message with the same id. -/
theorem C81_violated : ¬ C81_full := by
  intro h
  have hok : AnyFrame.Ok (exReq 3 [1]).any :=
    have := exReq_ok 3 [1] (by constructor <;> decide) (by decide)
    ⟨this.fit, this.body, this.decodes⟩
  obtain ⟨p, g1, g2, -⟩ := reply_decodes 3 .success [7, 8] (by constructor <;> decide) (by decide)
  obtain ⟨p', f1, f2, -⟩ := reply_decodes 3 .connectionClosed [] (by constructor <;> decide) (by decide)
  have := h exServices exReg
    (exCallEvs (exReq 3 [1]).bytes (.ret (.bytes [7, 8])) ++ [.write 0, .eof, .reader, .reader])
    [(exReq 3 [1]).any] [] (by intro q hq; simp only [List.mem_singleton] at hq; subst hq; exact hok)
    (by decide +kernel) (by simp) (.task 0) (.reader 1) (reply 3 0 [7, 8]) (reply 3 RespStatus.connectionClosed.code [])
    p p' (by decide +kernel) (by decide +kernel) g1 f1 (g2.trans f2.symm)
  cases this

/-! ## C82 -/

/-- C82. Every call submitted to the executor belongs to exactly one request: its method is the one the request names
(in the registry of the moment the request was started), its argument the body of the request, its context the one
extracted from the header of the request. -/
theorem C82_call_of_request (svc : Services) (reg : Registry) (evs : List LEv) (k : Nat) (f : Fut)
    (hf : (lrun svc reg evs).futs[k]? = some f) :
    ∃ (j : Nat) (t : Task) (r : Req), (lrun svc reg evs).tasks[j]? = some t ∧ t.kind = .dispatch r ∧ t.fut = some k ∧
      f.body = r.body ∧ (∃ h0 fresh, extract h0 fresh r.header = .ok (f.heap, f.ctx)) ∧
      (∃ g s m, t.ran = some g ∧ serviceName r.header = some s ∧ methodName r.header = some m ∧
        lookup svc g f.heap f.ctx s m = .found f.func) ∧
      ∀ (j' : Nat) (t' : Task), (lrun svc reg evs).tasks[j']? = some t' → t'.fut = some k → j' = j := by
  have h := LInv.run svc reg evs
  obtain ⟨j, t, ht, hk⟩ := h.futOwner k (List.getElem?_eq_some_iff.1 hf).1
  have htk := h.task j t ht
  unfold TaskOk at htk
  cases hkind : t.kind with
  | heartbeat i => rw [hkind] at htk; rw [htk.1] at hk; cases hk
  | dispatch r =>
    rw [hkind] at htk
    obtain ⟨f', s, m, g, h0, fresh, e1, e2, e3, e4, e5, e6, e7, -⟩ := htk.2.2 k hk
    rw [hf] at e1
    cases e1
    rw [serviceOf_eq] at e3
    rw [methodOf_eq] at e4
    exact ⟨j, t, r, ht, hkind, hk, e2, ⟨h0, fresh, e5⟩,
      ⟨g, s, m, e6, e3, e4, (findMethod_lookup svc g f.heap f.ctx s m).1 _ e7⟩,
      fun j' t' ht' hk' => h.futInj j' j t' t k ht' ht hk' hk⟩

/-- C82. Every request that has been started and was not refused (names missing, undecodable context, no such method,
service construction failed) has submitted a call; a refused one has not. -/
theorem C82_request_has_call (svc : Services) (reg : Registry) (evs : List LEv) (j : Nat) (t : Task) (r : Req)
    (ht : (lrun svc reg evs).tasks[j]? = some t) (hk : t.kind = .dispatch r) (hst : t.st ≠ .new) :
    t.fut.isSome ↔ ¬ (t.fate = some .badName ∨ t.fate = some .badCarrier ∨ t.fate = some .notFound ∨
      ∃ e, t.fate = some (.failed e)) := by
  have htk := (LInv.run svc reg evs).task j t ht
  unfold TaskOk at htk
  rw [hk] at htk
  obtain ⟨hs, hfate, -⟩ := htk
  cases hf : t.fate with
  | none =>
    have : t.fut.isSome := by
      cases he : t.st with
      | new => exact absurd he hst
      | waiting d => rw [he] at hs; exact hs.2.2.1
      | writing m => rw [he] at hs; obtain ⟨f, h1, -⟩ := hs; rw [hf] at h1; cases h1
      | ended => rw [he] at hs; have hs : t.fate.isSome := hs; rw [hf] at hs; cases hs
    simp [this]
  | some f =>
    have hfo := hfate f hf
    cases f with
    | badName => simp [hfo.2]
    | badCarrier => simp [hfo.2.2.1]
    | notFound => simp [hfo.1]
    | failed e => simp [hfo.1]
    | accepted => simp [hfo.2]
    | expired => simp [hfo.2.1]
    | answered o => obtain ⟨-, k, f, e1, -⟩ := hfo; simp [e1]

/-- C82, for streams: on an undisturbed connection that has received request frames and has settled, the j-th frame
has exactly one task, and that task has submitted exactly one call unless the request was refused. -/
theorem C82_exactly_one (svc : Services) (reg : Registry) (evs : List LEv) (qs : List ReqFrame) (hq : ∀ q ∈ qs, q.Ok)
    (hb : received evs = framesBytes (qs.map ReqFrame.any)) (he : sawEof evs = false) (hn : .reset ∉ evs)
    (hs : (lrun svc reg evs).settled) (j : Nat) (q : ReqFrame) (hj : qs[j]? = some q) :
    ∃ t : Task, (lrun svc reg evs).tasks[j]? = some t ∧ t.kind = .dispatch q.req ∧
      ((∃ (k : Nat) (f : Fut), t.fut = some k ∧ (lrun svc reg evs).futs[k]? = some f ∧ f.body = q.content ∧
          (∃ h0 fresh, extract h0 fresh q.header = .ok (f.heap, f.ctx))) ∨
       (t.fut = none ∧ (t.fate = some .badName ∨ t.fate = some .badCarrier ∨ t.fate = some .notFound ∨
          ∃ e, t.fate = some (.failed e)))) := by
  have h := LInv.run svc reg evs
  have hq' : ∀ x ∈ qs.map ReqFrame.any, x.Ok := by
    intro x hx
    rw [List.mem_map] at hx
    obtain ⟨y, hy, rfl⟩ := hx
    exact ⟨(hq y hy).fit, (hq y hy).body, (hq y hy).decodes⟩
  obtain ⟨ha, hc⟩ := frames_acts svc reg evs _ hq' hb he hn hs.1
  have hv : ∀ y ∈ qs, actTask y.any.verdict = some (.dispatch y.req) := by
    intro y hy
    have hok := hq y hy
    unfold AnyFrame.verdict
    rw [if_neg (show y.any.f.cmdcode ≠ 0 from hok.cmd.1), if_neg]
    · rfl
    · rintro ⟨-, e | e⟩
      · exact hok.cmd.2 e
      · exact e rfl
  have hkinds : (lrun svc reg evs).tasks.map Task.kind = qs.map fun y => .dispatch y.req := by
    rw [h.kinds, ha, List.map_map]
    clear hj ha hb hq' hc
    induction qs with
    | nil => rfl
    | cons y ys ih =>
      rw [List.map_cons, List.filterMap_cons, Function.comp, hv y (by simp), List.map_cons,
        ← ih (fun x hx => hq x (by simp [hx])) (fun x hx => hv x (by simp [hx]))]
  have hgk : ((lrun svc reg evs).tasks.map Task.kind)[j]? = some (.dispatch q.req) := by
    rw [hkinds, List.getElem?_map, hj]; rfl
  rw [List.getElem?_map, Option.map_eq_some_iff] at hgk
  obtain ⟨t, ht, hk⟩ := hgk
  refine ⟨t, ht, hk, ?_⟩
  have hend := hs.2 t (List.mem_of_getElem? ht)
  have key := C82_request_has_call svc reg evs j t q.req ht hk (by rw [hend]; decide)
  cases hf : t.fut with
  | some k =>
    left
    have htk := h.task j t ht
    unfold TaskOk at htk
    rw [hk] at htk
    obtain ⟨f', s, m, g, h0, fresh, e1, e2, e3, e4, e5, e6, e7, -⟩ := htk.2.2 k hf
    exact ⟨k, f', rfl, e1, e2, h0, fresh, e5⟩
  | none =>
    right
    rw [hf] at key
    exact ⟨rfl, Classical.not_not.1 fun hx => absurd (key.2 hx) (by decide)⟩

set_option maxRecDepth 20000 in
example : let evs : List LEv := .data exTwo :: List.replicate 8 .reader ++ [.run 0 (py "t"), .run 1 (py "u"),
      .futStart 0, .futStart 1, .futFinish 1 (.ret (.bytes [44])), .result 1, .write 1,
      .futFinish 0 (.ret (.bytes [33])), .result 0, .write 0]
    let s := lrun exServices exReg evs
    s.settled ∧ received evs = framesBytes ([exReq 3 [1, 2], exReq 4 [9]].map ReqFrame.any) ∧
      s.futs.map Fut.body = [[1, 2], [9]] := by
  decide +kernel

end Bolt
