import Verif.Props.ListenerReplies
import Verif.Props.ListenerFlowWait
import Verif.Lemmas.AioServer
import Verif.Props.Tracer
/-!
# C178: the calls that the asyncio listener has accepted and not started
-/
namespace Bolt
open Spec

namespace Spec

/-- calls that have been handed to the executor and not taken up -/
def backlog (s : LSt) : Nat := s.futs.countP fun f => decide (f.st = .queued)

/-- what a peer has to send for a task: the fixed part, and for a request the class name and the content -/
def cost : TaskKind → Nat
  | .heartbeat _ => 22
  | .dispatch r => 22 + reqClass.length + r.body.length

/-- the service takes requests like this one, in whatever state the tracer is -/
def Takes (svc : Services) (reg : Registry) (r : Req) : Prop :=
  ∃ service method, serviceOf r.header = some service ∧ methodOf r.header = some method ∧
    ∀ h fresh, ∃ h' ctx func, extract h fresh r.header = .ok (h', ctx) ∧ findMethod svc reg h' ctx service method = .ok func

end Spec

/-- C178 as listed: the backlog of a connection is bounded -/
def C178_full : Prop := ∃ bound, ∀ (svc : Services) (reg : Registry) (evs : List LEv), backlog (lrun svc reg evs) ≤ bound

/-! ## It grows -/

theorem reader_more (s : LSt) : (∃ more, s.reader.tasks = s.tasks ++ more ∧
    ∀ t ∈ more, t.st = .new ∨ ∃ i, t.kind = .heartbeat i) ∧ s.reader.futs = s.futs ∧ s.reader.reg = s.reg := by
  have none' : ∀ s' : LSt, s'.tasks = s.tasks → s'.reg = s.reg → (∃ more, s'.tasks = s.tasks ++ more ∧
      ∀ t ∈ more, t.st = .new ∨ ∃ i, t.kind = .heartbeat i) ∧ s'.reg = s.reg :=
    fun s' h1 h2 => ⟨⟨[], by rw [h1, List.append_nil], fun _ h => absurd h List.not_mem_nil⟩, h2⟩
  suffices h : (∃ more, s.reader.tasks = s.tasks ++ more ∧ ∀ t ∈ more, t.st = .new ∨ ∃ i, t.kind = .heartbeat i) ∧ s.reader.reg = s.reg from
    ⟨h.1, reader_futs s, h.2⟩
  unfold LSt.reader LSt.write
  split
  · split
    · exact none' _ rfl rfl
    · exact none' _ rfl rfl
    · next rd buf a _ =>
      unfold LSt.perform
      cases a with
      | dispatch r =>
        exact ⟨⟨[{ kind := .dispatch r }], rfl, fun t ht => by rw [List.mem_singleton] at ht; rw [ht]; exact .inl rfl⟩, rfl⟩
      | heartbeat i =>
        dsimp only
        split
        · next m _ =>
          exact ⟨⟨[{ kind := .heartbeat i, st := .writing m }], rfl,
            fun t ht => by rw [List.mem_singleton] at ht; rw [ht]; exact .inr ⟨i, rfl⟩⟩, rfl⟩
        · exact none' _ rfl rfl
      | reject i st => dsimp only; split <;> exact none' _ rfl rfl
      | close i st => exact none' _ rfl rfl
      | crash => exact none' _ rfl rfl
  · split <;> exact none' _ rfl rfl
  · exact none' _ rfl rfl
  · split <;> exact none' _ rfl rfl

theorem readers_more (svc : Services) (s : LSt) (n : Nat) :
    (∃ more, ((List.replicate n LEv.reader).foldl (lstep svc) s).tasks = s.tasks ++ more ∧
      ∀ t ∈ more, t.st = .new ∨ ∃ i, t.kind = .heartbeat i) ∧
    ((List.replicate n LEv.reader).foldl (lstep svc) s).futs = s.futs ∧
    ((List.replicate n LEv.reader).foldl (lstep svc) s).reg = s.reg := by
  induction n generalizing s with
  | zero => exact ⟨⟨[], by simp, fun _ h => absurd h List.not_mem_nil⟩, rfl, rfl⟩
  | succ n ih =>
    rw [List.replicate_succ, List.foldl_cons]
    obtain ⟨⟨m1, h1, h2⟩, h3, h4⟩ := ih (lstep svc s .reader)
    obtain ⟨⟨m2, g1, g2⟩, g3, g4⟩ := reader_more s
    refine ⟨⟨m2 ++ m1, by rw [h1, show lstep svc s .reader = s.reader from rfl, g1, List.append_assoc], fun t ht => ?_⟩,
      h3.trans g3, h4.trans g4⟩
    rcases List.mem_append.1 ht with h | h
    · exact g2 t h
    · exact h2 t h

/-- a request that the service takes is handed to the executor when its task starts -/
theorem dispatch_queued {svc : Services} {s : LSt} {r : Req} (ht : Takes svc s.reg r) (i : Nat) (t : Task) (fresh : PyStr) :
    (∃ f : Fut, (s.dispatch svc i t r fresh).futs = s.futs ++ [f] ∧ f.st = .queued ∧ f.body = r.body) ∧
    (s.dispatch svc i t r fresh).reg = s.reg ∧ (s.dispatch svc i t r fresh).tail = s.tail ∧
    (s.dispatch svc i t r fresh).rd = s.rd ∧ (s.dispatch svc i t r fresh).buf = s.buf ∧ (s.dispatch svc i t r fresh).eof = s.eof ∧
    (s.dispatch svc i t r fresh).tasks.length = s.tasks.length := by
  obtain ⟨service, method, h1, h2, h3⟩ := ht
  obtain ⟨h', ctx, func, h4, h5⟩ := h3 s.heap fresh
  unfold LSt.dispatch
  rw [h1]; dsimp only
  rw [h2]; dsimp only
  rw [h4]; dsimp only
  rw [h5]; dsimp only
  split <;> exact ⟨⟨_, rfl, rfl, rfl⟩, rfl, rfl, rfl, rfl, rfl, by simp [LSt.setTask]⟩

theorem sawEof_append (a b : List LEv) : sawEof (a ++ b) = (sawEof a || sawEof b) := by
  unfold sawEof; simp

theorem received_append (a b : List LEv) (h : sawEof a = false) : received (a ++ b) = received a ++ received b := by
  induction a with
  | nil => rfl
  | cons e a ih =>
    have h' : sawEof a = false := by
      unfold sawEof at h ⊢
      rw [List.contains_cons] at h
      exact (Bool.or_eq_false_iff.1 h).2
    cases e with
    | eof => simp [sawEof] at h
    | data bs =>
      show bs ++ received (a ++ b) = bs ++ received a ++ received b
      rw [ih h', List.append_assoc]
    | _ => exact ih h'

/-- C178: the backlog of one connection gets as long as the peer likes: it sends the same request again and again, the
reader goes on reading, every call is queued. No reply has to be read for that, nothing holds the reader back. -/
theorem C178_grows (svc : Services) (reg : Registry) (q : ReqFrame) (hq : q.Ok) (ht : Takes svc reg q.req) (n : Nat) :
    ∃ evs, received evs = (List.replicate n q.bytes).flatten ∧ sawEof evs = false ∧ .reset ∉ evs ∧
      (lrun svc reg evs).futs.length = n ∧ (∀ f ∈ (lrun svc reg evs).futs, f.st = .queued ∧ f.body = q.content) ∧
      backlog (lrun svc reg evs) = n := by
  suffices h : ∃ evs, received evs = (List.replicate n q.bytes).flatten ∧ sawEof evs = false ∧ .reset ∉ evs ∧
      (lrun svc reg evs).futs.length = n ∧ (∀ f ∈ (lrun svc reg evs).futs, f.st = .queued ∧ f.body = q.content) ∧
      (lrun svc reg evs).idle ∧ (lrun svc reg evs).reg = reg by
    obtain ⟨evs, h1, h2, h3, h4, h5, -⟩ := h
    refine ⟨evs, h1, h2, h3, h4, h5, ?_⟩
    unfold backlog
    rw [List.countP_eq_length.2 fun f hf => decide_eq_true (h5 f hf).1]
    exact h4
  induction n with
  | zero =>
    refine ⟨[], rfl, rfl, List.not_mem_nil, rfl, fun _ h => absurd h List.not_mem_nil, ⟨rfl, ?_⟩, rfl⟩
    rfl
  | succ n ih =>
    obtain ⟨evs, h1, h2, h3, h4, h5, h6, h7⟩ := ih
    obtain ⟨m, hm⟩ := C66_progress svc reg (evs ++ [.data q.bytes])
    have hs : sawEof (List.replicate m LEv.reader) = false := by
      unfold sawEof
      rw [Bool.eq_false_iff]
      intro hc
      exact absurd (List.eq_of_mem_replicate (List.contains_iff_mem.1 hc)) (fun h => nomatch h)
    have hr : received (List.replicate m LEv.reader) = [] := by
      clear hm hs
      induction m with
      | zero => rfl
      | succ m ih => rw [List.replicate_succ]; exact ih
    have hcat : (List.replicate (n + 1) q.bytes).flatten = (List.replicate n q.bytes).flatten ++ q.bytes := by
      rw [List.replicate_succ', List.flatten_append, List.flatten_cons, List.flatten_nil, List.append_nil]
    have e1 : sawEof (evs ++ [.data q.bytes] ++ List.replicate m .reader) = false := by
      rw [sawEof_append, sawEof_append, h2, hs]; rfl
    have e2 : received (evs ++ [.data q.bytes] ++ List.replicate m .reader) = (List.replicate (n + 1) q.bytes).flatten := by
      rw [received_append _ _ (by rw [sawEof_append, h2]; rfl), received_append _ _ h2, hr, h1, hcat, List.append_nil]
      show _ ++ (q.bytes ++ []) = _
      rw [List.append_nil]
    have e3 : LEv.reset ∉ evs ++ [.data q.bytes] ++ List.replicate m .reader := by
      intro hc
      rcases List.mem_append.1 hc with hc | hc
      · rcases List.mem_append.1 hc with hc | hc
        · exact h3 hc
        · exact nomatch (List.mem_singleton.1 hc)
      · exact nomatch (List.eq_of_mem_replicate hc)
    have kinds := (C67_pipelined svc reg (evs ++ [.data q.bytes] ++ List.replicate m .reader) (List.replicate (n + 1) q)
      (fun x hx => by rw [List.eq_of_mem_replicate hx]; exact hq) (by rw [e2, List.map_replicate]) e3 hm).2
    have kinds0 := (C67_pipelined svc reg evs (List.replicate n q) (fun x hx => by rw [List.eq_of_mem_replicate hx]; exact hq)
      (by rw [h1, List.map_replicate]) h3 h6).2
    have len0 : (lrun svc reg evs).tasks.length = n := by
      have := congrArg List.length kinds0
      simpa using this
    have es : lrun svc reg (evs ++ [.data q.bytes] ++ List.replicate m .reader) =
        (List.replicate m LEv.reader).foldl (lstep svc) (lstep svc (lrun svc reg evs) (.data q.bytes)) := by
      unfold lrun; rw [List.foldl_append, List.foldl_append]; rfl
    have hd : (lstep svc (lrun svc reg evs) (.data q.bytes)).tasks = (lrun svc reg evs).tasks ∧
        (lstep svc (lrun svc reg evs) (.data q.bytes)).futs = (lrun svc reg evs).futs ∧
        (lstep svc (lrun svc reg evs) (.data q.bytes)).reg = (lrun svc reg evs).reg := by
      unfold lstep; dsimp only; split <;> exact ⟨rfl, rfl, rfl⟩
    obtain ⟨⟨more, m1, m2⟩, m3, m4⟩ := readers_more svc (lstep svc (lrun svc reg evs) (.data q.bytes)) m
    rw [← es] at m1 m3 m4
    rw [hd.1] at m1
    rw [hd.2.1] at m3
    rw [hd.2.2, h7] at m4
    generalize hs1 : lrun svc reg (evs ++ [.data q.bytes] ++ List.replicate m .reader) = s at *
    have hk : s.tasks[n]?.map Task.kind = some (.dispatch q.req) := by
      rw [← List.getElem?_map, kinds, List.map_replicate, List.getElem?_replicate, if_pos (by omega)]
    obtain ⟨t, t1, t2⟩ := Option.map_eq_some_iff.1 hk
    have tm : t ∈ more := by
      rw [m1, List.getElem?_append_right (by omega)] at t1
      exact List.mem_of_getElem? t1
    have tn : t.st = .new := by
      rcases m2 t tm with h | ⟨i, h⟩
      · exact h
      · rw [t2] at h; cases h
    have hrun : lrun svc reg (evs ++ [.data q.bytes] ++ List.replicate m .reader ++ [.run n (py "t")]) =
        s.dispatch svc n t q.req (py "t") := by
      have : lrun svc reg (evs ++ [.data q.bytes] ++ List.replicate m .reader ++ [.run n (py "t")]) = lstep svc s (.run n (py "t")) := by
        rw [← hs1]; unfold lrun; rw [List.foldl_append]; rfl
      rw [this]
      unfold lstep
      dsimp only
      rw [t1]
      dsimp only
      rw [tn, t2]
    obtain ⟨⟨f, d1, d2, d3⟩, d4, d5, d6, d7, d8, -⟩ := dispatch_queued (svc := svc) (s := s) (r := q.req) (by rw [m4]; exact ht) n t (py "t")
    refine ⟨evs ++ [.data q.bytes] ++ List.replicate m .reader ++ [.run n (py "t")], ?_, ?_, ?_, ?_, ?_, ?_, ?_⟩
    · rw [received_append _ _ e1, e2]; exact List.append_nil _
    · rw [sawEof_append, e1]; rfl
    · intro hc
      rcases List.mem_append.1 hc with hc | hc
      · exact e3 hc
      · exact nomatch (List.mem_singleton.1 hc)
    · rw [hrun, d1, List.length_append, m3, h4]; rfl
    · rw [hrun, d1, m3]
      intro x hx
      rcases List.mem_append.1 hx with hx | hx
      · exact h5 x hx
      · rw [List.mem_singleton] at hx; rw [hx]; exact ⟨d2, d3⟩
    · rw [hrun]
      exact ⟨d5.trans hm.1, by rw [d6, d7, d8]; exact hm.2⟩
    · rw [hrun, d4, m4]

theorem exTakes (id : Int) (content : Bytes) : Takes exServices exReg (exReq id content).req := by
  refine ⟨py "s", py "m", show serviceOf exReqHeader = some (py "s") by decide +kernel,
    show methodOf exReqHeader = some (py "m") by decide +kernel, fun h fresh => ?_⟩
  have hk : ∀ k, PyDict.contains exReqHeader (py "rpc_trace_context." ++ k) = false := by
    intro k
    have h1 : py "service" ≠ py "rpc_trace_context." ++ k := fun h =>
      absurd (show some _ = some _ from congrArg List.head? h) (by decide)
    have h2 : py "sofa_head_method_name" ≠ py "rpc_trace_context." ++ k := fun h =>
      absurd (show some _ = some _ from congrArg List.head? h) (by decide)
    simp [exReqHeader, PyDict.contains, PyDict.get?, h1, h2]
  obtain ⟨h', b, e, -⟩ := (C21_extract_total h fresh exReqHeader (by decide +kernel)).2.2 hk
  exact ⟨h', b, 0, e, rfl⟩

/-- C178 is violated -/
theorem C178_violated : ¬ C178_full := by
  rintro ⟨bound, h⟩
  obtain ⟨evs, -, -, -, -, -, e⟩ := C178_grows exServices exReg (exReq 3 [1])
    (exReq_ok 3 [1] (by constructor <;> decide) (by decide)) (exTakes 3 [1]) (bound + 1)
  have := h exServices exReg evs
  omega

/-! ## How fast it grows -/

/-- bytes that have gone into the message being read -/
def RPhase.spent : RPhase → Nat
  | .hdr | .stopped => 0
  | .cls _ => 22
  | .shdr _ cn => 22 + cn.length
  | .body _ cn _ => 22 + cn.length

/-- cost of a task that has not started -/
def Task.ahead (t : Task) : Nat := if t.st = .new then cost t.kind else 0

/-- cost of a call -/
def Fut.cost (f : Fut) : Nat := 22 + reqClass.length + f.body.length

def LSt.load (s : LSt) : Nat :=
  (s.futs.map Fut.cost).sum + (s.tasks.map Task.ahead).sum + s.buf.length + s.rd.phase.spent

theorem headerSize_req : PkgClass.boltRequest.headerSize = 22 := by decide

/-- cost of the task that an action starts -/
def Act.cost (a : Act) : Nat := ((actTask a).map Spec.cost).getD 0

set_option linter.unusedSimpArgs false

theorem RPhase.spent_hdr : RPhase.hdr.spent = 0 := rfl
theorem RPhase.spent_stopped : RPhase.stopped.spent = 0 := rfl
theorem RPhase.spent_cls (h : ReqHdr) : (RPhase.cls h).spent = 22 := rfl
theorem RPhase.spent_shdr (h : ReqHdr) (cn : Bytes) : (RPhase.shdr h cn).spent = 22 + cn.length := rfl
theorem RPhase.spent_body (h : ReqHdr) (cn : Bytes) (d : PyDict PyStr PyStr) : (RPhase.body h cn d).spent = 22 + cn.length := rfl

theorem readerIter_spent {rd rd' : ReadSt} {buf buf' : Bytes} {eof : Bool} {a : Option Act}
    (h : readerIter rd buf eof = some (rd', buf', a)) :
    buf'.length + rd'.phase.spent + (a.map Act.cost).getD 0 ≤ buf.length + rd.phase.spent := by
  have err : ∀ (e : PyExc) (l : Option Int), (onError e l).next.spent = 0 ∧ (onError e l).cost = 0 := by
    intro e l
    unfold onError
    split
    · cases l <;> exact ⟨rfl, rfl⟩
    · split
      · cases l <;> exact ⟨rfl, rfl⟩
      · exact ⟨rfl, rfl⟩
  unfold readerIter at h
  split at h
  · next hp =>
    rw [hp]
    dsimp only at h
    split at h
    · next hn =>
      have hl : (buf.drop PkgClass.boltRequest.headerSize).length + 22 ≤ buf.length := by
        rw [List.length_drop, headerSize_req]; rw [headerSize_req] at hn; omega
      split at h
      · next e _ =>
        cases h
        have := err e rd.last
        simp only [Option.map_some, Option.getD_some, this, RPhase.spent_hdr, RPhase.spent_stopped, RPhase.spent_cls, RPhase.spent_shdr, RPhase.spent_body]
        omega
      · cases h
        simp only [Option.map_none, Option.getD_none, RPhase.spent_hdr, RPhase.spent_stopped, RPhase.spent_cls, RPhase.spent_shdr, RPhase.spent_body]
        omega
    · split at h
      · cases h; exact Nat.le_refl _
      · cases h
  · next hh hp =>
    rw [hp]
    dsimp only at h
    split at h
    · next hn =>
      cases h
      simp only [Option.map_none, Option.getD_none, RPhase.spent_hdr, RPhase.spent_stopped, RPhase.spent_cls, RPhase.spent_shdr, RPhase.spent_body, List.length_take, List.length_drop]
      omega
    · split at h
      · cases h; simp only [Option.map_some, Option.getD_some, RPhase.spent_hdr, RPhase.spent_stopped, RPhase.spent_cls, RPhase.spent_shdr, RPhase.spent_body, Act.cost, actTask, Option.map_none, Option.getD_none]; omega
      · cases h
  · next hh cn hp =>
    rw [hp]
    dsimp only at h
    split at h
    · next hn =>
      split at h
      · next e _ =>
        cases h
        have := err e rd.last
        simp only [Option.map_some, Option.getD_some, this, RPhase.spent_hdr, RPhase.spent_stopped, RPhase.spent_cls, RPhase.spent_shdr, RPhase.spent_body, List.length_drop]
        omega
      · cases h
        simp only [Option.map_none, Option.getD_none, RPhase.spent_hdr, RPhase.spent_stopped, RPhase.spent_cls, RPhase.spent_shdr, RPhase.spent_body, List.length_drop]
        omega
    · split at h
      · cases h; simp only [Option.map_some, Option.getD_some, RPhase.spent_hdr, RPhase.spent_stopped, RPhase.spent_cls, RPhase.spent_shdr, RPhase.spent_body, Act.cost, actTask, Option.map_none, Option.getD_none]; omega
      · cases h
  · next hh cn d hp =>
    rw [hp]
    dsimp only at h
    split at h
    · next hn =>
      cases h
      simp only [Option.map_some, Option.getD_some, List.length_drop]
      have : (handleFrame hh cn d (buf.take hh.contentLen.toNat)).next.spent +
          (handleFrame hh cn d (buf.take hh.contentLen.toNat)).cost ≤ 22 + cn.length + hh.contentLen.toNat := by
        unfold handleFrame
        split
        · show 0 + 22 ≤ _; omega
        · split
          · have := err .clientError (some hh.requestId); omega
          · split
            · have := err .clientError (some hh.requestId); omega
            · next hc =>
              have hc : cn = reqClass := Classical.not_not.1 hc
              show 0 + (22 + reqClass.length + (buf.take hh.contentLen.toNat).length) ≤ _
              rw [hc, List.length_take]; omega
      simp only [RPhase.spent_body]
      omega
    · split at h
      · cases h; simp only [Option.map_some, Option.getD_some, RPhase.spent_hdr, RPhase.spent_stopped, RPhase.spent_cls, RPhase.spent_shdr, RPhase.spent_body, Act.cost, actTask, Option.map_none, Option.getD_none]; omega
      · cases h
  · cases h

theorem perform_load (s : LSt) (a : Act) :
    (s.perform a).load ≤ s.load + a.cost := by
  unfold LSt.perform LSt.load
  cases a with
  | dispatch r =>
    simp only [List.map_append, List.sum_append, List.map_cons, List.map_nil, List.sum_cons, List.sum_nil]
    show _ + (_ + (cost (.dispatch r) + 0)) + _ + _ ≤ _ + cost (.dispatch r)
    omega
  | heartbeat i =>
    dsimp only
    split
    · simp only [List.map_append, List.sum_append, List.map_cons, List.map_nil, List.sum_cons, List.sum_nil]
      show _ + (_ + (0 + 0)) + _ + _ ≤ _
      omega
    · simp only [RPhase.spent]; omega
  | reject i st =>
    dsimp only
    split
    · exact Nat.le_add_right _ _
    · simp only [RPhase.spent]; omega
  | close i st => exact Nat.le_add_right _ _
  | crash => exact Nat.le_add_right _ _

theorem reader_load (s : LSt) : s.reader.load ≤ s.load := by
  unfold LSt.reader LSt.write
  split
  · split
    · exact Nat.le_refl _
    · next rd buf h =>
      have := readerIter_spent h
      simp only [Option.map_none, Option.getD_none] at this
      unfold LSt.load
      dsimp only
      omega
    · next rd buf a h =>
      have := readerIter_spent h
      simp only [Option.map_some, Option.getD_some] at this
      refine Nat.le_trans (perform_load _ a) ?_
      unfold LSt.load
      dsimp only
      omega
  · split <;> exact Nat.le_refl _
  · exact Nat.le_refl _
  · split <;> exact Nat.le_refl _

theorem ahead_set {l : List Task} {i : Nat} {t t' : Task} (h : l[i]? = some t) :
    ((l.set i t').map Task.ahead).sum + t.ahead = (l.map Task.ahead).sum + t'.ahead := by
  induction l generalizing i with
  | nil => cases h
  | cons u l ih =>
    cases i with
    | zero => cases h; simp only [List.set_cons_zero, List.map_cons, List.sum_cons]; omega
    | succ i =>
      have := ih (i := i) h
      simp only [List.set_cons_succ, List.map_cons, List.sum_cons]; omega

theorem ahead_old {t : Task} (h : t.st ≠ .new) : t.ahead = 0 := if_neg h

theorem toWrite_ne (m : Except PyExc Bytes) : toWrite m ≠ .new := by
  unfold toWrite; split <;> exact nofun

theorem afterCall_ne (i : Int) (o : Outcome) : afterCall i o ≠ .new := by
  unfold afterCall
  split
  · exact toWrite_ne _
  · exact toWrite_ne _
  · exact toWrite_ne _
  · split
    · exact toWrite_ne _
    · exact nofun

theorem setFut_cost (s : LSt) (k : Nat) (st : FutSt) : ((s.setFut k st).futs.map Fut.cost) = s.futs.map Fut.cost := by
  unfold LSt.setFut
  dsimp only
  apply List.ext_getElem?
  intro j
  rw [List.getElem?_map, List.getElem?_map, List.getElem?_modify]
  split
  · cases s.futs[j]? <;> rfl
  · cases s.futs[j]? <;> rfl

/-- a task that has been changed and is past its start -/
theorem setTask_load {s : LSt} {i : Nat} {t t' : Task} (h : s.tasks[i]? = some t) (hn : t'.st ≠ .new) :
    (s.setTask i t').load + t.ahead ≤ s.load := by
  have := ahead_set (t' := t') h
  rw [ahead_old hn] at this
  unfold LSt.load LSt.setTask
  dsimp only
  omega

theorem dispatch_load (svc : Services) {s : LSt} {i : Nat} {t : Task} {r : Req} (fresh : PyStr) (h : s.tasks[i]? = some t)
    (hk : t.kind = .dispatch r) (hn : t.st = .new) : (s.dispatch svc i t r fresh).load ≤ s.load := by
  have ha : t.ahead = 22 + reqClass.length + r.body.length := by unfold Task.ahead; rw [if_pos hn, hk]; rfl
  have one : ∀ (s' : LSt) (t' : Task), s'.tasks = s.tasks → s'.load ≤ s.load + t.ahead → t'.st ≠ .new → (s'.setTask i t').load ≤ s.load := by
    intro s' t' e1 e2 e3
    have := setTask_load (s := s') (t' := t') (by rw [e1]; exact h) e3
    omega
  unfold LSt.dispatch
  split
  · exact one _ _ rfl (Nat.le_add_right _ _) (toWrite_ne _)
  · split
    · exact one _ _ rfl (Nat.le_add_right _ _) (toWrite_ne _)
    · split
      · exact one _ _ rfl (Nat.le_add_right _ _) nofun
      · dsimp only
        split
        · exact one _ _ rfl (Nat.le_add_right _ _) (toWrite_ne _)
        · exact one _ _ rfl (Nat.le_add_right _ _) (toWrite_ne _)
        · next func _ =>
          have hl : ∀ (h' : Heap) (f : Fut), f.body = r.body →
              LSt.load { s with heap := h', futs := s.futs ++ [f] } ≤ s.load + t.ahead := by
            intro h' f hf
            unfold LSt.load
            simp only [List.map_append, List.sum_append, List.map_cons, List.map_nil, List.sum_cons, List.sum_nil, Fut.cost]
            rw [hf]
            omega
          split
          · exact one _ _ rfl (hl _ _ rfl) nofun
          · exact one _ _ rfl (hl _ _ rfl) nofun

theorem lstep_load (svc : Services) (s : LSt) (e : LEv) (h : s.load ≤ s.recvd.length) :
    (lstep svc s e).load ≤ (lstep svc s e).recvd.length := by
  have setF : ∀ k st, (s.setFut k st).load = s.load := by
    intro k st
    unfold LSt.load
    rw [setFut_cost]
    rfl
  cases e with
  | data bs =>
    unfold lstep
    dsimp only
    split
    · exact h
    · unfold LSt.load at h ⊢
      simp only [List.length_append]
      omega
  | eof => exact h
  | reset =>
    unfold lstep
    unfold LSt.load at h ⊢
    simp only [RPhase.spent]
    omega
  | reader =>
    show s.reader.load ≤ s.reader.recvd.length
    rw [(reader_fields s).1]
    exact Nat.le_trans (reader_load s) h
  | run i fresh =>
    unfold lstep
    dsimp only
    split
    · next t ht =>
      split
      · next r hst hk =>
        have hr : (s.dispatch svc i t r fresh).recvd = s.recvd := by
          unfold LSt.dispatch LSt.setTask
          repeat' split
          all_goals first | rfl | (dsimp only; repeat' split) <;> rfl
        rw [hr]
        exact Nat.le_trans (dispatch_load svc fresh ht hk hst) h
      · exact h
    · exact h
  | result i =>
    unfold lstep
    dsimp only
    split
    · next t ht =>
      split
      · next k _ _ _ =>
        split
        · exact h
        · exact Nat.le_trans (Nat.le_of_add_right_le (setTask_load ht (afterCall_ne _ _))) h
        · exact h
      · exact h
    · exact h
  | expire i =>
    unfold lstep
    dsimp only
    split
    · next t ht =>
      split
      · split
        · have hc : ∀ k, (s.cancelFut k).load = s.load ∧ (s.cancelFut k).tasks = s.tasks ∧ (s.cancelFut k).recvd = s.recvd := by
            intro k
            unfold LSt.cancelFut
            split
            · exact ⟨setF _ _, rfl, rfl⟩
            · exact ⟨rfl, rfl, rfl⟩
          next _ r k _ _ _ _ =>
          have := setTask_load (s := s.cancelFut k) (t' := { t with st := toWrite (failMsg r.id .timeout), fate := some .expired })
            (by rw [(hc k).2.1]; exact ht) (toWrite_ne _)
          show _ ≤ (s.cancelFut k).recvd.length
          rw [(hc k).2.2]
          have := (hc k).1
          omega
        · exact h
      · exact h
    · exact h
  | write i =>
    unfold lstep
    dsimp only
    split
    · next t ht =>
      split
      · next m _ =>
        have hw : (s.write (.task i) m).load = s.load ∧ (s.write (.task i) m).tasks = s.tasks ∧ (s.write (.task i) m).recvd = s.recvd := by
          unfold LSt.write; split <;> exact ⟨rfl, rfl, rfl⟩
        have := setTask_load (s := s.write (.task i) m) (t' := { t with st := .ended }) (by rw [hw.2.1]; exact ht) nofun
        show _ ≤ (s.write (.task i) m).recvd.length
        rw [hw.2.2]
        omega
      · exact h
    · exact h
  | futStart k =>
    unfold lstep
    dsimp only
    split
    · rw [setF]; exact h
    · exact h
  | futFinish k o =>
    unfold lstep
    dsimp only
    split
    · rw [setF]; exact h
    · exact h
  | tick d => exact h
  | register r => exact h

theorem lrun_load (svc : Services) (reg : Registry) (evs : List LEv) : (lrun svc reg evs).load ≤ (received evs).length := by
  rw [← (lrun_env svc reg evs).1]
  induction evs using snoc_induct with
  | nil => exact Nat.le_refl _
  | snoc evs e ih =>
    have : lrun svc reg (evs ++ [e]) = lstep svc (lrun svc reg evs) e := by unfold lrun; rw [List.foldl_append]; rfl
    rw [this]
    exact lstep_load svc _ e ih

/-- C178, what holds: the calls that a connection has accepted take up no more than what the peer has sent for them. Every
call, also the finished ones, has cost it the fixed part of a message, the class name and the content of the call; so the
backlog is at most a 66th of the bytes received. Missing: a bound that does not depend on the peer. -/
theorem C178_paid_partial (svc : Services) (reg : Registry) (evs : List LEv) :
    ((lrun svc reg evs).futs.map fun f => 22 + reqClass.length + f.body.length).sum ≤ (received evs).length ∧
    66 * backlog (lrun svc reg evs) ≤ (received evs).length := by
  have h := lrun_load svc reg evs
  unfold LSt.load at h
  have h1 : ((lrun svc reg evs).futs.map Fut.cost).sum ≤ (received evs).length := by omega
  refine ⟨h1, Nat.le_trans ?_ h1⟩
  unfold backlog
  have hc : reqClass.length = 44 := by decide
  generalize (lrun svc reg evs).futs = l
  induction l with
  | nil => exact Nat.le_refl _
  | cons f l ih =>
    rw [List.countP_cons, List.map_cons, List.sum_cons]
    have : 66 ≤ f.cost := by unfold Fut.cost; omega
    split <;> omega

/-- three requests have been read and started: a backlog of three -/
example : ∃ evs, backlog (lrun exServices exReg evs) = 3 ∧ (received evs).length = 3 * (exReq 3 [1]).bytes.length := by
  obtain ⟨evs, h, -, -, -, -, e⟩ := C178_grows exServices exReg (exReq 3 [1])
    (exReq_ok 3 [1] (by constructor <;> decide) (by decide)) (exTakes 3 [1]) 3
  exact ⟨evs, e, by rw [h]; simp; omega⟩

end Bolt
