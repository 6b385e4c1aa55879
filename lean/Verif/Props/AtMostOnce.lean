import Verif.Props.EndToEndAio
import Verif.Props.EndToEndSock
import Verif.Props.SockStream
/-!
# C130, C131: how often the method of one call is executed
-/
namespace Bolt
open Spec

/-! ## Counting -/

/-- a method that has been started -/
def Spec.begun (f : Fut) : Bool :=
  match f.st with
  | .running | .finished _ => true
  | _ => false

/-- the executions, on one connection of a listener, of methods for requests with this id -/
def Spec.execsOf (l : LSt) (id : Int) : Nat :=
  l.tasks.countP fun t =>
    match t.kind, t.fut with
    | .dispatch r, some k => r.id == id && (l.futs[k]?).any begun
    | _, _ => false

/-- the executions at the other ends of all the connections of a client -/
def Spec.execsAll (s : ASt) (peer : Nat → Peer) (id : Int) : Nat :=
  ((List.range s.conns.length).map fun n => execsOf (peer n).st id).sum

/-- an action that starts a method for this id -/
def dispatches (id : Int) : Act → Bool
  | .dispatch r => r.id == id
  | _ => false

/-- a task that is for this id -/
def TaskKind.forId (id : Int) : TaskKind → Bool
  | .dispatch r => r.id == id
  | _ => false

theorem execs_acts {svc : Services} {s : LSt} (h : LInv svc s) (id : Int) : execsOf s id ≤ s.acts.countP (dispatches id) := by
  have h1 : execsOf s id ≤ s.tasks.countP fun t => t.kind.forId id := by
    unfold execsOf
    refine List.countP_mono_left fun t _ ht => ?_
    split at ht
    · next r k hk hf =>
      rw [hk]
      simp only [Bool.and_eq_true] at ht
      exact ht.1
    · cases ht
  have h2 : (s.tasks.countP fun t => t.kind.forId id) = (s.tasks.map Task.kind).countP (TaskKind.forId id) := by
    rw [List.countP_map]; rfl
  have h3 : ∀ l : List Act, (l.filterMap actTask).countP (TaskKind.forId id) = l.countP (dispatches id) := by
    intro l
    induction l with
    | nil => rfl
    | cons a l ih =>
      cases a with
      | dispatch r => rw [List.filterMap_cons_some (f := actTask) (b := TaskKind.dispatch r) rfl, List.countP_cons, List.countP_cons, ih]; rfl
      | heartbeat i => rw [List.filterMap_cons_some (f := actTask) (b := TaskKind.heartbeat i) rfl, List.countP_cons, List.countP_cons, ih]; rfl
      | _ => rw [List.filterMap_cons_none rfl, List.countP_cons, ih]; rfl
  rw [h2, h.kinds, h3] at h1
  exact h1

theorem verdict_dispatches {q : AnyFrame} {id : Int} (h : dispatches id q.verdict = true) : q.f.requestId = id := by
  unfold AnyFrame.verdict at h
  split at h
  · cases h
  · split at h
    · cases h
    · simpa [dispatches] using h

/-- of the frames that a connection carries, those with the id of call `i` have been written by call `i` -/
theorem sent_frames_count {v : PyVer} {evs : List AEv} (hd : DistinctIds evs) {i : Nat} {c : ACall} {id : Int}
    (hreq : ∀ c ∈ (arun v evs).calls, AioMade c.req) (hc : (arun v evs).calls[i]? = some c)
    (hid : c.req.requestId = .int id) : ∀ l : List (Nat × Bytes),
    (∀ j bs, (j, bs) ∈ l → ∃ c : ACall, (arun v evs).calls[j]? = some c ∧ c.req.toStream = .ok bs) →
    ∃ qs : List AnyFrame, framesBytes qs = (l.map Prod.snd).flatten ∧ (∀ q ∈ qs, q.Ok) ∧
      (qs.map AnyFrame.verdict).countP (dispatches id) ≤ l.countP fun w => w.1 == i := by
  intro l
  induction l with
  | nil => intro _; exact ⟨[], rfl, by simp, by simp⟩
  | cons x l ih =>
    intro h
    obtain ⟨j, bs⟩ := x
    obtain ⟨qs, h1, h2, h3⟩ := ih (fun i' bs' hm => h i' bs' (List.mem_cons_of_mem _ hm))
    obtain ⟨d, hdc, hs⟩ := h j bs (by simp)
    obtain ⟨q, hq, hqb⟩ := aioMade_frame (hreq d (List.mem_of_getElem? hdc)) hs
    refine ⟨q :: qs, ?_, ?_, ?_⟩
    · unfold framesBytes at *
      rw [List.map_cons, List.flatten_cons, h1, hqb]
      rfl
    · intro q' hq'
      rcases List.mem_cons.1 hq' with rfl | hq'
      · exact hq.ok
      · exact h2 q' hq'
    · rw [List.map_cons, List.countP_cons, List.countP_cons]
      have : dispatches id q.verdict = true → (j == i) = true := by
        intro hv
        have e := verdict_dispatches hv
        rw [beq_iff_eq]
        exact same_call hd hdc hc (by rw [hq.id, e, hid])
      split
      · next hv => rw [if_pos (this hv)]; omega
      · omega

theorem sum_le_sum {α : Type} (f g : α → Nat) : ∀ l : List α, (∀ x ∈ l, f x ≤ g x) → (l.map f).sum ≤ (l.map g).sum := by
  intro l
  induction l with
  | nil => intro _; simp
  | cons x l ih =>
    intro h
    have := h x (by simp)
    have := ih fun y hy => h y (List.mem_cons_of_mem _ hy)
    simp only [List.map_cons, List.sum_cons]
    omega

theorem range_sum (l : List AConn) (i : Nat) :
    ((List.range l.length).map fun n => ((l[n]?).map fun k => k.sent.countP fun w => w.1 == i).getD 0).sum =
      (l.flatMap AConn.sent).countP fun w => w.1 == i := by
  induction l with
  | nil => simp
  | cons k l ih =>
    rw [List.length_cons, List.range_succ_eq_map, List.map_cons, List.sum_cons, List.map_map, List.flatMap_cons,
      List.countP_append, ← ih]
    simp [Function.comp_def]

/-- Each execution has a frame of its own. -/
theorem execs_sent (v : PyVer) (evs : List AEv) (hd : DistinctIds evs) (peer : Nat → Peer)
    (hj : Joined (arun v evs) peer) (hreq : ∀ c ∈ (arun v evs).calls, AioMade c.req) (i : Nat) (c : ACall) (id : Int)
    (hc : (arun v evs).calls[i]? = some c) (hid : c.req.requestId = .int id) :
    execsAll (arun v evs) peer id ≤ sentOf (arun v evs) i := by
  unfold execsAll sentOf
  rw [← range_sum]
  refine sum_le_sum _ _ _ fun n hn => ?_
  have hn := List.mem_range.1 hn
  obtain ⟨k, hk⟩ : ∃ k, (arun v evs).conns[n]? = some k := ⟨_, List.getElem?_eq_getElem hn⟩
  rw [hk, Option.map_some, Option.getD_some]
  refine Nat.le_trans (execs_acts (LInv.run (peer n).svc (peer n).reg (peer n).levs) id) ?_
  obtain ⟨qs, h1, h2, h3⟩ := sent_frames_count hd hreq hc hid k.sent
    (fun i bs hm => (C60_on_the_wire v evs i).2 k (List.mem_of_getElem? hk) bs hm)
  obtain ⟨more, hmore⟩ := hj.there n k hk
  rw [← h1] at hmore
  obtain ⟨l, l', hl, hacts⟩ := acts_prefix (peer n).svc (peer n).reg (peer n).levs qs more h2 hmore
  rw [hl, List.countP_append] at h3
  rcases hacts with e | ⟨-, x, e⟩
  · rw [show (lrun (peer n).svc (peer n).reg (peer n).levs).acts = l from e]; omega
  · rw [show (lrun (peer n).svc (peer n).reg (peer n).levs).acts = _ from e, List.countP_append]
    have : [Act.close x RespStatus.connectionClosed].countP (dispatches id) = 0 := rfl
    omega

/-! ## C130: the asyncio client -/

/-- C130 at full strength: an asyncio client makes any number of calls over any number of connections that lead to
asyncio listeners. The method of one call is executed at most once. -/
def C130_full : Prop :=
  ∀ (v : PyVer) (evs : List AEv) (_ : DistinctIds evs) (peer : Nat → Peer) (_ : Joined (arun v evs) peer)
    (_ : ∀ c ∈ (arun v evs).calls, AioMade c.req) (i : Nat) (c : ACall) (id : Int)
    (_ : (arun v evs).calls[i]? = some c) (_ : c.req.requestId = .int id), execsAll (arun v evs) peer id ≤ 1

/-- What may make call `i` send again: a flush that fails, or (up to Python 3.7) a cancellation. -/
def Spec.resends (v : PyVer) (i : Nat) : AEv → Bool
  | .drained j false => j == i
  | .cancel j => j == i && v == .upTo37
  | _ => false

/-- behind the write -/
def CallPc.written : CallPc → Bool
  | .drain2 .. | .waiting _ | .done _ => true
  | _ => false

/-- a write of call `i` is made between its two `drain`s -/
theorem drained_writes (s : ASt) (i : Nat) (ok : Bool) (c : ACall) (hc : s.calls[i]? = some c) :
    (s.drained i ok).writes = s.writes ∨ ∃ n c', (s.drained i ok).writes = s.writes ++ [(i, n)] ∧
      (s.drained i ok).calls[i]? = some c' ∧ c'.pc.written = true := by
  have brk : ∀ r a n, (s.broken i c r a n).writes = s.writes := fun r a n => (broken_after (c := c) hc r a n).writes
  unfold ASt.drained
  rw [hc]
  dsimp only
  split
  · next r a n hp =>
    split
    · split
      · exact .inl (brk ..)
      · exact .inr ⟨n, _, rfl, modify_self (l := s.calls) hc, rfl⟩
    · exact .inl (brk ..)
  · split
    · split
      · exact .inl rfl
      · split <;> exact .inl rfl
    · exact .inl (brk ..)
  · exact .inl rfl

/-- nothing else writes -/
theorem other_writes (v : PyVer) (s : ASt) (e : AEv) (he : ∀ j ok, e ≠ .drained j ok) :
    (astep v s e).writes = s.writes := by
  cases e with
  | call req => rfl
  | recv n => exact recv_writes s n
  | data n bs => rfl
  | eof n => rfl
  | reset n => rfl
  | drained j ok => exact absurd rfl (he j ok)
  | start j addr =>
    simp only [astep, ASt.start]
    split
    · next c hc =>
      split
      · exact (send_after (s := { s with reqs := PyDict.set s.reqs c.req.requestId j }) (c := c) hc 3 addr).writes
      · rfl
    · rfl
  | lock j =>
    simp only [astep, ASt.lockTurn]
    split
    · split
      · split
        · split <;> rfl
        · rfl
      · rfl
    · rfl
  | dialed j ok =>
    simp only [astep, ASt.dialed]
    split
    · next c hc =>
      split
      · next r a l hp =>
        split
        · split <;> rfl
        · exact (sendFailed_after (s := s.setLock l false) (c := c) hc 0).writes
      · rfl
    · rfl
  | wake j =>
    simp only [astep, ASt.wake]
    split
    · split
      · split
        · split <;> rfl
        · rfl
      · rfl
    · rfl
  | cancel j =>
    simp only [astep, ASt.cancel]
    split
    · next c hc =>
      split
      · rfl
      · split
        · exact (sendFailed_after (c := c) hc 0).writes
        · rfl
      · next l hp =>
        split
        · exact (sendFailed_after (s := s.setLock l false) (c := c) hc 0).writes
        · rfl
      · split
        · exact (broken_after (c := c) hc _ _ _).writes
        · rfl
      · split
        · exact (broken_after (c := c) hc _ _ _).writes
        · rfl
      · rfl
      · rfl
    · rfl

/-- a call behind its write stays there, unless it sends again -/
theorem written_stays (v : PyVer) (s : ASt) (e : AEv) (i : Nat) (ha : e.actor = some i) (hr : resends v i e = false)
    (c : ACall) (hc : s.calls[i]? = some c) (hw : c.pc.written = true) :
    (astep v s e).writes = s.writes ∧ ∃ c', (astep v s e).calls[i]? = some c' ∧ c'.pc.written = true := by
  have same : ∀ s', s' = s → s'.writes = s.writes ∧ ∃ c', s'.calls[i]? = some c' ∧ c'.pc.written = true := by
    rintro _ rfl
    exact ⟨rfl, c, hc, hw⟩
  have to : ∀ (t : ASt) (pc : CallPc), t.writes = s.writes → t.calls[i]? = some c → pc.written = true →
      (t.setPc i pc).writes = s.writes ∧ ∃ c', (t.setPc i pc).calls[i]? = some c' ∧ c'.pc.written = true := by
    intro t pc h1 h2 h3
    exact ⟨h1, _, modify_self (l := t.calls) h2, h3⟩
  cases e with
  | call req => cases ha
  | recv n => cases ha
  | data n bs => cases ha
  | eof n => cases ha
  | reset n => cases ha
  | start j addr =>
    cases ha
    refine same _ ?_
    simp only [astep, ASt.start, hc]
    split
    · next hp => rw [hp] at hw; cases hw
    · rfl
  | lock j =>
    cases ha
    refine same _ ?_
    simp only [astep, ASt.lockTurn, hc]
    split
    · next hp => rw [hp] at hw; cases hw
    · rfl
  | dialed j ok =>
    cases ha
    refine same _ ?_
    simp only [astep, ASt.dialed, hc]
    split
    · next hp => rw [hp] at hw; cases hw
    · rfl
  | drained j ok =>
    cases ha
    have hok : ok = true := by
      cases ok with
      | true => rfl
      | false => simp [resends] at hr
    subst hok
    simp only [astep, ASt.drained, hc]
    split
    · next hp => rw [hp] at hw; cases hw
    · simp only [if_true]
      split
      · exact to s _ rfl hc rfl
      · split
        · exact to _ _ rfl hc rfl
        · exact to s _ rfl hc rfl
    · exact same _ rfl
  | wake j =>
    cases ha
    simp only [astep, ASt.wake, hc]
    split
    · split
      · split
        · exact to _ _ rfl hc rfl
        · exact to s _ rfl hc rfl
      · exact same _ rfl
    · exact same _ rfl
  | cancel j =>
    cases ha
    have hv : ¬ v = .upTo37 := by
      intro e
      subst e
      simp [resends] at hr
    simp only [astep, ASt.cancel, hc, if_neg hv]
    split
    · next hp => rw [hp] at hw; cases hw
    · next hp => rw [hp] at hw; cases hw
    · next hp => rw [hp] at hw; cases hw
    · next hp => rw [hp] at hw; cases hw
    · exact to s _ rfl hc rfl
    · exact to s _ rfl hc rfl
    · exact same _ rfl

theorem writesOf_snoc (s s' : ASt) (i j n : Nat) (h : s'.writes = s.writes ++ [(j, n)]) :
    writesOf s' i = writesOf s i + if j = i then 1 else 0 := by
  unfold writesOf
  rw [h, List.countP_append, List.countP_singleton]
  simp only [beq_iff_eq]

/-- Without failures there is at most one write. -/
theorem one_write (v : PyVer) (evs : List AEv) (i : Nat) (hno : ∀ e ∈ evs, resends v i e = false) :
    writesOf (arun v evs) i = 0 ∨
    writesOf (arun v evs) i = 1 ∧ ∃ c, (arun v evs).calls[i]? = some c ∧ c.pc.written = true := by
  induction evs using snoc_induct with
  | nil => exact .inl rfl
  | snoc evs e ih =>
    have ih := ih fun x hx => hno x (List.mem_append_left _ hx)
    have hr := hno e (by simp)
    rw [arun_snoc]
    generalize hs : arun v evs = s at ih
    have hwi : WInv s := hs ▸ arun_winv v evs
    by_cases ha : e.actor = some i
    · cases hc : s.calls[i]? with
      | none => rw [astep_nobody v s e ha hc]; exact ih
      | some c =>
        rcases ih with h0 | ⟨h1, d, hd, hw⟩
        · have hsame : (astep v s e).writes = s.writes → writesOf (astep v s e) i = 0 := by
            intro h; unfold writesOf at *; rw [h]; exact h0
          by_cases hdr : ∃ j ok, e = .drained j ok
          · obtain ⟨j, ok, rfl⟩ := hdr
            cases ha
            rcases drained_writes s i ok c hc with h | ⟨n, c', h1, h2, h3⟩
            · exact .inl (hsame h)
            · have := writesOf_snoc s (s.drained i ok) i i n h1
              rw [h0, if_pos rfl] at this
              exact .inr ⟨this, c', h2, h3⟩
          · exact .inl (hsame (other_writes v s e fun j ok h => hdr ⟨j, ok, h⟩))
        · rw [hc] at hd
          cases hd
          obtain ⟨g1, g2⟩ := written_stays v s e i ha hr c hc hw
          refine .inr ⟨?_, g2⟩
          unfold writesOf at *
          rw [g1]; exact h1
    · have hws : writesOf (astep v s e) i = writesOf s i := by
        cases hj : e.actor with
        | none => unfold writesOf; rw [passive_writes v s e hj]
        | some j =>
          cases hc : s.calls[j]? with
          | none => rw [astep_nobody v s e hj hc]
          | some c =>
            rcases actor_budget v s e hc (hwi.calls j c hc).2 hj with h | ⟨n, c', hw, -⟩
            · unfold writesOf; rw [h.writes]
            · rw [writesOf_snoc s _ i j n hw, if_neg (by rintro rfl; exact ha hj)]
              rfl
      rw [hws]
      rcases ih with h | ⟨h, c, hc, hw⟩
      · exact .inl h
      · obtain ⟨c', e1, e2, -⟩ := astep_keeps v s e i ha c hc
        exact .inr ⟨h, c', e1, by rw [e2]; exact hw⟩

/-- C130, what holds: the method of one call is executed at most as often as its request was written, and that is at
most three times; and at most once if no flush of this call fails and (up to Python 3.7) the call is not cancelled.
What is missing for the full statement: a flush that fails after the request has gone out makes the client send it
again, see `C130_violated`. -/
theorem C130_executions_partial (v : PyVer) (evs : List AEv) (hd : DistinctIds evs) (peer : Nat → Peer)
    (hj : Joined (arun v evs) peer) (hreq : ∀ c ∈ (arun v evs).calls, AioMade c.req) (i : Nat) (c : ACall) (id : Int)
    (hc : (arun v evs).calls[i]? = some c) (hid : c.req.requestId = .int id) :
    execsAll (arun v evs) peer id ≤ sentOf (arun v evs) i ∧ execsAll (arun v evs) peer id ≤ 3 ∧
    ((∀ e ∈ evs, resends v i e = false) → execsAll (arun v evs) peer id ≤ 1) := by
  have h1 := execs_sent v evs hd peer hj hreq i c id hc hid
  have h2 := (arun_sent v evs).1 i
  have h3 := (C60_on_the_wire v evs i).1
  refine ⟨h1, by omega, fun hno => ?_⟩
  have := one_write v evs i hno
  omega

/-- C130. Every submission for the id of a call is the one that the arguments of the call ask for. -/
theorem C130_asked (v : PyVer) (evs : List AEv) (hd : DistinctIds evs) (peer : Nat → Peer)
    (hj : Joined (arun v evs) peer) (hreq : ∀ c ∈ (arun v evs).calls, AioMade c.req) (i : Nat) (c : ACall) (a : CallArgs)
    (kd : AKind) (hc : (arun v evs).calls[i]? = some c) (ha : aioRequest a kd = .ok c.req) (n : Nat) (k : AConn)
    (hk : (arun v evs).conns[n]? = some k) (j m : Nat) (t : Task) (r : Req) (f : Fut)
    (ht : (peer n).st.tasks[j]? = some t) (htk : t.kind = .dispatch r) (hid : c.req.requestId = .int r.id)
    (hf : t.fut = some m) (hff : (peer n).st.futs[m]? = some f) :
    AskedFor (peer n).svc (peer n).reg (peer n).levs a f := by
  have h := LInv.run (peer n).svc (peer n).reg (peer n).levs
  obtain ⟨qs, hqs, hq⟩ := sent_frames (arun v evs) hreq k.sent
    (fun i bs hm => (C60_on_the_wire v evs i).2 k (List.mem_of_getElem? hk) bs hm)
  obtain ⟨more, hmore⟩ := hj.there n k hk
  rw [← hqs] at hmore
  obtain ⟨l, l', hl, hacts⟩ := acts_prefix (peer n).svc (peer n).reg (peer n).levs qs more
    (fun q hm => by obtain ⟨_, _, _, h⟩ := hq q hm; exact h.ok) hmore
  obtain ⟨x, hx, hxk, -⟩ := task_act h ht
  rw [htk] at hxk
  have hxd : x = .dispatch r := by
    cases x with
    | dispatch r' => injection hxk with hxk; injection hxk with hxk; rw [hxk]
    | heartbeat id => injection hxk with hxk; cases hxk
    | _ => cases hxk
  subst hxd
  have hxl : .dispatch r ∈ l := by
    rcases hacts with e | ⟨-, i, e⟩
    · rw [e] at hx; exact hx
    · rw [e] at hx
      rcases List.mem_append.1 hx with hx | hx
      · exact hx
      · cases List.mem_singleton.1 hx
  have hxq : .dispatch r ∈ qs.map AnyFrame.verdict := by rw [hl]; exact List.mem_append_left _ hxl
  obtain ⟨q, hqm, hqv⟩ := List.mem_map.1 hxq
  obtain ⟨i', c'', hc'', hfr⟩ := hq q hqm
  have hrq : r = ⟨q.f.ptype, q.f.requestId, q.header, q.content, q.f.seventh⟩ := by
    unfold AnyFrame.verdict at hqv
    split at hqv
    · cases hqv
    · split at hqv
      · cases hqv
      · cases hqv; rfl
  subst hrq
  have hi : i' = i := same_call hd hc'' hc (by rw [hfr.id, hid])
  subst hi
  rw [hc] at hc''
  cases hc''
  obtain ⟨b, hdr, t', hb1, hb2, hb3⟩ := aioRequest_parts ha
  exact askedFor_of_task (newRequest_requestOf hb1 hb2 hb3 hfr) ht htk hf hff

/-- what one listener does with the request of call `A` -/
def exTwiceLevs : List LEv :=
  [.data (exAioBytes exCallA)] ++ List.replicate 6 .reader ++
  [.run 0 (py "t"), .futStart 0, .futFinish 0 (.ret (.bytes [11])), .result 0, .write 0]

/-- the flush of the first write fails, after the bytes have gone out -/
def exTwiceEvs : List AEv :=
  [.call (exAioReq exCallA), .start 0 exAddr, .dialed 0 true, .drained 0 true, .drained 0 false, .dialed 0 true,
   .drained 0 true, .drained 0 true]

set_option maxRecDepth 40000 in
/-- C130 is violated: the flush fails after the request has gone out on a connection; the client sends it again on a new
one, and both listeners execute the method. -/
theorem C130_violated : ¬ C130_full := by
  intro h
  have hconns : (arun .from38 exTwiceEvs).conns.map (fun k => (k.sent.map Prod.snd).flatten) =
      [received exTwiceLevs, received exTwiceLevs] ∧
      (arun .from38 exTwiceEvs).conns.map AConn.recvd = [[], []] := by decide +kernel
  have hj : Joined (arun .from38 exTwiceEvs) fun _ => ⟨exServices, exReg, exTwiceLevs⟩ := by
    constructor
    · intro n k hk
      have h1 := List.mem_map_of_mem (f := fun k : AConn => (k.sent.map Prod.snd).flatten) (List.mem_of_getElem? hk)
      rw [hconns.1] at h1
      have : (k.sent.map Prod.snd).flatten = received exTwiceLevs := by simpa using h1
      rw [this]
      exact List.prefix_refl _
    · intro n k hk
      have h1 := List.mem_map_of_mem (f := AConn.recvd) (List.mem_of_getElem? hk)
      rw [hconns.2] at h1
      have : k.recvd = [] := by simpa using h1
      rw [this]
      exact List.nil_prefix
  have hm : ∀ c ∈ (arun .from38 exTwiceEvs).calls, AioMade c.req := by
    have hr : (arun .from38 exTwiceEvs).calls.map ACall.req = [exAioReq exCallA] := by decide +kernel
    intro c hc
    have := List.mem_map_of_mem (f := ACall.req) hc
    rw [hr, List.mem_singleton] at this
    rw [this]
    exact .inl ⟨exCallA, .sync, by decide +kernel⟩
  have hd : DistinctIds exTwiceEvs := by decide +kernel
  have := h .from38 exTwiceEvs hd _ hj hm 0 ⟨exAioReq exCallA, .waiting 0, false⟩ 7 (by decide +kernel) (by decide +kernel)
  revert this
  decide +kernel

set_option maxRecDepth 40000 in
/-- the cases of `C130_executions_partial`: two writes with two executions, and one of each without a failure -/
example : sentOf (arun .from38 exTwiceEvs) 0 = 2 ∧
    execsAll (arun .from38 exTwiceEvs) (fun _ => ⟨exServices, exReg, exTwiceLevs⟩) 7 = 2 ∧
    (∀ e ∈ exAioPre, resends .from38 0 e = false) ∧ execsAll (arun .from38 exAioPre) (fun _ => exPeer) 7 = 1 := by
  decide +kernel

/-! ## C131: the synchronous client -/

/-- the frames a listener can have received from one attempt of the synchronous client -/
theorem sync_frames {C : Type} {a : CallArgs} {env : Nat → Attempt C} {bs : Bytes}
    (hin : bs <+: ((rawInvoke a env).2.wire.map Prod.snd).flatten) :
    ∃ qs more, (∀ q ∈ qs, RequestOf a q) ∧ qs.length ≤ 1 ∧ bs ++ more = framesBytes qs := by
  cases hp : a.request with
  | error e =>
    have : (rawInvoke a env).2.wire = [] := by
      unfold rawInvoke; rw [hp]
    rw [this] at hin
    obtain ⟨x, hx⟩ := hin
    exact ⟨[], x, by simp, by simp, hx⟩
  | ok p =>
    rcases raw_wire (env := env) hp with hw | ⟨c, b, n, hts, hw⟩
    · rw [hw] at hin
      obtain ⟨x, hx⟩ := hin
      exact ⟨[], x, by simp, by simp, hx⟩
    · rw [hw] at hin
      obtain ⟨x, hx⟩ := hin
      obtain ⟨q, h1, -, h3, -⟩ := sync_frame hp hts
      refine ⟨[q], x ++ b.drop n, ?_, by simp, ?_⟩
      · intro q' hq'
        rw [List.mem_singleton.1 hq']
        exact h1
      · rw [← List.append_assoc, hx]
        simp [framesBytes, h3]

/-- C131. A synchronous client calls (or calls one-way). Whatever becomes of its connections, and whatever the asyncio
listener at the other end of the one it has used does: at most one method is executed there, and it is the one asked
for. -/
theorem C131_at_most_once {C : Type} (svc : Services) (reg : Registry) (levs : List LEv) (a : CallArgs)
    (env : Nat → Attempt C) (hin : received levs <+: ((rawInvoke a env).2.wire.map Prod.snd).flatten) :
    (lrun svc reg levs).futs.length ≤ 1 ∧ ∀ f ∈ (lrun svc reg levs).futs, AskedFor svc reg levs a f := by
  have h := LInv.run svc reg levs
  obtain ⟨qs, more, hq, hlen, hb⟩ := sync_frames hin
  obtain ⟨l, l', hl, hacts⟩ := acts_prefix svc reg levs qs more (fun q h => (hq q h).ok) hb
  have hkinds : (lrun svc reg levs).tasks.length ≤ 1 := by
    have e := congrArg List.length h.kinds
    rw [List.length_map] at e
    have hll : l.length ≤ 1 := by
      have := congrArg List.length hl
      rw [List.length_map, List.length_append] at this
      omega
    rcases hacts with ha | ⟨-, i, ha⟩
    · rw [ha] at e
      have := List.length_filterMap_le actTask l
      omega
    · rw [ha, List.filterMap_append] at e
      have := List.length_filterMap_le actTask l
      have h0 : ([Act.close i RespStatus.connectionClosed].filterMap actTask) = [] := rfl
      rw [h0, List.append_nil] at e
      omega
  constructor
  · refine Nat.le_of_not_lt fun hlt => ?_
    obtain ⟨i, t, i1, i2⟩ := h.futOwner 0 (by omega)
    obtain ⟨j, u, j1, j2⟩ := h.futOwner 1 (by omega)
    have l1 := (List.getElem?_eq_some_iff.1 i1).1
    have l2 := (List.getElem?_eq_some_iff.1 j1).1
    have : i = j := by omega
    subst this
    rw [i1] at j1
    cases j1
    rw [i2] at j2
    cases j2
  · intro f hf
    obtain ⟨m, hm⟩ := List.getElem?_of_mem hf
    obtain ⟨j, t, h1, h2⟩ := h.futOwner m (List.getElem?_eq_some_iff.1 hm).1
    obtain ⟨x, hx, hxk, -⟩ := task_act h h1
    have hxl : (∃ i st, x = .close i st) ∨ ∃ q ∈ qs, x = q.verdict := by
      have key : ∀ x ∈ l, ∃ q ∈ qs, x = q.verdict := by
        intro x hx
        have : x ∈ qs.map AnyFrame.verdict := by rw [hl]; exact List.mem_append_left _ hx
        obtain ⟨q, h1, h2⟩ := List.mem_map.1 this
        exact ⟨q, h1, h2.symm⟩
      rcases hacts with e | ⟨-, i, e⟩
      · rw [e] at hx; exact .inr (key x hx)
      · rw [e] at hx
        rcases List.mem_append.1 hx with hx | hx
        · exact .inr (key x hx)
        · exact .inl ⟨i, _, List.mem_singleton.1 hx⟩
    rcases hxl with ⟨i, st, rfl⟩ | ⟨q, hqm, rfl⟩
    · cases hxk
    · rw [(hq q hqm).verdict] at hxk
      injection hxk with hxk
      exact askedFor_of_task (hq q hqm) h1 hxk.symm h2 hm

/-- C131 with a socket listener. (That the call is the one asked for is shown for connections that are not reset.) -/
theorem C131_at_most_once_sock {C : Type} (svc : Services) (reg : Registry) (sevs : List SEv) (a : CallArgs)
    (env : Nat → Attempt C) (hin : sreceived sevs <+: ((rawInvoke a env).2.wire.map Prod.snd).flatten) :
    (srun svc reg sevs).calls.length ≤ 1 ∧
    (.reset ∉ sevs → ∀ f ∈ (srun svc reg sevs).calls, SockAskedFor svc reg sevs a f) := by
  refine ⟨(C111_at_most_one svc reg sevs).1, fun hn f hf => ?_⟩
  obtain ⟨qs, more, hq, hlen, hb⟩ := sync_frames hin
  match qs, hlen with
  | [], _ =>
    have h0 : sreceived sevs = [] := (List.append_eq_nil_iff.1 hb).1
    have hok := exReq_ok 3 [1] (by constructor <;> decide) (by decide)
    have hlen : ¬ (exReq 3 [1]).any.bytes <+: (srun svc reg sevs).recvd := by
      intro e
      rw [(srun_env svc reg sevs).1, h0] at e
      have := e.length_le
      rw [bytes_parts] at this
      simp [fixOf_length] at this
    have hi := SInv.run svc reg (exReq 3 [1]).any ⟨hok.fit, hok.body, hok.decodes⟩ [] sevs hn (exReq 3 [1]).any.bytes
      (by rw [h0, List.append_nil]; rfl)
    cases hi with
    | reading c hp hr ha hw ho hc => rw [hc] at hf; cases hf
    | calling c hp hr => exact absurd hr hlen
    | done hp hr => exact absurd hr hlen
  | [q], _ =>
    have hq := hq q (by simp)
    have hi := SInv.run svc reg q hq.ok [] sevs hn more (by simpa [framesBytes] using hb)
    cases hi with
    | reading c hp hr ha hw ho hc => rw [hc] at hf; cases hf
    | calling c hp hr hn' hc ho hcs =>
      rw [hcs] at hf
      rw [List.mem_singleton.1 hf]
      exact sockAskedFor hq hc
    | done hp hr hh =>
      generalize (srun svc reg sevs).calls = cs at *
      generalize (srun svc reg sevs).result = res at *
      generalize (srun svc reg sevs).out = out at *
      cases hh with
      | called h hc' call o hcall => rw [List.mem_singleton.1 hf]; exact sockAskedFor hq hcall
      | _ => cases hf
  | _ :: _ :: _, h => simp at h

set_option maxRecDepth 40000 in
/-- the cases of C131: the request goes out at the second attempt; one call is made -/
example : let env : Nat → Attempt Nat := fun j => ⟨.ok j, if j = 0 then .socketValue else .ok 100000⟩
    let w := ((rawInvoke exCall env).2.wire.map Prod.snd).flatten
    (rawInvoke exCall env).2.attempts = 2 ∧ w ≠ [] ∧
    (lrun exServices exReg ([.data w] ++ List.replicate 6 .reader ++ [.run 0 (py "t"), .futStart 0])).futs.map Fut.st =
      [.running] ∧
    (srun exServices exReg ([.data w] ++ List.replicate 4 (.handler (py "t")))).calls.length = 1 := by
  decide +kernel

end Bolt
