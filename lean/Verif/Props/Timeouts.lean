import Verif.Props.EndToEndAio
/-!
# C133: the timeout of a call, at the caller and at the server
-/
namespace Bolt
open Spec

/-! ## The property -/

/-- C133 as listed, for the asyncio client: whenever a listener has taken up a call of `invoke_sync`, it applies the
timeout that the caller has given. -/
def C133_full : Prop :=
  ∀ (v : PyVer) (evs : List AEv) (peer : Nat → Peer), DistinctIds evs → Joined (arun v evs) peer →
    (∀ c ∈ (arun v evs).calls, AioMade c.req) →
    ∀ (i : Nat) (c : ACall) (a : CallArgs) (t : Int) (n : Nat) (k : AConn) (j : Nat) (tk : Task) (r : Req),
      (arun v evs).calls[i]? = some c → aioRequest a .sync = .ok c.req → a.timeout = .int t →
      (arun v evs).conns[n]? = some k → (peer n).st.tasks[j]? = some tk → tk.kind = .dispatch r → r.id = a.id →
      r.timeout = t

/-- What is sent for `timeout_ms`, if anything can be sent: 0, `None` and whatever else is false become -1. -/
def Spec.wireTimeout : AKind → PyObj → Option Int
  | .oneway, _ => some (-1)
  | _, .int t => some (if t = 0 then -1 else t)
  | _, o => if o.truthy then none else some (-1)

/-- What the server waits for. -/
def Spec.deadlineOf (start : Option Int) (t : Int) : Option Int := if t > 0 then start.map (· + t) else none

/-! ## The field -/

theorem newRequest_timeout {hd : SofaHeader} {c t : PyObj} {pt : PType} {id : Int} {p : Pkg} {bs : Bytes}
    (h : newRequest hd c pt t id = .ok p) (hs : p.toStream = .ok bs) {x : Int} (hx : p.timeout = .int x) :
    wireTimeout .sync t = some x ∧ -2 ^ 31 ≤ x ∧ x < 2 ^ 31 := by
  obtain ⟨-, ht, -⟩ := (C04_encodable_iff p).1.1 ⟨bs, hs⟩
  unfold newRequest at h
  rw [mkPkg_ok_iff] at h
  obtain ⟨e1, -, -, -, -, -, -, -, -, -, e2, -⟩ := h
  obtain ⟨y, hy, h1, h2⟩ := ht (by rw [e1]; rfl)
  rw [hx] at hy
  cases hy
  refine ⟨?_, h1, h2⟩
  rw [hx] at e2
  dsimp only at e2
  cases t with
  | int t =>
    by_cases h0 : t = 0
    · subst h0
      simp [PyObj.or, PyObj.truthy] at e2
      simp [wireTimeout, e2]
    · simp [PyObj.or, PyObj.truthy, h0] at e2
      simp [wireTimeout, h0, e2]
  | none => simp [PyObj.or, PyObj.truthy] at e2; simp [wireTimeout, PyObj.truthy, e2]
  | obj b => cases b <;> simp [PyObj.or, PyObj.truthy] at e2 <;> simp [wireTimeout, PyObj.truthy, e2]
  | bytes b => cases b <;> simp [PyObj.or, PyObj.truthy] at e2 <;> simp [wireTimeout, PyObj.truthy, e2]
  | str b => cases b <;> simp [PyObj.or, PyObj.truthy] at e2 <;> simp [wireTimeout, PyObj.truthy, e2]

theorem wireTimeout_async (t : PyObj) : wireTimeout .async t = wireTimeout .sync t := by cases t <;> rfl

theorem wireTimeout_or (t : PyObj) : wireTimeout .sync (PyObj.or t (.int (-1))) = wireTimeout .sync t := by
  cases t with
  | int t => by_cases h0 : t = 0 <;> simp [PyObj.or, PyObj.truthy, wireTimeout, h0]
  | none => rfl
  | obj b => cases b <;> rfl
  | bytes b => cases b <;> rfl
  | str b => cases b <;> rfl

/-- the timeout in the request of the asyncio client -/
theorem aio_timeout {a : CallArgs} {kd : AKind} {p : Pkg} {bs : Bytes} (h : aioRequest a kd = .ok p)
    (hs : p.toStream = .ok bs) {x : Int} (hx : p.timeout = .int x) :
    wireTimeout kd a.timeout = some x ∧ -2 ^ 31 ≤ x ∧ x < 2 ^ 31 := by
  unfold aioRequest at h
  cases hb : a.ctx with
  | none => rw [hb] at h; cases h
  | some b =>
    rw [hb] at h
    simp only [bind, Except.bind] at h
    split at h
    · cases h
    · obtain ⟨h1, h2⟩ := newRequest_timeout h hs hx
      refine ⟨?_, h2⟩
      cases kd with
      | oneway => simpa [wireTimeout] using h1
      | sync => exact h1
      | async => rw [wireTimeout_or] at h1; rw [wireTimeout_async]; exact h1

/-- the timeout in the request of the synchronous client -/
theorem sync_timeout {a : CallArgs} {p : Pkg} {bs : Bytes} (h : a.request = .ok p)
    (hs : p.toStream = .ok bs) {x : Int} (hx : p.timeout = .int x) :
    wireTimeout .sync a.timeout = some x ∧ -2 ^ 31 ≤ x ∧ x < 2 ^ 31 := by
  unfold CallArgs.request at h
  cases hb : a.ctx with
  | none => rw [hb] at h; cases h
  | some b =>
    rw [hb] at h
    simp only [bind, Except.bind] at h
    split at h
    · cases h
    · obtain ⟨h1, h2⟩ := newRequest_timeout h hs hx
      rw [wireTimeout_or] at h1
      exact ⟨h1, h2⟩

/-! ## At the listener -/

/-- what the listener waits for -/
theorem task_deadline {svc : Services} {s : LSt} (h : LInv svc s) {j : Nat} {tk : Task} {r : Req} {d : Option Int}
    (ht : s.tasks[j]? = some tk) (hk : tk.kind = .dispatch r) (hd : tk.st = .waiting d) :
    d = deadlineOf tk.started r.timeout := by
  have := h.task j tk ht
  unfold TaskOk at this
  rw [hk, hd] at this
  obtain ⟨⟨-, -, -, e⟩, -⟩ := this
  exact e

/-- The request of a task, if the bytes received are a beginning of some frames. -/
theorem task_frame {svc : Services} {reg : Registry} {levs : List LEv} {qs : List AnyFrame} {more : Bytes}
    (hq : ∀ q ∈ qs, q.Ok) (hb : received levs ++ more = framesBytes qs) {j : Nat} {tk : Task} {r : Req}
    (ht : (lrun svc reg levs).tasks[j]? = some tk) (hk : tk.kind = .dispatch r) :
    ∃ q ∈ qs, r = ⟨q.f.ptype, q.f.requestId, q.header, q.content, q.f.seventh⟩ := by
  obtain ⟨l, l', hl, hacts⟩ := acts_prefix svc reg levs qs more hq hb
  obtain ⟨x, hx, hxk, -⟩ := task_act (LInv.run svc reg levs) ht
  rw [hk] at hxk
  have hxd : x = .dispatch r := by
    cases x with
    | dispatch r' => injection hxk with hxk; injection hxk with hxk; rw [hxk]
    | heartbeat id => injection hxk with hxk; cases hxk
    | _ => cases hxk
  subst hxd
  have hxl : .dispatch r ∈ l := by
    rcases hacts with e | ⟨-, i, e⟩
    · rw [e] at hx; exact hx
    · rw [e] at hx
      rcases List.mem_append.1 hx with hx | hx
      · exact hx
      · cases List.mem_singleton.1 hx
  have hxq : .dispatch r ∈ qs.map AnyFrame.verdict := by rw [hl]; exact List.mem_append_left _ hxl
  obtain ⟨q, hqm, hqv⟩ := List.mem_map.1 hxq
  refine ⟨q, hqm, ?_⟩
  unfold AnyFrame.verdict at hqv
  split at hqv
  · cases hqv
  · split at hqv
    · cases hqv
    · cases hqv; rfl

/-! ## C133 -/

/-- C133, what holds for the asyncio client. A listener that has taken up a call has been told the caller's timeout, except
that 0 and everything false have become -1; what can be told at all is an integer of 32 bits. With a positive timeout the
listener's deadline is that long after it submitted the method, otherwise it has none. Missing: a timeout of 0 means "at
once" to the caller and "never" to the listener, see `C133_violated`. -/
theorem C133_timeout_partial (v : PyVer) (evs : List AEv) (peer : Nat → Peer) (hd : DistinctIds evs)
    (hj : Joined (arun v evs) peer) (hreq : ∀ c ∈ (arun v evs).calls, AioMade c.req) (i : Nat) (c : ACall) (a : CallArgs)
    (kd : AKind) (n : Nat) (k : AConn) (j : Nat) (tk : Task) (r : Req) (hc : (arun v evs).calls[i]? = some c)
    (ha : aioRequest a kd = .ok c.req) (hk : (arun v evs).conns[n]? = some k) (ht : (peer n).st.tasks[j]? = some tk)
    (hr : tk.kind = .dispatch r) (hid : r.id = a.id) :
    wireTimeout kd a.timeout = some r.timeout ∧ (-2 ^ 31 ≤ r.timeout ∧ r.timeout < 2 ^ 31) ∧
    ∀ d, tk.st = .waiting d → d = deadlineOf tk.started r.timeout := by
  obtain ⟨qs, hqs, hq⟩ := sent_frames (arun v evs) hreq k.sent
    (fun i bs hm => (C60_on_the_wire v evs i).2 k (List.mem_of_getElem? hk) bs hm)
  obtain ⟨more, hmore⟩ := hj.there n k hk
  rw [← hqs] at hmore
  obtain ⟨q, hqm, rfl⟩ := task_frame (fun q hm => by obtain ⟨_, _, _, h⟩ := hq q hm; exact h.ok) hmore ht hr
  obtain ⟨i', c', hc', hf⟩ := hq q hqm
  have hi : i' = i := by
    refine same_call hd hc' hc ?_
    rw [hf.id]
    obtain ⟨b, hdr, t, hb1, hb2, hb3⟩ := aioRequest_parts ha
    unfold newRequest at hb3
    rw [mkPkg_ok_iff] at hb3
    obtain ⟨-, -, -, -, -, -, -, -, e9, -⟩ := hb3
    rw [e9]
    exact congrArg PyObj.int hid
  subst hi
  rw [hc] at hc'
  cases hc'
  obtain ⟨h1, h2⟩ := aio_timeout ha hf.bytes hf.timeout
  exact ⟨h1, h2, fun d hd => task_deadline (LInv.run _ _ _) ht hr hd⟩

/-- C133, the same for the synchronous client on a connection on which there is nothing else. -/
theorem C133_timeout_sync_partial {C : Type} (svc : Services) (reg : Registry) (levs : List LEv) (a : CallArgs)
    (env : Nat → Attempt C) (hin : received levs <+: ((rawInvoke a env).2.wire.map Prod.snd).flatten) (j : Nat) (tk : Task)
    (r : Req) (ht : (lrun svc reg levs).tasks[j]? = some tk) (hr : tk.kind = .dispatch r) :
    wireTimeout .sync a.timeout = some r.timeout ∧ (-2 ^ 31 ≤ r.timeout ∧ r.timeout < 2 ^ 31) ∧
    ∀ d, tk.st = .waiting d → d = deadlineOf tk.started r.timeout := by
  obtain ⟨more, hmore⟩ := hin
  cases hp : a.request with
  | error e =>
    have : (rawInvoke a env).2.wire = [] := by unfold rawInvoke; rw [hp]
    rw [this] at hmore
    obtain ⟨q, hqm, -⟩ := task_frame (qs := []) (by simp) hmore ht hr
    cases hqm
  | ok p =>
    rcases raw_wire (env := env) hp with hw | ⟨c, bs, n, hts, hw⟩
    · rw [hw] at hmore
      obtain ⟨q, hqm, -⟩ := task_frame (qs := []) (by simp) hmore ht hr
      cases hqm
    · rw [hw] at hmore
      obtain ⟨q, h1, h2, h3, -⟩ := sync_frame hp hts
      obtain ⟨q', hqm, rfl⟩ := task_frame (qs := [q]) (more := more ++ bs.drop n)
        (fun q' hm => by rw [List.mem_singleton.1 hm]; exact h1.ok)
        (by rw [← List.append_assoc, hmore]; simp [framesBytes, h3]) ht hr
      cases List.mem_singleton.1 hqm
      obtain ⟨e1, e2⟩ := sync_timeout hp h2.bytes h2.timeout
      exact ⟨e1, e2, fun d hd => task_deadline (LInv.run _ _ _) ht hr hd⟩

/-- Timeouts that are not sent: `invoke_sync` accepts any float and any integer, but a call with a float that is not 0, or
with an integer that takes more than 32 bits, is never encoded. (For what becomes of such calls see C62, C92 and C53.) -/
theorem C133_unsent (a : CallArgs) (p : Pkg) (hr : a.request = .ok p ∨ ∃ kd, kd ≠ .oneway ∧ aioRequest a kd = .ok p)
    (hw : ∀ x, wireTimeout .sync a.timeout = some x → x < -2 ^ 31 ∨ 2 ^ 31 ≤ x) : ∃ e, p.toStream = .error e := by
  cases hs : p.toStream with
  | error e => exact ⟨e, rfl⟩
  | ok bs =>
    exfalso
    have hc := (C04_encodable_iff p).1.1 ⟨bs, hs⟩
    rcases hr with hr | ⟨kd, hk, hr⟩
    · have hcl : p.cls = .boltRequest := by
        unfold CallArgs.request at hr
        split at hr
        · cases hr
        · cases hh : buildHeader a.heap _ a.interface a.method a.targetApp a.uid a.extra with
          | error e => rw [hh] at hr; cases hr
          | ok hd => rw [hh] at hr; exact ((mkPkg_ok_iff _ _ _ _ _).1 hr).1
      obtain ⟨x, hx, -⟩ := hc.2.1 (by rw [hcl]; rfl)
      obtain ⟨h1, h2, h3⟩ := sync_timeout hr hs hx
      have := hw x h1
      omega
    · have hcl : p.cls = .boltRequest := by
        obtain ⟨b, hdr, t, -, -, hb3⟩ := aioRequest_parts hr
        exact ((mkPkg_ok_iff _ _ _ _ _).1 hb3).1
      obtain ⟨x, hx, -⟩ := hc.2.1 (by rw [hcl]; rfl)
      obtain ⟨h1, h2, h3⟩ := aio_timeout hr hs hx
      have := hw x (by cases kd <;> first | exact absurd rfl hk | exact h1 | exact (wireTimeout_async _).symm.trans h1)
      omega

/-! ### examples -/

/-- a call with timeout 0 -/
def exCall0 : CallArgs := { exCall with timeout := .int 0 }

def exZeroPeer : Peer := ⟨exServices, exReg, [.data (exAioBytes exCall0)] ++ List.replicate 6 .reader ++ [.run 0 (py "t")]⟩

def exZero : List AEv := [.call (exAioReq exCall0), .start 0 exAddr, .dialed 0 true, .drained 0 true, .drained 0 true]

theorem exZero_joined : Joined (arun .from38 exZero) fun _ => exZeroPeer := by
  have h1 : (arun .from38 exZero).conns.map (fun k => (k.sent.map Prod.snd).flatten) = [received exZeroPeer.levs] := by
    decide +kernel
  have h2 : (arun .from38 exZero).conns.map AConn.recvd = [[]] := by decide +kernel
  constructor
  · intro n k hk
    have := congrArg (·[n]?) h1
    simp only [List.getElem?_map, hk, Option.map_some] at this
    cases n with
    | zero => simp only [List.getElem?_cons_zero, Option.some.injEq] at this; rw [this]; exact List.prefix_refl _
    | succ n => simp at this
  · intro n k hk
    have := congrArg (·[n]?) h2
    simp only [List.getElem?_map, hk, Option.map_some] at this
    cases n with
    | zero => simp only [List.getElem?_cons_zero, Option.some.injEq] at this; rw [this]; exact List.nil_prefix
    | succ n => simp at this

theorem exZero_ok : aioRequest exCall0 .sync = .ok (exAioReq exCall0) := by decide +kernel

/-- C133 fails: a caller that gives 0 gives up at once; the listener is told -1 and has no deadline. -/
theorem C133_violated : ¬ C133_full := by
  intro hf
  have h1 : (arun .from38 exZero).calls.map ACall.req = [exAioReq exCall0] := by decide +kernel
  have h2 : (arun .from38 exZero).conns.length = 1 := by decide +kernel
  have h3 : (exZeroPeer.st.tasks.map fun t => (match t.kind with | .dispatch r => some (r.id, r.timeout) | _ => none, t.st)) =
      [(some (7, -1), .waiting none)] := by decide +kernel
  obtain ⟨c, h4, h1⟩ := List.map_eq_singleton_iff.1 h1
  obtain ⟨k, h5⟩ := List.length_eq_one_iff.1 h2
  obtain ⟨tk, h6, h3⟩ := List.map_eq_singleton_iff.1 h3
  cases hk : tk.kind with
  | heartbeat id => rw [hk] at h3; cases h3
  | dispatch r =>
    rw [hk] at h3
    simp only [Option.some.injEq, Prod.mk.injEq] at h3
    have := hf .from38 exZero (fun _ => exZeroPeer) (by decide +kernel) exZero_joined
      (by intro c' hc'; rw [h4] at hc'; cases List.mem_singleton.1 hc'; exact .inl ⟨exCall0, .sync, by rw [h1]; exact exZero_ok⟩)
      0 c exCall0 0 0 k 0 tk r (by rw [h4]; rfl) (by rw [h1]; exact exZero_ok) rfl (by rw [h5]; rfl) (by rw [h6]; rfl) hk
      (by rw [h3.1.1]; rfl)
    rw [h3.1.2] at this
    cases this

/-- a positive timeout is what the listener applies -/
example : (exPeer.st.tasks.map fun t => match t.kind with | .dispatch r => some (r.id, r.timeout) | _ => none) =
    [some (7, 1000), some (9, 1000)] ∧ exCallA.timeout = .int 1000 := by decide +kernel

/-- a float is not sent -/
example : wireTimeout .sync (.obj true) = none ∧ (∃ p, ({ exCall with timeout := .obj true } : CallArgs).request = .ok p) := by
  refine ⟨rfl, ?_⟩
  cases h : ({ exCall with timeout := .obj true } : CallArgs).request with
  | ok p => exact ⟨p, rfl⟩
  | error e =>
    have : ({ exCall with timeout := .obj true } : CallArgs).request.toOption.isSome = true := by decide +kernel
    rw [h] at this
    cases this

end Bolt
