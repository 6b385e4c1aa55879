import Verif.Props.SyncClient
/-!
# C91, C92: sending the request of a synchronous call
-/
namespace Bolt
open Spec

/-! ## C91 -/

/-- C91 as listed: what a synchronous call puts on the wire is its whole frame. -/
def C91_full : Prop :=
  ∀ (a : CallArgs) (p : Pkg) (bs : Bytes) (env : Nat → Attempt Nat), a.request = .ok p → p.toStream = .ok bs →
    ∀ c out, (c, out) ∈ (rawInvoke a env).2.wire → out = bs

/-- C91 fails: `conn.send` may accept only a part; its return value is ignored, `_raw_invoke` reports success and the
rest of the frame is never sent. This happens for every encodable request and every part. -/
theorem C91_violated : ¬ C91_full ∧
    ∀ (a : CallArgs) (p : Pkg) (bs : Bytes) (n : Nat), a.request = .ok p → p.toStream = .ok bs → n < bs.length →
      ∃ env : Nat → Attempt Nat, (rawInvoke a env).1 = .ok (a.id, 0) ∧
        (rawInvoke a env).2.wire = [(0, bs.take n)] ∧ bs.take n ≠ bs := by
  have key : ∀ (a : CallArgs) (p : Pkg) (bs : Bytes) (n : Nat), a.request = .ok p → p.toStream = .ok bs →
      n < bs.length → ∃ env : Nat → Attempt Nat, (rawInvoke a env).1 = .ok (a.id, 0) ∧
        (rawInvoke a env).2.wire = [(0, bs.take n)] ∧ bs.take n ≠ bs := by
    intro a p bs n hp hs hn
    refine ⟨fun _ => ⟨.ok 0, .ok n⟩, ?_, ?_, ?_⟩
    · simp only [rawInvoke, hp, hs, attemptLoop, Bool.false_eq_true, if_false]
    · simp only [rawInvoke, hp, hs, attemptLoop]
    · intro e
      have := congrArg List.length e
      rw [List.length_take] at this
      omega
  refine ⟨fun h => ?_, key⟩
  obtain ⟨p, bs, hp, hs⟩ := exCall_ok
  have hl : 0 < bs.length := by
    obtain ⟨id, c, t, -, -, -, -, -, rfl⟩ := (toStream_ok_iff p bs).1 hs
    rw [frame_length]
    split <;> omega
  obtain ⟨env, -, h2, h3⟩ := key exCall p bs 0 hp hs hl
  exact h3 (h exCall p bs env hp hs 0 (bs.take 0) (by rw [h2]; simp))

/-- C91, what holds: the bytes sent are always a beginning of the frame, sent at most once and on one connection; they
are the whole frame if the operating system takes all bytes it is given. -/
theorem C91_whole_partial {C : Type} (a : CallArgs) (p : Pkg) (bs : Bytes) (env : Nat → Attempt C)
    (hp : a.request = .ok p) (hs : p.toStream = .ok bs) :
    (rawInvoke a env).2.wire = [] ∨ ∃ c out, (rawInvoke a env).2.wire = [(c, out)] ∧ out <+: bs ∧
      ((∀ i n, (env i).send = .ok n → bs.length ≤ n) → out = bs) := by
  obtain ⟨-, -, h⟩ := C53_at_most_once a p hp env
  rcases h with ⟨h, -⟩ | ⟨c, b, h1, -, -, -, bs', n, h2, h3, h4⟩
  · exact .inl h
  · rw [hs] at h2
    cases h2
    refine .inr ⟨c, b, h1, ?_, fun hall => ?_⟩
    · rw [h4]; exact List.take_prefix _ _
    · rw [h4]; exact List.take_of_length_le (hall _ _ h3)

/-! ## C92 -/

/-- C92 as listed: a synchronous call whose request was not sent at all ends with an exception without waiting for a
response. (`evs = []`: nothing has been received yet and no time has passed.) -/
def C92_full : Prop :=
  ∀ (a : CallArgs) (t : Int) (env : Nat → Attempt Nat) (stream : Bytes),
    (rawInvoke { a with timeout := .int t, ptype := .request } env).2.wire = [] →
    (rawInvoke { a with timeout := .int t, ptype := .request } env).1 ≠ .hang →
    ∃ e, invokeSync a (.int t) env true stream [] = .ended (.error e)

/-- the last attempt got a connection but the request was not sent on it -/
theorem sync_unsent_waits {C : Type} (a : CallArgs) (t : Int) (env : Nat → Attempt C) (i : Int) (c : C)
    (h : (rawInvoke { a with timeout := .int t, ptype := .request } env).1 = .ok (i, c)) (stream : Bytes)
    (evs : List RecvEv) :
    invokeSync a (.int t) env true stream evs =
      match (recvRun a.id stream evs).out with
      | none => .waiting
      | some r => .ended r := by
  have hid := rawInvoke_id h
  simp only at hid
  subst hid
  unfold invokeSync
  simp only [TimeoutArg.obj, h, Bool.not_true, Bool.false_eq_true, if_false]
  cases (recvRun a.id stream evs).out <;> rfl

theorem recv_silent (reqId : Int) (ns : List Nat) :
    recvRun reqId [] (ns.map RecvEv.recv) = { rest := [] } := by
  have one : ∀ n, recvStep reqId { rest := [] } (.recv n) = { rest := [] } := by
    intro n
    simp only [recvStep, List.take_nil, List.drop_nil, List.append_nil]
    rfl
  unfold recvRun
  induction ns with
  | nil => rfl
  | cons n ns ih => rw [List.map_cons, List.foldl_cons, one, ih]

/-- C92 fails: exceptions of `send` and of `to_stream` are logged and dropped. The call then waits for the response to
a request that was never sent, and can only end by its timeout or a failure of the connection. This is so for every
call whose last attempt got a connection: here for every exception of `send`, and for every request that cannot be
encoded. -/
theorem C92_violated : ¬ C92_full ∧
    (∀ (a : CallArgs) (t : Int) (p : Pkg) (e : PyExc),
      ({ a with timeout := .int t, ptype := .request } : CallArgs).request = .ok p →
      ∃ env : Nat → Attempt Nat, env 0 = ⟨.ok 0, .fail e⟩ ∧
        (rawInvoke { a with timeout := .int t, ptype := .request } env).2.wire = [] ∧
        ∀ ns : List Nat, invokeSync a (.int t) env true [] (ns.map .recv) = .waiting) ∧
    (∀ (a : CallArgs) (t : Int) (p : Pkg) (e : PyExc) (env : Nat → Attempt Nat),
      ({ a with timeout := .int t, ptype := .request } : CallArgs).request = .ok p → p.toStream = .error e →
      (∃ c, (env 0).getConn = .ok c) →
        ∀ ns : List Nat, invokeSync a (.int t) env true [] (ns.map .recv) = .waiting) := by
  have k1 : ∀ (a : CallArgs) (t : Int) (p : Pkg) (e : PyExc),
      ({ a with timeout := .int t, ptype := .request } : CallArgs).request = .ok p →
      ∃ env : Nat → Attempt Nat, env 0 = ⟨.ok 0, .fail e⟩ ∧
        (rawInvoke { a with timeout := .int t, ptype := .request } env).1 = .ok (a.id, 0) ∧
        (rawInvoke { a with timeout := .int t, ptype := .request } env).2.wire = [] ∧
        ∀ ns : List Nat, invokeSync a (.int t) env true [] (ns.map .recv) = .waiting := by
    intro a t p e hp
    refine ⟨fun _ => ⟨.ok 0, .fail e⟩, rfl, ?_, ?_, ?_⟩
    · unfold rawInvoke
      rw [hp]
      cases hs : p.toStream <;> simp [attemptLoop, hs]
    · unfold rawInvoke
      rw [hp]
      cases hs : p.toStream <;> simp [attemptLoop, hs]
    · intro ns
      rw [sync_unsent_waits a t _ a.id 0 (by
        unfold rawInvoke
        rw [hp]
        cases hs : p.toStream <;> simp [attemptLoop, hs]), recv_silent]
  refine ⟨fun h => ?_, ?_, ?_⟩
  · obtain ⟨p, bs, hp, hs⟩ := exCall_ok
    obtain ⟨env, -, h2, h3, h4⟩ := k1 exCall 1000 p .connectionError hp
    obtain ⟨e, he⟩ := h exCall 1000 env [] h3 (by rw [h2]; intro h; cases h)
    have := h4 []
    rw [List.map_nil, he] at this
    cases this
  · intro a t p e hp
    obtain ⟨env, h1, -, h3, h4⟩ := k1 a t p e hp
    exact ⟨env, h1, h3, h4⟩
  · intro a t p e env hp hs ⟨c, hc⟩ ns
    rw [sync_unsent_waits a t env a.id c (by
      unfold rawInvoke
      rw [hp]
      simp [attemptLoop, hs, hc]), recv_silent]

/-- C92, what holds: a call fails at once if its request cannot be built (with that cause), or if no attempt got a
connection (with a NameError instead of the cause). -/
theorem C92_at_once_partial {C : Type} (a : CallArgs) (t : Int) (env : Nat → Attempt C) (reg : Bool) (stream : Bytes)
    (evs : List RecvEv) :
    (∀ e, ({ a with timeout := .int t, ptype := .request } : CallArgs).request = .error e →
      invokeSync a (.int t) env reg stream evs = .ended (.error e)) ∧
    (∀ p, ({ a with timeout := .int t, ptype := .request } : CallArgs).request = .ok p →
      (∀ i, i < 3 → ∃ e, (env i).getConn = .error e) →
      invokeSync a (.int t) env reg stream evs = .ended (.error .nameError)) := by
  constructor
  · intro e he
    unfold invokeSync
    simp only [TimeoutArg.obj, rawInvoke, he]
  · intro p hp hall
    have hl : ∀ k i, k + i ≤ 3 → (attemptLoop p.toStream env k i none).conn = none ∧
        (attemptLoop p.toStream env k i none).hung = false := by
      intro k
      induction k with
      | zero => intro i _; exact ⟨rfl, rfl⟩
      | succ k ih =>
        intro i hi
        obtain ⟨e, he⟩ := hall i (by omega)
        unfold attemptLoop
        rw [he]
        cases e <;> first | exact ih (i + 1) (by omega) | exact ⟨rfl, rfl⟩
    obtain ⟨h1, h2⟩ := hl 3 0 (by omega)
    unfold invokeSync
    simp only [TimeoutArg.obj, rawInvoke, hp, h1, h2, Bool.false_eq_true, if_false]

/-- a request that can be built but not encoded (the timeout does not fit), and one that cannot be built -/
example : (∃ p, ({ exCall with timeout := .int (2 ^ 31), ptype := .request } : CallArgs).request = .ok p ∧
      p.toStream = .error .encodeError) ∧
    ({ exCall with ctx := none } : CallArgs).request = .error .attributeError := by
  refine ⟨⟨_, rfl, ?_⟩, rfl⟩
  decide +kernel

end Bolt
