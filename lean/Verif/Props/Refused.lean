import Verif.Props.AioCallers
import Verif.Props.Timeouts
/-!
# C162: calls of the asyncio client that are refused
-/
namespace Bolt
open Spec

/-- numbers: `int` and, as an opaque object, `float` -/
inductive Spec.Number : PyObj → Prop
  | int (i : Int) : Number (.int i)
  | float (b : Bool) : Number (.obj b)

/-- no use is made of a timeout that is false -/
inductive Spec.UsableTimeout : PyObj → Prop
  | number {t : PyObj} (h : Number t) : UsableTimeout t
  | falsy {t : PyObj} (h : t.truthy = false) : UsableTimeout t

/-- C162 as listed: where a method raises instead of submitting its coroutine or waiting for it, the client is left as it
was. -/
def C162_full : Prop :=
  ∀ (v : PyVer) (evs : List CallersEv) (k : CallerKind) (a : CallArgs) (c : Caller) (e : PyExc),
    (callersRun v (evs ++ [.invoke k a])).callers.getLast? = some c → c.out = some (.error e) →
    (callersRun v (evs ++ [.invoke k a])).cli = (callersRun v evs).cli

theorem isNumber_iff (t : PyObj) : isNumber t = true ↔ Number t := by
  cases t with
  | int i => exact ⟨fun _ => .int i, fun _ => rfl⟩
  | obj b => exact ⟨fun _ => .float b, fun _ => rfl⟩
  | none => exact ⟨fun h => (by cases h), fun h => (by cases h)⟩
  | bytes b => exact ⟨fun h => (by cases h), fun h => (by cases h)⟩
  | str s => exact ⟨fun h => (by cases h), fun h => (by cases h)⟩

theorem divides_iff (t : PyObj) : divides t = true ↔ UsableTimeout t := by
  unfold divides
  rw [Bool.or_eq_true, isNumber_iff]
  constructor
  · rintro (h | h)
    · exact .falsy (by simpa using h)
    · exact .number h
  · rintro (h | h)
    · exact .inr h
    · exact .inl (by simpa using h)

/-- C162, what each method does at once, and when. `invoke_sync` refuses a timeout that is no number; what goes wrong in
building the request is raised; in both cases nothing is submitted. Otherwise the coroutine is submitted and the method
returns or waits, except that `invoke_async` with a callback raises a `TypeError`, having submitted it, for a timeout that
is neither a number nor false. -/
theorem C162_refused_partial (v : PyVer) (evs : List CallersEv) (k : CallerKind) (a : CallArgs) :
    ∃ c, (callersRun v (evs ++ [.invoke k a])).callers = (callersRun v evs).callers ++ [c] ∧ c.kind = k ∧ c.args = a ∧
    (k = .sync → ¬ Number a.timeout →
      c.out = some (.error .assertionError) ∧ (callersRun v (evs ++ [.invoke k a])).cli = (callersRun v evs).cli) ∧
    (∀ e, (k = .sync → Number a.timeout) → aioRequest a k.request = .error e →
      c.out = some (.error e) ∧ (callersRun v (evs ++ [.invoke k a])).cli = (callersRun v evs).cli) ∧
    (∀ p, (k = .sync → Number a.timeout) → aioRequest a k.request = .ok p →
      (callersRun v (evs ++ [.invoke k a])).cli = astep v (callersRun v evs).cli (.call p) ∧
      (k = .sync → c.out = none) ∧
      (k ≠ .sync → (k = .async true → UsableTimeout a.timeout) → c.out = some (.ok none)) ∧
      (k = .async true → ¬ UsableTimeout a.timeout → c.out = some (.error .typeError))) := by
  rw [callersRun_snoc]
  generalize callersRun v evs = s
  simp only [callersStep, CallersSt.invoke]
  split
  · next hs =>
    have hn : ¬ Number a.timeout := fun h => by
      rw [← isNumber_iff, hs.2] at h; cases h
    exact ⟨_, rfl, rfl, rfl, fun _ _ => ⟨rfl, rfl⟩, fun _ h => absurd (h hs.1) hn, fun _ h => absurd (h hs.1) hn⟩
  · next hs =>
    have hs' : k = .sync → ¬ Number a.timeout → False := fun hk hn => hs ⟨hk, by
      rw [← isNumber_iff] at hn; simpa using hn⟩
    cases hr : aioRequest a k.request with
    | error e =>
      exact ⟨_, rfl, rfl, rfl, fun hk hn => (hs' hk hn).elim, fun e' _ he => (by cases he; exact ⟨rfl, rfl⟩),
        fun p _ hp => (by cases hp)⟩
    | ok p =>
      refine ⟨_, rfl, rfl, rfl, fun hk hn => (hs' hk hn).elim, fun e' _ he => (by cases he), fun p' _ hp => ?_⟩
      cases hp
      refine ⟨rfl, fun hk => by simp [hk], fun hk hu => ?_, fun hk hu => ?_⟩
      · dsimp only
        rw [if_neg hk, if_neg]
        rintro ⟨h1, h2⟩
        have := (divides_iff a.timeout).2 (hu h1)
        rw [h2] at this; cases this
      · have : divides a.timeout = false := by
          rw [← divides_iff] at hu; simpa using hu
        subst hk
        simp [this]

/-- C162: the coroutine of a call that was refused after all never writes anything. -/
theorem C162_unwritten (v : PyVer) (evs more : List CallersEv) (a : CallArgs) (hu : ¬ UsableTimeout a.timeout) (p : Pkg)
    (hp : aioRequest a .async = .ok p) :
    let s := callersRun v (evs ++ .invoke (.async true) a :: more)
    let i := (callersRun v evs).cli.calls.length
    (∃ d, s.cli.calls[i]? = some d ∧ d.req = p) ∧ ∀ k ∈ s.cli.conns, ∀ bs, (i, bs) ∉ k.sent := by
  intro s i
  have herr : ∃ e, p.toStream = .error e := by
    refine C133_unsent a p (.inr ⟨.async, (by simp), hp⟩) fun x hx => ?_
    exfalso
    refine hu ?_
    cases ht : a.timeout with
    | int i => exact .number (.int i)
    | obj b => exact .number (.float b)
    | none => exact .falsy rfl
    | bytes b =>
      rw [ht] at hx; simp only [wireTimeout] at hx
      split at hx
      · cases hx
      · next h => exact .falsy (by simpa using h)
    | str b =>
      rw [ht] at hx; simp only [wireTimeout] at hx
      split at hx
      · cases hx
      · next h => exact .falsy (by simpa using h)
  have hs1 : (callersRun v (evs ++ [.invoke (.async true) a])).cli.calls[i]? = some { req := p } := by
    rw [callersRun_snoc]
    simp only [callersStep, CallersSt.invoke, CallerKind.request, hp]
    simp [astep, i]
  have hd : ∃ d, s.cli.calls[i]? = some d ∧ d.req = p := by
    have hinv := CallersInv.run v (evs ++ .invoke (.async true) a :: more)
    have hinv1 := CallersInv.run v (evs ++ [.invoke (.async true) a])
    have hl : loopOf (evs ++ .invoke (.async true) a :: more) = loopOf (evs ++ [.invoke (.async true) a]) ++ loopOf more := by
      rw [← loopOf_append]; simp
    show ∃ d, (callersRun v _).cli.calls[i]? = some d ∧ _
    rw [hinv.cli, hl]
    rw [hinv1.cli] at hs1
    obtain ⟨d, h1, h2, -⟩ := call_persist v _ (loopOf more) hs1
    exact ⟨d, h1, h2⟩
  refine ⟨hd, fun k hk bs hm => ?_⟩
  have hcli : s.cli = arun v (loopOf (evs ++ .invoke (.async true) a :: more)) := (CallersInv.run v _).cli
  rw [hcli] at hk
  obtain ⟨d', h1, h2⟩ := (C60_on_the_wire v _ i).2 k hk bs hm
  obtain ⟨d, h3, h4⟩ := hd
  rw [hcli, h1] at h3
  cases h3
  obtain ⟨e, he⟩ := herr
  rw [h4, he] at h2
  cases h2

/-- a timeout given as a string -/
def exStrTimeout : CallArgs := { exCall with timeout := .str (py "1000") }

theorem exStr_ok : aioRequest exStrTimeout .async = .ok (exAioReq exStrTimeout) := by decide +kernel

theorem exStr_unusable : ¬ UsableTimeout exStrTimeout.timeout := by
  rintro (h | h)
  · cases h
  · revert h; decide

/-- C162 fails: `invoke_async` with a callback and a timeout that is a string raises, but the coroutine is on its way. -/
theorem C162_violated : ¬ C162_full := by
  intro h
  obtain ⟨c, h1, -, -, -, -, h2⟩ := C162_refused_partial .from38 [] (.async true) exStrTimeout
  obtain ⟨h3, -, -, h4⟩ := h2 _ (fun h => by cases h) exStr_ok
  have := h .from38 [] (.async true) exStrTimeout c .typeError (by rw [h1]; simp) (h4 rfl exStr_unusable)
  rw [h3] at this
  have h5 := congrArg (fun s : ASt => s.calls.length) this
  simp [astep, callersRun] at h5

set_option maxRecDepth 20000 in
/-- its coroutine tries three times and writes nothing; the other methods with the same timeout -/
example : (callersRun .from38 [.invoke (.async true) exStrTimeout, .loop (.start 0 exAddr), .loop (.dialed 0 true),
      .loop (.drained 0 true), .loop (.dialed 0 true), .loop (.drained 0 true), .loop (.dialed 0 true),
      .loop (.drained 0 true)]).cli.conns.map AConn.sent = [[], [], []] ∧
    (callersRun .from38 [.invoke .sync exStrTimeout, .invoke (.async false) exStrTimeout, .invoke .oneway exStrTimeout,
      .invoke (.async true) { exCall with timeout := .none }]).callers.map (fun c => (c.out, c.call)) =
      [(some (.error .assertionError), none), (some (.ok none), some 0), (some (.ok none), some 1), (some (.ok none), some 2)] := by
  decide +kernel

end Bolt
