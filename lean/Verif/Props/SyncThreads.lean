import Verif.Model.SyncThreads
import Verif.Props.SyncPools
import Verif.Props.EndToEndServer
import Verif.Props.SockServer
/-!
# C151: threads sharing a synchronous client
-/
namespace Bolt
open Spec

/-- what `get_conn` and `send` did, as an environment of `_raw_invoke` -/
def Spec.triedEnv (tried : List (Attempt ConnId)) : Nat → Attempt ConnId :=
  fun j => tried.getD j ⟨.error .nameError, .hang⟩

/-- what `get_conn` and `send` did in the rounds of a call -/
def SyCall.env (c : SyCall) : Nat → Attempt ConnId := triedEnv c.tried

/-- what call `i` has written -/
def Spec.syWritten (s : SySt) (i : Nat) : List (ConnId × Bytes) := (s.wire.filter fun x => x.1 == i).map Prod.snd

/-- all bytes written on a connection, by whichever calls -/
def Spec.syOn (s : SySt) (x : ConnId) : Bytes := ((s.wire.filter fun y => y.2.1 == x).map fun y => y.2.2).flatten

/-- Call `c` fares as one call does that is alone: what it has written and how it has ended is what `invoke_sync` does when
`get_conn`, `send` and the rounds of the receiving loop do what they did, and the loop reads what the peer sends on its
connection; or `invoke_sync` would have ended there and line 134 has raised an exception. -/
def Spec.SyAlone (peer : ConnId → Bytes) (written : List (ConnId × Bytes)) (c : SyCall) (t : TimeoutArg)
    (r : Except PyExc PyObj) : Prop :=
  ∃ (reg : Bool) (stream : Bytes) (o : Except PyExc PyObj),
    invokeSync c.args t c.env reg stream c.rounds = .ended o ∧
    (r = o ∨ ∃ e, r = .error e) ∧
    (∀ x, (rawInvoke (syArgs c.args (some t)) c.env).1 = .ok x → stream = peer x.2 ∧ c.conn = some x.2) ∧
    written = (rawInvoke (syArgs c.args (some t)) c.env).2.wire

/-- The same for `invoke_oneway`: a call that gets as far as line 97 returns `None`, unless that line raises. -/
def Spec.SyAloneOneway (written : List (ConnId × Bytes)) (c : SyCall) (r : Except PyExc PyObj) : Prop :=
  (match (invokeOneway c.args c.env).1 with
    | .ok _ => r = .ok .none ∨ ∃ e, r = .error e
    | .raise e => r = .error e
    | .hang => False) ∧
  written = (invokeOneway c.args c.env).2.wire

theorem invokeOneway_raw {C : Type} (a : CallArgs) (env : Nat → Attempt C) :
    (invokeOneway a env).1 = (match (rawInvoke (syArgs a none) env).1 with
      | .hang => .hang | .raise e => .raise e | .ok _ => .ok ()) ∧
    (invokeOneway a env).2 = (rawInvoke (syArgs a none) env).2 := by
  unfold invokeOneway
  show _ ∧ _
  have e : ({ a with timeout := .none, ptype := .oneway } : CallArgs) = syArgs a none := rfl
  rw [e]
  obtain ⟨x, y⟩ := rawInvoke (syArgs a none) env
  cases x <;> exact ⟨rfl, rfl⟩

/-- the environments that agree with what has happened -/
def Agrees (tried : List (Attempt ConnId)) (env : Nat → Attempt ConnId) : Prop :=
  ∀ (j : Nat) (a : Attempt ConnId), tried[j]? = some a → env j = a

theorem SyCall.agrees (c : SyCall) : Agrees c.tried c.env := by
  intro j a h
  simp [SyCall.env, triedEnv, h]

/-- in the loop, with `old` in the variable `conn` -/
structure InLoop (w : List (ConnId × Bytes)) (c : SyCall) (old : Option ConnId) : Prop where
  req : ∃ p, (syArgs c.args c.timeout).request = .ok p ∧ c.stream = p.toStream
  other : ∀ o, c.timeout ≠ some (.other o)
  len : c.tried.length + c.left = 3
  pos : 0 < c.left
  loop : ∀ env, Agrees c.tried env →
    attemptLoop c.stream env 3 0 none = attemptLoop c.stream env c.left c.tried.length old
  wire : w = []
  fresh : c.rounds = []

/-- after the loop -/
structure OutLoop (w : List (ConnId × Bytes)) (c : SyCall) : Prop where
  req : ∃ p, (syArgs c.args c.timeout).request = .ok p ∧ c.stream = p.toStream
  other : ∀ o, c.timeout ≠ some (.other o)
  hung : (attemptLoop c.stream c.env 3 0 none).hung = false
  conn : (attemptLoop c.stream c.env 3 0 none).conn = c.conn
  wire : (attemptLoop c.stream c.env 3 0 none).wire = w

theorem OutLoop.raw {w : List (ConnId × Bytes)} {c : SyCall} (h : OutLoop w c) :
    (rawInvoke (syArgs c.args c.timeout) c.env).1 =
      (match c.conn with | none => .raise .nameError | some x => .ok (c.args.id, x)) ∧
    (rawInvoke (syArgs c.args c.timeout) c.env).2.wire = w := by
  obtain ⟨p, hp, hs⟩ := h.req
  unfold rawInvoke
  rw [hp]
  dsimp only
  rw [← hs, h.conn]
  refine ⟨?_, h.wire⟩
  rw [h.hung]
  have : (syArgs c.args c.timeout).id = c.args.id := by
    cases c.timeout <;> rfl
  rw [this]
  cases c.conn <;> simp

def SyOk (peer : ConnId → Bytes) (w : List (ConnId × Bytes)) (c : SyCall) : Prop :=
  match c.pc with
  | .attempt => InLoop w c c.conn
  | .pooled m _ => InLoop w c c.conn ∧ m ∈ c.mine
  | .got x => (∃ old, InLoop w c old) ∧ c.conn = some x
  | .hung => w = [] ∨ OutLoop w c
  | .reading x r => OutLoop w c ∧ c.conn = some x ∧ c.timeout ≠ none ∧ r = recvRun c.args.id (peer x) c.rounds ∧ r.out = none
  | .putting x o => OutLoop w c ∧ c.conn = some x ∧
      (c.timeout ≠ none → (recvRun c.args.id (peer x) c.rounds).out = some o) ∧ (c.timeout = none → o = .ok .none)
  | .ended r =>
    match c.timeout with
    | none => SyAloneOneway w c r
    | some t => SyAlone peer w c t r

/-- the end of a call that was reading -/
theorem alone_read {peer : ConnId → Bytes} {w : List (ConnId × Bytes)} {c : SyCall} {t : TimeoutArg} {x : ConnId}
    {o r : Except PyExc PyObj} (h : OutLoop w c) (hx : c.conn = some x) (ht : c.timeout = some t)
    (ho : (recvRun c.args.id (peer x) c.rounds).out = some o) (hr : r = o ∨ ∃ e, r = .error e) : SyAlone peer w c t r := by
  obtain ⟨h1, h2⟩ := h.raw
  rw [hx, ht] at h1
  rw [ht] at h2
  dsimp only at h1
  refine ⟨true, peer x, o, ?_, hr, ?_, h2.symm⟩
  · unfold invokeSync
    have e : ({ c.args with timeout := t.obj, ptype := .request } : CallArgs) = syArgs c.args (some t) := rfl
    cases t with
    | other o => exact absurd ht (h.other o)
    | int i => simp only [e, h1, ho]; rfl
    | float b => simp only [e, h1, ho]; rfl
  · intro y hy
    rw [h1] at hy
    injection hy with hy
    subst hy
    exact ⟨rfl, hx⟩

theorem SyOk.start (peer : ConnId → Bytes) (a : CallArgs) (t : Option TimeoutArg) : SyOk peer [] (syStart a t) := by
  have hraise : ∀ e, (syArgs a t).request = .error e → SyOk peer []
      { args := a, timeout := t, stream := .error e, pc := .ended (.error e) } := by
    intro e he
    have hraw : ∀ env : Nat → Attempt ConnId, rawInvoke (syArgs a t) env =
        (.raise e, { attempts := 0, conn := none }) := by
      intro env; unfold rawInvoke; rw [he]
    cases t with
    | none =>
      show SyAloneOneway _ _ _
      obtain ⟨h1, h2⟩ := invokeOneway_raw a (triedEnv [])
      rw [hraw] at h1 h2
      refine ⟨?_, ?_⟩
      · show (match (invokeOneway a (triedEnv [])).1 with | .ok _ => _ | .raise e => _ | .hang => False)
        rw [h1]
      · show _ = (invokeOneway a (triedEnv [])).2.wire
        rw [h2]
    | some t =>
      show SyAlone _ _ _ _ _
      by_cases ho : ∃ o, t = .other o
      · obtain ⟨o, rfl⟩ := ho
        refine ⟨true, [], .error .assertionError, rfl, .inr ⟨e, rfl⟩, ?_, ?_⟩
        · intro x hx; rw [hraw] at hx; cases hx
        · rw [hraw]
      · refine ⟨true, [], .error e, ?_, .inl rfl, ?_, ?_⟩
        · unfold invokeSync
          have e' : ({ a with timeout := t.obj, ptype := .request } : CallArgs) = syArgs a (some t) := rfl
          cases t with
          | other o => exact absurd ⟨o, rfl⟩ ho
          | int i => simp only [e', hraw]
          | float b => simp only [e', hraw]
        · intro x hx; rw [hraw] at hx; cases hx
        · rw [hraw]
  unfold syStart
  split
  · rename_i o
    have hraw : ∀ a' : CallArgs, (∀ x, (rawInvoke a' fun _ => (⟨.error .nameError, .hang⟩ : Attempt ConnId)).1 ≠ .ok x) ∧
        (rawInvoke a' fun _ => (⟨.error .nameError, .hang⟩ : Attempt ConnId)).2.wire = [] := by
      intro a'
      unfold rawInvoke
      cases a'.request with
      | error e => exact ⟨fun x h => (by cases h), rfl⟩
      | ok p => exact ⟨fun x h => (by cases h), rfl⟩
    show SyAlone _ _ _ _ _
    refine ⟨true, [], .error .assertionError, rfl, .inl rfl, ?_, ?_⟩
    · intro x hx; exact absurd hx ((hraw _).1 x)
    · exact (hraw _).2.symm
  · rename_i hne
    split
    · exact hraise _ ‹_›
    · rename_i p hp
      exact ⟨⟨p, hp, rfl⟩, fun o h => hne o h, rfl, (by decide : 0 < 3), fun env _ => rfl, rfl, rfl⟩

theorem Agrees.snoc {l : List (Attempt ConnId)} {a : Attempt ConnId} {env : Nat → Attempt ConnId}
    (h : Agrees (l ++ [a]) env) : Agrees l env ∧ env l.length = a := by
  refine ⟨fun j b hj => h j b ?_, h _ a (by simp)⟩
  rw [List.getElem?_append_left (List.getElem?_eq_some_iff.1 hj).1]
  exact hj

theorem SyOk.leave {peer : ConnId → Bytes} {w : List (ConnId × Bytes)} {c : SyCall} (p : CliPools) (h : OutLoop w c)
    (hf : c.rounds = []) : SyOk peer w (syLeave peer p c) := by
  obtain ⟨h1, h2⟩ := h.raw
  obtain ⟨a, t, st, l, cn, pc, mi, tr, ro⟩ := c
  dsimp only at hf
  subst hf
  unfold SyCall.env at h1 h2
  unfold syLeave
  dsimp only at h1 h2 ⊢
  cases cn with
  | none =>
    dsimp only at h1 ⊢
    cases t with
    | none =>
      obtain ⟨k1, k2⟩ := invokeOneway_raw a (triedEnv tr)
      rw [h1] at k1
      refine ⟨?_, ?_⟩
      · show (match (invokeOneway a (triedEnv tr)).1 with | .ok _ => _ | .raise e => _ | .hang => False)
        rw [k1]
      · show _ = (invokeOneway a (triedEnv tr)).2.wire
        rw [k2]; exact h2.symm
    | some t =>
      refine ⟨true, [], .error .nameError, ?_, .inl rfl, ?_, h2.symm⟩
      · unfold invokeSync SyCall.env
        have e : ({ a with timeout := t.obj, ptype := .request } : CallArgs) = syArgs a (some t) := rfl
        cases t with
        | other o => exact absurd rfl (h.other o)
        | int i => simp only [e, h1]
        | float b => simp only [e, h1]
      · intro y hy; unfold SyCall.env at hy; rw [h1] at hy; cases hy
  | some x =>
    dsimp only at h1 ⊢
    cases t with
    | none =>
      exact ⟨⟨h.req, h.other, h.hung, h.conn, h.wire⟩, rfl, fun hn => absurd rfl hn, fun _ => rfl⟩
    | some t =>
      dsimp only
      split
      · refine ⟨false, peer x, .error .valueError, ?_, .inl rfl, ?_, h2.symm⟩
        · unfold invokeSync SyCall.env
          have e : ({ a with timeout := t.obj, ptype := .request } : CallArgs) = syArgs a (some t) := rfl
          cases t with
          | other o => exact absurd rfl (h.other o)
          | int i => simp only [e, h1]; rfl
          | float b => simp only [e, h1]; rfl
        · intro y hy
          unfold SyCall.env at hy
          rw [h1] at hy
          injection hy with hy
          subst hy
          exact ⟨rfl, rfl⟩
      · exact ⟨⟨h.req, h.other, h.hung, h.conn, h.wire⟩, rfl, (by simp), rfl, rfl⟩

/-- `break` -/
theorem SyOk.brk {peer : ConnId → Bytes} {w : List (ConnId × Bytes)} {c : SyCall} (p : CliPools) {old : Option ConnId}
    {a : Attempt ConnId} (h : InLoop [] c old)
    (hb : ∀ env k i, env i = a → (attemptLoop c.stream env (k + 1) i old).hung = false ∧
      (attemptLoop c.stream env (k + 1) i old).conn = c.conn ∧ (attemptLoop c.stream env (k + 1) i old).wire = w) :
    SyOk peer w (syBreak peer p c a) := by
  have ha := SyCall.agrees { c with tried := c.tried ++ [a] }
  obtain ⟨h1, h2⟩ := Agrees.snoc ha
  have key : ∀ env, Agrees c.tried env → env c.tried.length = a → (attemptLoop c.stream env 3 0 none).hung = false ∧
      (attemptLoop c.stream env 3 0 none).conn = c.conn ∧ (attemptLoop c.stream env 3 0 none).wire = w := by
    intro env he ha
    obtain ⟨k, hk⟩ : ∃ k, c.left = k + 1 := ⟨c.left - 1, by have := h.pos; omega⟩
    rw [h.loop env he, hk]
    exact hb env k _ ha
  obtain ⟨b1, b2, b3⟩ := key _ h1 h2
  exact SyOk.leave p ⟨h.req, h.other, b1, b2, b3⟩ h.fresh

/-- `continue` -/
theorem SyOk.again {peer : ConnId → Bytes} {c : SyCall} (p : CliPools) {old : Option ConnId}
    {a : Attempt ConnId} (h : InLoop [] c old)
    (hb : ∀ env k i, env i = a → attemptLoop c.stream env (k + 1) i old = attemptLoop c.stream env k (i + 1) c.conn) :
    SyOk peer [] (syAgain peer p c a) := by
  have hp := h.pos
  have hl := h.len
  have step : ∀ env, Agrees (c.tried ++ [a]) env →
      attemptLoop c.stream env 3 0 none = attemptLoop c.stream env (c.left - 1) (c.tried.length + 1) c.conn := by
    intro env he
    obtain ⟨h1, h2⟩ := Agrees.snoc he
    obtain ⟨k, hk⟩ : ∃ k, c.left = k + 1 := ⟨c.left - 1, by omega⟩
    rw [h.loop _ h1, hk, hb _ k _ h2]
    rfl
  unfold syAgain
  dsimp only
  split
  · rename_i h0
    have h0 : c.left - 1 = 0 := h0
    rw [h0] at step
    have ha := step _ (SyCall.agrees { c with left := c.left - 1, pc := .attempt, tried := c.tried ++ [a] })
    exact SyOk.leave p ⟨h.req, h.other, by dsimp only at ha ⊢; rw [ha]; rfl, by dsimp only at ha ⊢; rw [ha]; rfl,
      by dsimp only at ha ⊢; rw [ha]; rfl⟩ h.fresh
  · rename_i h0
    refine ⟨h.req, h.other, ?_, ?_, ?_, rfl, h.fresh⟩
    · simp; omega
    · show 0 < c.left - 1; omega
    · intro env he
      rw [show (c.tried ++ [a]).length = c.tried.length + 1 by simp]
      exact step env he

/-- an exception in line 75 -/
theorem SyOk.raise {peer : ConnId → Bytes} {c : SyCall} (p : CliPools) (e : PyExc) (h : InLoop [] c c.conn) :
    SyOk peer [] (syRaise peer p c e) := by
  unfold syRaise
  split
  · refine SyOk.again p h fun env k i hi => ?_
    rw [attemptLoop, hi]
  · rename_i hne
    refine SyOk.brk p h fun env k i hi => ?_
    rw [attemptLoop, hi]
    dsimp only
    split
    · rename_i heq
      injection heq with heq
      exact absurd heq hne
    · exact ⟨rfl, rfl, rfl⟩
    · rename_i heq; cases heq

theorem getPool_len (w : CliPools) (a : PyStr × Int) :
    (getPool w a).1.mgrs.length = w.mgrs.length + 1 ∧ (getPool w a).2.1 = w.mgrs.length := by
  simp [getPool]

theorem getConnOf_len (w : CliPools) (m : Nat) (p : PoolRef) (r : Bool) :
    (getConnOf w m p r).1.mgrs.length = w.mgrs.length := by
  unfold getConnOf
  split <;> simp

theorem getConnOf_mgr {w : CliPools} {m : Nat} {p : PoolRef} {r : Bool} {x : ConnId}
    (h : (getConnOf w m p r).2 = .ok x) : x.mgr = m := by
  unfold getConnOf at h
  split at h
  · cases h
  · dsimp only at h
    split at h
    · injection h with h; subst h; rfl
    · cases h
    · cases h

/-- The calls share nothing: each has managers, hence connections, of its own. -/
structure SyInv (peer : ConnId → Bytes) (s : SySt) : Prop where
  ok : ∀ (i : Nat) (c : SyCall), s.calls[i]? = some c → SyOk peer (syWritten s i) c
  below : ∀ (i : Nat) (c : SyCall), s.calls[i]? = some c → ∀ m ∈ c.mine, m < s.pools.mgrs.length
  conn : ∀ (i : Nat) (c : SyCall) (x : ConnId), s.calls[i]? = some c → c.conn = some x → x.mgr ∈ c.mine
  apart : ∀ (i j : Nat) (c d : SyCall) (m : Nat), s.calls[i]? = some c → s.calls[j]? = some d → m ∈ c.mine → m ∈ d.mine → i = j
  wire : ∀ (i : Nat) (x : ConnId) (bs : Bytes), (i, x, bs) ∈ s.wire → ∃ c : SyCall, s.calls[i]? = some c ∧ x.mgr ∈ c.mine

/-- call `i` makes a step -/
theorem SyInv.set {peer : ConnId → Bytes} {s : SySt} (h : SyInv peer s) {i : Nat} {c : SyCall}
    (hc : s.calls[i]? = some c) (c' : SyCall) (w' : CliPools) (add : List (Nat × ConnId × Bytes))
    (hlen : s.pools.mgrs.length ≤ w'.mgrs.length)
    (hmine : ∀ m ∈ c'.mine, m ∈ c.mine ∨ (s.pools.mgrs.length ≤ m ∧ m < w'.mgrs.length))
    (hkeep : ∀ m ∈ c.mine, m ∈ c'.mine)
    (hconn : ∀ x, c'.conn = some x → x.mgr ∈ c'.mine)
    (hadd : ∀ y ∈ add, y.1 = i ∧ y.2.1.mgr ∈ c.mine)
    (hok : SyOk peer (syWritten s i ++ add.map Prod.snd) c') :
    SyInv peer { calls := s.calls.set i c', pools := w', wire := s.wire ++ add } := by
  have hi := (List.getElem?_eq_some_iff.1 hc).1
  have get : ∀ (j : Nat) (d : SyCall), (s.calls.set i c')[j]? = some d → (j = i ∧ d = c') ∨ (j ≠ i ∧ s.calls[j]? = some d) := by
    intro j d hj
    by_cases e : j = i
    · subst e
      rw [List.getElem?_set_self hi] at hj
      injection hj with hj
      exact .inl ⟨rfl, hj.symm⟩
    · rw [List.getElem?_set_ne (fun e' => e e'.symm)] at hj
      exact .inr ⟨e, hj⟩
  have hw : ∀ j, syWritten { calls := s.calls.set i c', pools := w', wire := s.wire ++ add } j =
      syWritten s j ++ if j = i then add.map Prod.snd else [] := by
    intro j
    simp only [syWritten, List.filter_append, List.map_append]
    congr 1
    by_cases e : j = i
    · subst e
      rw [if_pos rfl, List.filter_eq_self.2]
      intro y hy
      simp [(hadd y hy).1]
    · rw [if_neg e, List.filter_eq_nil_iff.2]
      · rfl
      · intro y hy
        simp [(hadd y hy).1]
        exact fun e' => e e'.symm
  constructor
  · intro j d hj
    rw [hw]
    rcases get j d hj with ⟨rfl, rfl⟩ | ⟨e, hj⟩
    · rw [if_pos rfl]; exact hok
    · rw [if_neg e, List.append_nil]; exact h.ok j d hj
  · intro j d hj m hm
    rcases get j d hj with ⟨rfl, rfl⟩ | ⟨e, hj⟩
    · rcases hmine m hm with hm | hm
      · exact Nat.lt_of_lt_of_le (h.below _ _ hc m hm) hlen
      · exact hm.2
    · exact Nat.lt_of_lt_of_le (h.below _ _ hj m hm) hlen
  · intro j d x hj hx
    rcases get j d hj with ⟨rfl, rfl⟩ | ⟨e, hj⟩
    · exact hconn x hx
    · exact h.conn _ _ _ hj hx
  · intro j k d d' m hj hk hm hm'
    rcases get j d hj with ⟨rfl, rfl⟩ | ⟨e, gj⟩ <;> rcases get k d' hk with ⟨rfl, rfl⟩ | ⟨e', gk⟩
    · rfl
    · rcases hmine m hm with hm | hm
      · exact h.apart _ _ _ _ _ hc gk hm hm'
      · exact absurd (h.below _ _ gk m hm') (by omega)
    · rcases hmine m hm' with hm' | hm'
      · exact h.apart _ _ _ _ _ gj hc hm hm'
      · exact absurd (h.below _ _ gj m hm) (by omega)
    · exact h.apart _ _ _ _ _ gj gk hm hm'
  · intro j x bs hm
    have here : ∀ c0, s.calls[j]? = some c0 → x.mgr ∈ c0.mine → ∃ c0, (s.calls.set i c')[j]? = some c0 ∧ x.mgr ∈ c0.mine := by
      intro c0 h1 h2
      by_cases e : j = i
      · subst e
        rw [hc] at h1
        cases h1
        exact ⟨c', List.getElem?_set_self hi, hkeep _ h2⟩
      · exact ⟨c0, by rw [List.getElem?_set_ne (fun e' => e e'.symm)]; exact h1, h2⟩
    rcases List.mem_append.1 hm with hm | hm
    · obtain ⟨c0, h1, h2⟩ := h.wire _ _ _ hm
      exact here c0 h1 h2
    · obtain ⟨h1, h2⟩ := hadd _ hm
      dsimp only at h1 h2
      subst h1
      exact here c hc h2

theorem syLeave_keeps (peer : ConnId → Bytes) (w : CliPools) (c : SyCall) :
    (syLeave peer w c).mine = c.mine ∧ (syLeave peer w c).conn = c.conn := by
  unfold syLeave
  split
  · exact ⟨rfl, rfl⟩
  · split
    · exact ⟨rfl, rfl⟩
    · split <;> exact ⟨rfl, rfl⟩

theorem syBreak_keeps (peer : ConnId → Bytes) (w : CliPools) (c : SyCall) (a : Attempt ConnId) :
    (syBreak peer w c a).mine = c.mine ∧ (syBreak peer w c a).conn = c.conn := syLeave_keeps _ _ _

theorem syAgain_keeps (peer : ConnId → Bytes) (w : CliPools) (c : SyCall) (a : Attempt ConnId) :
    (syAgain peer w c a).mine = c.mine ∧ (syAgain peer w c a).conn = c.conn := by
  unfold syAgain
  dsimp only
  split
  · exact syLeave_keeps _ _ _
  · exact ⟨rfl, rfl⟩

theorem syRaise_keeps (peer : ConnId → Bytes) (w : CliPools) (c : SyCall) (e : PyExc) :
    (syRaise peer w c e).mine = c.mine ∧ (syRaise peer w c e).conn = c.conn := by
  unfold syRaise
  split
  · exact syAgain_keeps _ _ _ _
  · exact syBreak_keeps _ _ _ _

theorem syWritten_same {s : SySt} (cs : List SyCall) (w : CliPools) (i : Nat) :
    syWritten { s with calls := cs, pools := w } i = syWritten s i := rfl

/-- a step that writes nothing and makes no manager -/
theorem SyInv.local {peer : ConnId → Bytes} {s : SySt} (h : SyInv peer s) {i : Nat} {c : SyCall}
    (hc : s.calls[i]? = some c) (c' : SyCall) (w' : CliPools) (hlen : w'.mgrs.length = s.pools.mgrs.length)
    (hmine : c'.mine = c.mine) (hconn : ∀ x, c'.conn = some x → c.conn = some x ∨ x.mgr ∈ c.mine)
    (hok : SyOk peer (syWritten s i) c') : SyInv peer ({ s with pools := w' }.setCall i c') := by
  have := h.set hc c' w' [] (by omega) (fun m hm => .inl (hmine ▸ hm)) (fun m hm => hmine ▸ hm)
    (fun x hx => by rw [hmine]; rcases hconn x hx with hx | hx; exact h.conn _ _ _ hc hx; exact hx)
    (fun y hy => (by cases hy)) (by simpa using hok)
  simpa [SySt.setCall] using this

/-- a step that makes a manager and writes nothing -/
theorem SyInv.mgr {peer : ConnId → Bytes} {s : SySt} (h : SyInv peer s) {i : Nat} {c : SyCall}
    (hc : s.calls[i]? = some c) (c' : SyCall) (a : PyStr × Int) (hmine : c'.mine = s.pools.mgrs.length :: c.mine)
    (hconn : c'.conn = c.conn) (hok : SyOk peer (syWritten s i) c') :
    SyInv peer ({ s with pools := (getPool s.pools a).1 }.setCall i c') := by
  obtain ⟨h1, h2⟩ := getPool_len s.pools a
  have := h.set hc c' (getPool s.pools a).1 [] (by omega)
    (fun m hm => by
      rw [hmine] at hm
      rcases List.mem_cons.1 hm with rfl | hm
      · exact .inr ⟨Nat.le_refl _, by omega⟩
      · exact .inl hm)
    (fun m hm => by rw [hmine]; exact List.mem_cons_of_mem _ hm)
    (fun x hx => by rw [hmine]; rw [hconn] at hx; exact List.mem_cons_of_mem _ (h.conn _ _ _ hc hx))
    (fun y hy => (by cases hy)) (by simpa using hok)
  simpa [SySt.setCall] using this

theorem InLoop.same {w : List (ConnId × Bytes)} {c : SyCall} {old : Option ConnId} (h : InLoop w c old) (c' : SyCall)
    (e1 : c'.args = c.args) (e2 : c'.timeout = c.timeout) (e3 : c'.stream = c.stream) (e4 : c'.left = c.left)
    (e5 : c'.tried = c.tried) (e6 : c'.rounds = c.rounds) : InLoop w c' old := by
  obtain ⟨h1, h2, h3, h4, h5, h6, h7⟩ := h
  exact ⟨by rw [e1, e2, e3]; exact h1, by rw [e2]; exact h2, by rw [e4, e5]; exact h3, by rw [e4]; exact h4,
    by rw [e3, e4, e5]; exact h5, h6, by rw [e6]; exact h7⟩

theorem OutLoop.same {w : List (ConnId × Bytes)} {c : SyCall} (h : OutLoop w c) (c' : SyCall)
    (e1 : c'.args = c.args) (e2 : c'.timeout = c.timeout) (e3 : c'.stream = c.stream) (e4 : c'.conn = c.conn)
    (e5 : c'.tried = c.tried) : OutLoop w c' := by
  have e : c'.env = c.env := by unfold SyCall.env; rw [e5]
  obtain ⟨h1, h2, h3, h4, h5⟩ := h
  exact ⟨by rw [e1, e2, e3]; exact h1, by rw [e2]; exact h2, by rw [e3, e]; exact h3, by rw [e3, e, e4]; exact h4,
    by rw [e3, e]; exact h5⟩

theorem InLoop.nil {w : List (ConnId × Bytes)} {c : SyCall} {old : Option ConnId} (h : InLoop w c old) :
    InLoop [] c old := by
  have := h.wire
  subst this
  exact h

theorem SyInv.step {peer : ConnId → Bytes} {s : SySt} (h : SyInv peer s) (e : SyEv) : SyInv peer (syStep peer s e) := by
  cases e with
  | call a t =>
    have hst := SyOk.start peer a t
    have hmc : (syStart a t).mine = [] ∧ (syStart a t).conn = none := by
      unfold syStart
      split
      · exact ⟨rfl, rfl⟩
      · split <;> exact ⟨rfl, rfl⟩
    have get : ∀ (j : Nat) (d : SyCall), (s.calls ++ [syStart a t])[j]? = some d →
        (j = s.calls.length ∧ d = syStart a t) ∨ s.calls[j]? = some d := by
      intro j d hj
      by_cases hl : j < s.calls.length
      · rw [List.getElem?_append_left hl] at hj; exact .inr hj
      · rw [List.getElem?_append_right (by omega)] at hj
        by_cases e : j - s.calls.length = 0
        · rw [e] at hj
          injection hj with hj
          exact .inl ⟨by omega, hj.symm⟩
        · rw [List.getElem?_eq_none (by simp; omega)] at hj; cases hj
    have hold : ∀ (j : Nat) (d : SyCall), s.calls[j]? = some d → (s.calls ++ [syStart a t])[j]? = some d := by
      intro j d hj
      rw [List.getElem?_append_left (List.getElem?_eq_some_iff.1 hj).1]; exact hj
    refine ⟨fun j d hj => ?_, fun j d hj m hm => ?_, fun j d x hj hx => ?_, fun j k d d' m hj hk hm hm' => ?_,
      fun j x bs hm => ?_⟩
    · rcases get j d hj with ⟨rfl, rfl⟩ | hj
      · have : syWritten s s.calls.length = [] := by
          unfold syWritten
          rw [List.filter_eq_nil_iff.2]
          · rfl
          · intro y hy hb
            obtain ⟨c, h1, -⟩ := h.wire y.1 y.2.1 y.2.2 hy
            have := (List.getElem?_eq_some_iff.1 h1).1
            simp at hb
            omega
        show SyOk peer (syWritten s _) _
        rw [this]
        exact hst
      · exact h.ok j d hj
    · rcases get j d hj with ⟨rfl, rfl⟩ | hj
      · rw [hmc.1] at hm; cases hm
      · exact h.below j d hj m hm
    · rcases get j d hj with ⟨rfl, rfl⟩ | hj
      · rw [hmc.2] at hx; cases hx
      · exact h.conn j d x hj hx
    · rcases get j d hj with ⟨rfl, rfl⟩ | hj
      · rw [hmc.1] at hm; cases hm
      · rcases get k d' hk with ⟨rfl, rfl⟩ | hk
        · rw [hmc.1] at hm'; cases hm'
        · exact h.apart _ _ _ _ _ hj hk hm hm'
    · obtain ⟨c, h1, h2⟩ := h.wire j x bs hm
      exact ⟨c, hold _ _ h1, h2⟩
  | getPool i addr =>
    unfold syStep
    dsimp only
    split
    · exact h
    · rename_i c hc
      have hok := h.ok i c hc
      split
      · rename_i e hpc
        unfold SyOk at hok
        rw [hpc] at hok
        obtain ⟨k1, k2⟩ := syRaise_keeps peer s.pools c e
        have hw := hok.wire
        exact h.local hc _ s.pools rfl k1 (fun x hx => .inl (by rw [← k2]; exact hx))
          (by rw [hw]; exact SyOk.raise _ _ hok.nil)
      · rename_i a hpc
        unfold SyOk at hok
        rw [hpc] at hok
        dsimp only at hok
        have hw := hok.wire
        have hg := (getPool_len s.pools a).2
        have hl : InLoop [] { c with mine := (getPool s.pools a).2.1 :: c.mine }
            ({ c with mine := (getPool s.pools a).2.1 :: c.mine } : SyCall).conn := hok.nil.same _ rfl rfl rfl rfl rfl rfl
        split
        · rename_i p hp
          refine h.mgr hc _ a (by rw [← hg]) rfl ?_
          rw [hw]
          exact ⟨hl.same _ rfl rfl rfl rfl rfl rfl, by simp⟩
        · rename_i e he
          obtain ⟨k1, k2⟩ := syRaise_keeps peer (getPool s.pools a).1
            { c with mine := (getPool s.pools a).2.1 :: c.mine } e
          refine h.mgr hc _ a (by rw [k1, ← hg]) (by rw [k2]) ?_
          rw [hw]
          exact SyOk.raise _ _ hl
        · refine h.mgr hc _ a (by rw [← hg]) rfl ?_
          rw [hw]
          exact .inl rfl
      · exact h
  | getConn i readable =>
    unfold syStep
    dsimp only
    split
    · exact h
    · rename_i c hc
      have hok := h.ok i c hc
      split
      · rename_i m p hpc
        unfold SyOk at hok
        rw [hpc] at hok
        obtain ⟨hok, hm⟩ := hok
        have hw := hok.wire
        have hlen := getConnOf_len s.pools m p readable
        split
        · rename_i x hx
          refine h.local hc _ _ hlen rfl (fun y hy => .inr ?_) ?_
          · injection hy with hy
            subst hy
            rw [getConnOf_mgr hx]; exact hm
          · rw [hw]
            exact ⟨⟨c.conn, hok.nil.same _ rfl rfl rfl rfl rfl rfl⟩, rfl⟩
        · rename_i e he
          obtain ⟨k1, k2⟩ := syRaise_keeps peer (getConnOf s.pools m p readable).1 c e
          refine h.local hc _ _ hlen k1 (fun x hx => .inl (by rw [← k2]; exact hx)) ?_
          rw [hw]
          exact SyOk.raise _ _ hok.nil
        · refine h.local hc _ _ hlen rfl (fun x hx => .inl hx) ?_
          rw [hw]
          exact .inl rfl
      · exact h
  | send i r =>
    unfold syStep
    dsimp only
    split
    · exact h
    · rename_i c hc
      have hok := h.ok i c hc
      split
      · rename_i x hpc
        unfold SyOk at hok
        rw [hpc] at hok
        obtain ⟨⟨old, hok⟩, hx⟩ := hok
        have hw := hok.wire
        split
        · rename_i e hst
          obtain ⟨k1, k2⟩ := syBreak_keeps peer s.pools c ⟨.ok x, .hang⟩
          refine h.local hc _ s.pools rfl k1 (fun y hy => .inl (by rw [← k2]; exact hy)) ?_
          rw [hw]
          refine SyOk.brk _ hok.nil fun env k i hi => ?_
          rw [attemptLoop, hi, hst]
          exact ⟨rfl, hx.symm, rfl⟩
        · rename_i bs hst
          split
          · obtain ⟨k1, k2⟩ := syAgain_keeps peer s.pools c ⟨.ok x, .socketValue⟩
            refine h.local hc _ s.pools rfl k1 (fun y hy => .inl (by rw [← k2]; exact hy)) ?_
            rw [hw]
            refine SyOk.again _ hok.nil fun env k i hi => ?_
            rw [attemptLoop, hi, hst, hx]
          · rename_i e he
            obtain ⟨k1, k2⟩ := syBreak_keeps peer s.pools c ⟨.ok x, .fail e⟩
            refine h.local hc _ s.pools rfl k1 (fun y hy => .inl (by rw [← k2]; exact hy)) ?_
            rw [hw]
            refine SyOk.brk _ hok.nil fun env k i hi => ?_
            rw [attemptLoop, hi, hst]
            exact ⟨rfl, hx.symm, rfl⟩
          · refine h.local hc _ s.pools rfl rfl (fun y hy => .inl hy) ?_
            rw [hw]
            exact .inl rfl
          · rename_i n hn
            obtain ⟨k1, k2⟩ := syBreak_keeps peer s.pools c ⟨.ok x, .ok n⟩
            refine h.set hc _ s.pools [(i, x, bs.take n)] (Nat.le_refl _) (fun m hm => .inl (by rw [← k1]; exact hm))
              (fun m hm => by rw [k1]; exact hm)
              (fun y hy => by rw [k1]; rw [k2] at hy; exact h.conn _ _ _ hc hy)
              (fun y hy => by
                rw [List.mem_singleton] at hy
                subst hy
                exact ⟨rfl, h.conn _ _ _ hc hx⟩) ?_
            rw [hw]
            refine SyOk.brk _ hok.nil fun env k i hi => ?_
            rw [attemptLoop, hi, hst]
            exact ⟨rfl, hx.symm, rfl⟩
      · exact h
  | round i e =>
    unfold syStep
    dsimp only
    split
    · exact h
    · rename_i c hc
      have hok := h.ok i c hc
      split
      · rename_i x r hpc
        unfold SyOk at hok
        rw [hpc] at hok
        obtain ⟨hout, hx, ht, hevs, -⟩ := hok
        have hrun : recvStep c.args.id r e = recvRun c.args.id (peer x) (c.rounds ++ [e]) := by
          rw [hevs]; simp [recvRun]
        have hcl : (s.pools.closeConn x).mgrs.length = s.pools.mgrs.length := by simp [CliPools.closeConn]
        have key : ∀ w' : CliPools, w'.mgrs.length = s.pools.mgrs.length →
            SyInv peer (match (recvStep c.args.id r e).out with
              | none => ({ s with pools := w' }).setCall i
                  { c with rounds := c.rounds ++ [e], pc := .reading x (recvStep c.args.id r e) }
              | some o => ({ s with pools := w' }).setCall i
                  { c with rounds := c.rounds ++ [e],
                           pc := if (recvStep c.args.id r e).connBack then .putting x o else .ended o }) := by
          intro w' hw'
          split
          · rename_i ho
            exact h.local hc _ w' hw' rfl (fun y hy => .inl hy)
              ⟨hout.same _ rfl rfl rfl rfl rfl, hx, ht, hrun, ho⟩
          · rename_i o ho
            rw [hrun] at ho
            refine h.local hc _ w' hw' rfl (fun y hy => .inl hy) ?_
            split
            · exact ⟨hout.same _ rfl rfl rfl rfl rfl, hx, fun _ => ho, fun hn => absurd hn ht⟩
            · obtain ⟨t, ht'⟩ := Option.ne_none_iff_exists'.1 ht
              have := alone_read (peer := peer) (c := { c with rounds := c.rounds ++ [e], pc := .ended o })
                (hout.same _ rfl rfl rfl rfl rfl) hx ht' ho (.inl rfl)
              unfold SyOk
              dsimp only
              rw [ht']
              exact this
        by_cases hb : (recvStep c.args.id r e).connClosed
        · simp only [hb, if_true]
          exact key _ hcl
        · simp only [hb]
          exact key _ rfl
      · exact h
  | put i addr =>
    unfold syStep
    dsimp only
    split
    · exact h
    · rename_i c hc
      have hok := h.ok i c hc
      have hend : ∀ (x : ConnId) (o r : Except PyExc PyObj) (mi : List Nat), c.pc = .putting x o →
          (r = o ∨ ∃ e, r = .error e) → SyOk peer (syWritten s i) { c with pc := .ended r, mine := mi } := by
        intro x o r mi hpc hr
        unfold SyOk at hok
        rw [hpc] at hok
        obtain ⟨hout, hx, hread, hone⟩ := hok
        unfold SyOk
        dsimp only
        cases ht : c.timeout with
        | none =>
          have h1 := hout.raw
          rw [ht, hx] at h1
          obtain ⟨k1, k2⟩ := invokeOneway_raw c.args c.env
          rw [h1.1] at k1
          refine ⟨?_, ?_⟩
          · show (match (invokeOneway c.args c.env).1 with | .ok _ => _ | .raise e => _ | .hang => False)
            rw [k1]
            rw [hone ht] at hr
            exact hr
          · show _ = (invokeOneway c.args c.env).2.wire
            rw [k2]; exact h1.2.symm
        | some t =>
          have ho := hread (by rw [ht]; simp)
          exact alone_read (peer := peer) (c := { c with pc := .ended r, mine := mi }) (hout.same _ rfl rfl rfl rfl rfl) hx ht
            ho hr
      split
      · rename_i x o e hpc
        exact h.local hc _ s.pools rfl rfl (fun y hy => .inl hy) (hend x o _ c.mine hpc (.inr ⟨e, rfl⟩))
      · rename_i x o a hpc
        have hg := (getPool_len s.pools a).2
        split
        · exact h.mgr hc _ a (by rw [← hg]) rfl (hend x o _ _ hpc (.inl rfl))
        · exact h.mgr hc _ a (by rw [← hg]) rfl (hend x o _ _ hpc (.inr ⟨_, rfl⟩))
        · refine h.mgr hc _ a (by rw [← hg]) rfl ?_
          unfold SyOk at hok
          rw [hpc] at hok
          exact .inr (hok.1.same _ rfl rfl rfl rfl rfl)
      · exact h

theorem SyInv.run (peer : ConnId → Bytes) (evs : List SyEv) : SyInv peer (syRun peer evs) := by
  unfold syRun
  suffices ∀ s, SyInv peer s → SyInv peer (evs.foldl (syStep peer) s) by
    refine this _ ⟨?_, ?_, ?_, ?_, ?_⟩ <;> simp
  induction evs with
  | nil => exact fun s h => h
  | cons e evs ih => exact fun s h => ih _ (h.step e)

/-! ## C151 -/

theorem attemptLoop_wire {C : Type} (stream : Except PyExc Bytes) (env : Nat → Attempt C) (k i : Nat) (conn : Option C) :
    (attemptLoop stream env k i conn).wire.length ≤ 1 ∧
    ∀ y b, (y, b) ∈ (attemptLoop stream env k i conn).wire → (attemptLoop stream env k i conn).conn = some y := by
  obtain ⟨-, -, -, h | ⟨c, b, h1, h2, -⟩⟩ := attemptLoop_spec stream env k i conn
  · rw [h.1]; simp
  · rw [h1, h2]; simp

theorem SyOk.wire {peer : ConnId → Bytes} {w : List (ConnId × Bytes)} {c : SyCall} (h : SyOk peer w c) :
    w.length ≤ 1 := by
  have hraw : ∀ (a : CallArgs) (env : Nat → Attempt ConnId), (rawInvoke a env).2.wire.length ≤ 1 := by
    intro a env
    unfold rawInvoke
    cases a.request with
    | error e => simp
    | ok p => exact (attemptLoop_wire _ _ _ _ _).1
  have hout : OutLoop w c → w.length ≤ 1 := fun h => by rw [← h.raw.2]; exact hraw _ _
  unfold SyOk at h
  split at h
  · rw [h.wire]; simp
  · rw [h.1.wire]; simp
  · obtain ⟨⟨old, h⟩, -⟩ := h
    rw [h.wire]; simp
  · rcases h with h | h
    · rw [h]; simp
    · exact hout h
  · exact hout h.1
  · exact hout h.1
  · split at h
    · obtain ⟨-, h⟩ := h
      rw [h, (invokeOneway_raw _ _).2]; exact hraw _ _
    · obtain ⟨-, -, -, -, -, -, h⟩ := h
      rw [h]; exact hraw _ _

/-- C151, the connections. Whatever the threads do, no connection is ever used by two calls, and a call writes at most
once. -/
theorem C151_own_connection (peer : ConnId → Bytes) (evs : List SyEv) :
    (∀ (i j : Nat) (c d : SyCall) (x : ConnId), (syRun peer evs).calls[i]? = some c → (syRun peer evs).calls[j]? = some d →
      c.conn = some x → d.conn = some x → i = j) ∧
    (∀ (i j : Nat) (x : ConnId) (b b' : Bytes), (i, x, b) ∈ (syRun peer evs).wire → (j, x, b') ∈ (syRun peer evs).wire →
      i = j) ∧
    (∀ i, (syWritten (syRun peer evs) i).length ≤ 1) := by
  have h := SyInv.run peer evs
  refine ⟨fun i j c d x hi hj hc hd => ?_, fun i j x b b' hi hj => ?_, fun i => ?_⟩
  · exact h.apart _ _ _ _ _ hi hj (h.conn _ _ _ hi hc) (h.conn _ _ _ hj hd)
  · obtain ⟨c, h1, h2⟩ := h.wire _ _ _ hi
    obtain ⟨d, h3, h4⟩ := h.wire _ _ _ hj
    exact h.apart _ _ _ _ _ h1 h3 h2 h4
  · cases hc : (syRun peer evs).calls[i]? with
    | some c => exact (h.ok i c hc).wire
    | none =>
      have : syWritten (syRun peer evs) i = [] := by
        unfold syWritten
        rw [List.filter_eq_nil_iff.2]
        · rfl
        · intro y hy hb
          obtain ⟨c, h1, -⟩ := h.wire y.1 y.2.1 y.2.2 hy
          simp at hb
          rw [hb, hc] at h1
          cases h1
      rw [this]; simp

/-- C151, each call is as if it were alone. Whatever the other threads do, a call of `invoke_sync` that has ended has
written and returned or raised what it would have with the client to itself; only line 134 can have raised an exception
instead. -/
theorem C151_alone (peer : ConnId → Bytes) (evs : List SyEv) (i : Nat) (c : SyCall) (t : TimeoutArg)
    (r : Except PyExc PyObj) (hc : (syRun peer evs).calls[i]? = some c) (ht : c.timeout = some t) (hr : c.pc = .ended r) :
    SyAlone peer (syWritten (syRun peer evs) i) c t r := by
  have := (SyInv.run peer evs).ok i c hc
  unfold SyOk at this
  rw [hr, ht] at this
  exact this

/-- C151, the same for `invoke_oneway`: what a call that has ended has written and returned or raised is what it would have
with the client to itself; only line 97 can have raised an exception instead. -/
theorem C151_oneway (peer : ConnId → Bytes) (evs : List SyEv) (i : Nat) (c : SyCall) (r : Except PyExc PyObj)
    (hc : (syRun peer evs).calls[i]? = some c) (ht : c.timeout = none) (hr : c.pc = .ended r) :
    SyAloneOneway (syWritten (syRun peer evs) i) c r := by
  have := (SyInv.run peer evs).ok i c hc
  unfold SyOk at this
  rw [hr, ht] at this
  exact this

/-- what is written on the connection of a call is what the call has written -/
theorem on_own {peer : ConnId → Bytes} {s : SySt} (h : SyInv peer s) {i : Nat} {c : SyCall} {x : ConnId}
    (hc : s.calls[i]? = some c) (hx : c.conn = some x) (hw : ∀ y b, (y, b) ∈ syWritten s i → y = x) :
    syOn s x = ((syWritten s i).map Prod.snd).flatten := by
  unfold syOn syWritten
  rw [List.map_map]
  have : s.wire.filter (fun y => y.2.1 == x) = s.wire.filter (fun y => y.1 == i) := by
    apply List.filter_congr
    intro y hy
    have h1 : y.2.1 = x → y.1 = i := by
      intro e
      obtain ⟨d, h1, h2⟩ := h.wire y.1 y.2.1 y.2.2 hy
      rw [e] at h2
      exact h.apart _ _ _ _ _ h1 hc h2 (h.conn _ _ _ hc hx)
    have h2 : y.1 = i → y.2.1 = x := by
      intro e
      refine hw y.2.1 y.2.2 ?_
      unfold syWritten
      exact List.mem_map.2 ⟨y, List.mem_filter.2 ⟨hy, by simp [e]⟩, rfl⟩
    by_cases e : y.1 = i
    · simp [e, h2 e]
    · rw [beq_false_of_ne e, beq_false_of_ne fun e' => e (h1 e')]
  rw [this]
  rfl

theorem rawInvoke_on {C : Type} {a : CallArgs} {env : Nat → Attempt C} {z : Int × C} (h : (rawInvoke a env).1 = .ok z)
    (y : C) (b : Bytes) (hm : (y, b) ∈ (rawInvoke a env).2.wire) : y = z.2 := by
  unfold rawInvoke at h hm
  cases hp : a.request with
  | error e => rw [hp] at h; cases h
  | ok p =>
    rw [hp] at h hm
    dsimp only at h hm
    have := (attemptLoop_wire _ _ _ _ _).2 y b hm
    rw [this] at h
    split at h
    · cases h
    · injection h with h
      rw [← h]

theorem invokeSync_raw {C : Type} {a : CallArgs} {t : TimeoutArg} {env : Nat → Attempt C} {reg : Bool} {stream : Bytes}
    {evs : List RecvEv} {v : PyObj} (h : invokeSync a t env reg stream evs = .ended (.ok v)) :
    ∃ z, (rawInvoke { a with timeout := t.obj, ptype := .request } env).1 = .ok z := by
  unfold invokeSync at h
  split at h
  · cases h
  · split at h
    · cases h
    · cases h
    · rename_i z1 z2 hz; exact ⟨_, hz⟩

/-- The connections of the calls lead to connections of one asyncio listener: `at' x` is the listener's number for
connection `x`. It receives there a part of what is written on `x`, and what the peer sends on `x` is part of what it
writes there. -/
def Spec.SyJoined (peer : ConnId → Bytes) (s : SySt) (svc : Services) (reg : Registry) (sevs : List SrvEv)
    (at' : ConnId → Nat) : Prop :=
  ∀ (i : Nat) (c : SyCall) (x : ConnId), s.calls[i]? = some c → c.conn = some x →
    ∃ l, (srvRun svc reg sevs).conns[at' x]? = some l ∧ received (view (at' x) reg sevs).evs <+: syOn s x ∧
      peer x <+: l.wire

/-- C151. Any number of threads make calls through one synchronous client to an asyncio listener, which may have other
clients too. Whatever all of them do and however the bytes are cut: if `invoke_sync` returns, the listener has made
exactly one call for the connection of this call, the one this thread asked for, and `invoke_sync` returns the bytes this
call returned. -/
theorem C151_own_result (peer : ConnId → Bytes) (evs : List SyEv) (svc : Services) (reg : Registry) (sevs : List SrvEv)
    (at' : ConnId → Nat) (hj : SyJoined peer (syRun peer evs) svc reg sevs at') (i : Nat) (c : SyCall) (t : TimeoutArg)
    (v : PyObj) (hc : (syRun peer evs).calls[i]? = some c) (ht : c.timeout = some t) (hr : c.pc = .ended (.ok v)) :
    ∃ (x : ConnId) (l : LSt) (f : Fut) (ct : Bytes), c.conn = some x ∧ (srvRun svc reg sevs).conns[at' x]? = some l ∧
      l.futs = [f] ∧ f.st = .finished (.ret (.bytes ct)) ∧ v = .bytes ct ∧
      AskedFor svc (view (at' x) reg sevs).reg (view (at' x) reg sevs).evs c.args f := by
  obtain ⟨rg, stream, o, h1, h2, h3, h4⟩ := C151_alone peer evs i c t _ hc ht hr
  rcases h2 with rfl | ⟨e, he⟩
  · obtain ⟨z, hz⟩ := invokeSync_raw h1
    obtain ⟨rfl, hx⟩ := h3 z hz
    obtain ⟨l, g1, g2, g3⟩ := hj i c z.2 hc hx
    rw [on_own (SyInv.run peer evs) hc hx (by rw [h4]; exact rawInvoke_on hz), h4] at g2
    obtain ⟨f, ct, k1, k2, k3, k4⟩ := C112_sync svc reg sevs _ l g1 c.args t c.env rg _ c.rounds v g2 g3 h1
    exact ⟨z.2, l, f, ct, hx, g1, k1, k2, k3, k4⟩
  · cases he

/-- as `SyJoined`, for a socket listener -/
def Spec.SySockJoined (peer : ConnId → Bytes) (s : SySt) (svc : Services) (reg : Registry) (sevs : List SockSrvEv)
    (at' : ConnId → Nat) : Prop :=
  ∀ (i : Nat) (c : SyCall) (x : ConnId), s.calls[i]? = some c → c.conn = some x →
    ∃ l, (ssrvRun svc reg sevs).conns[at' x]? = some l ∧ sreceived (sockView (at' x) reg sevs).evs <+: syOn s x ∧
      peer x <+: l.out.flatten

/-- C151, with a socket listener. -/
theorem C151_own_result_sock (peer : ConnId → Bytes) (evs : List SyEv) (svc : Services) (reg : Registry)
    (sevs : List SockSrvEv) (at' : ConnId → Nat) (hj : SySockJoined peer (syRun peer evs) svc reg sevs at') (i : Nat)
    (c : SyCall) (t : TimeoutArg) (v : PyObj) (hc : (syRun peer evs).calls[i]? = some c) (ht : c.timeout = some t)
    (hr : c.pc = .ended (.ok v)) :
    ∃ (x : ConnId) (l : SSt) (f : SCall) (ct : Bytes), c.conn = some x ∧ (ssrvRun svc reg sevs).conns[at' x]? = some l ∧
      l.calls = [f] ∧ l.result = some (.ret (.bytes ct)) ∧ v = .bytes ct ∧
      SockAskedFor svc (sockView (at' x) reg sevs).reg (sockView (at' x) reg sevs).evs c.args f := by
  obtain ⟨rg, stream, o, h1, h2, h3, h4⟩ := C151_alone peer evs i c t _ hc ht hr
  rcases h2 with rfl | ⟨e, he⟩
  · obtain ⟨z, hz⟩ := invokeSync_raw h1
    obtain ⟨rfl, hx⟩ := h3 z hz
    obtain ⟨l, g1, g2, g3⟩ := hj i c z.2 hc hx
    rw [on_own (SyInv.run peer evs) hc hx (by rw [h4]; exact rawInvoke_on hz), h4] at g2
    obtain ⟨f, ct, k1, k2, k3, k4⟩ := C113_sync svc reg sevs _ l g1 c.args t c.env rg _ c.rounds v g2 g3 h1
    exact ⟨z.2, l, f, ct, hx, g1, k1, k2, k3, k4⟩
  · cases he

/-- how a call stands that has left the loop of `_raw_invoke` -/
def Spec.sySees (c : SyCall) : SyncRes :=
  match c.pc with
  | .putting _ o | .ended o => .ended o
  | _ => .waiting

theorem recvRun_ended (id : Int) (w : Bytes) (a b : List RecvEv) {o : Except PyExc PyObj}
    (h : (recvRun id w a).out = some o) : recvRun id w (a ++ b) = recvRun id w a := by
  unfold recvRun at h ⊢
  rw [List.foldl_append]
  generalize a.foldl (recvStep id) { rest := w } = s at h
  induction b with
  | nil => rfl
  | cons e b ih => rw [List.foldl_cons, recvStep_ended id s e (by rw [h]; rfl), ih]

/-- C151, the other direction. When the whole request of a call has arrived at the listener and the connection has settled
there, then, whatever the other threads do, the call stands as its request has fared: after as many rounds of its
receiving loop as there are bytes to be read it has a result or an exception, or nothing was sent to it and it waits;
and what it has is what the listener has made of the request. -/
theorem C151_ends (peer : ConnId → Bytes) (evs : List SyEv) (svc : Services) (reg : Registry) (sevs : List SrvEv) (n : Nat)
    (l : LSt) (hl : (srvRun svc reg sevs).conns[n]? = some l) (i : Nat) (c : SyCall) (x : ConnId) (p : Pkg) (ns : List Nat)
    (hc : (syRun peer evs).calls[i]? = some c) (hx : c.pc = .reading x (recvRun c.args.id (peer x) c.rounds) ∨ ∃ o, c.pc = .putting x o)
    (ht : c.timeout ≠ none)
    (hp : (syArgs c.args c.timeout).request = .ok p) (hin : p.toStream = .ok (received (view n reg sevs).evs))
    (hpeer : peer x = l.wire) (he : sawEof (view n reg sevs).evs = false) (hn : .reset ∉ (view n reg sevs).evs)
    (hs : l.settled) (hro : c.rounds = chunked ns) (hlen : (∃ r, c.pc = .reading x r) → l.wire.length ≤ ns.length) :
    ∃ (tk : Task) (fa : Fate), l.tasks = [tk] ∧ tk.fate = some fa ∧ sySees c = callerSees fa := by
  have hok := (SyInv.run peer evs).ok i c hc
  unfold SyOk at hok
  obtain ⟨t, ht'⟩ := Option.ne_none_iff_exists'.1 ht
  obtain ⟨hout, hconn, ms, hms, hsee⟩ : OutLoop (syWritten (syRun peer evs) i) c ∧ c.conn = some x ∧
      ∃ ms, l.wire.length ≤ ms.length ∧ sySees c = (match (recvRun c.args.id (peer x) (chunked ms)).out with
        | none => .waiting | some o => .ended o) := by
    rcases hx with hx | ⟨o, hx⟩
    · rw [hx] at hok
      obtain ⟨h1, h2, -, -, h5⟩ := hok
      refine ⟨h1, h2, ns, hlen ⟨_, hx⟩, ?_⟩
      rw [← hro, h5]
      unfold sySees
      rw [hx]
    · rw [hx] at hok
      obtain ⟨h1, h2, h3, -⟩ := hok
      have h4 := h3 ht
      refine ⟨h1, h2, ns ++ List.replicate l.wire.length 0, by simp, ?_⟩
      have : chunked (ns ++ List.replicate l.wire.length 0) = c.rounds ++ chunked (List.replicate l.wire.length 0) := by
        rw [hro]; simp [chunked]
      rw [this, recvRun_ended _ _ _ _ h4, h4]
      unfold sySees
      rw [hx]
  have hraw := hout.raw.1
  rw [hconn, ht'] at hraw
  rw [ht'] at hp
  have hno : ∀ o, t ≠ .other o := fun o e => hout.other o (by rw [ht', e])
  obtain ⟨tk, fa, k1, k2, k3⟩ := C112_sync_ends svc reg sevs n l hl c.args t c.env p _ ms hno hp hraw hin he hn hs hms
  refine ⟨tk, fa, k1, k2, ?_⟩
  rw [← k3, hsee, ← hpeer]
  have e' : ({ c.args with timeout := t.obj, ptype := .request } : CallArgs) = syArgs c.args (some t) := rfl
  unfold invokeSync
  cases t with
  | other o => exact absurd rfl (hno o)
  | int i => simp only [e', hraw]; rfl
  | float b => simp only [e', hraw]; rfl

/-- C151: line 134 ends a call with its result when `_get_address` answers. -/
theorem C151_put (peer : ConnId → Bytes) (s : SySt) (i : Nat) (c : SyCall) (x : ConnId) (o : Except PyExc PyObj)
    (a : PyStr × Int) (hc : s.calls[i]? = some c) (hx : c.pc = .putting x o) :
    ∃ c', (syStep peer s (.put i (.ok a))).calls[i]? = some c' ∧ c'.pc = .ended o := by
  obtain ⟨m, pool, h1, h2, h3⟩ := freshPool_spec a
  have hg : (getPool s.pools a).2.2 = .ok 0 := by simp only [getPool, h1]
  refine ⟨{ c with mine := (getPool s.pools a).2.1 :: c.mine, pc := .ended o }, ?_, rfl⟩
  unfold syStep
  simp only [hc, hx, hg, SySt.setCall]
  exact List.getElem?_set_self (List.getElem?_eq_some_iff.1 hc).1

/-! Two threads with calls that happen to have the same id. The first connection of thread 0 is found dead; meanwhile the
other thread gets a connection and sends. The listener answers in the other order, the bytes arrive in pieces. -/

/-- the calls of the two threads -/
def exThreadA : CallArgs := { exCall with id := 7, content := .bytes [1] }
def exThreadB : CallArgs := { exCall with id := 7, content := .bytes [2] }

/-- the frame of a call -/
def exThreadBytes (a : CallArgs) : Bytes :=
  (((syArgs a (some (.int 1000))).request.toOption.bind fun p => p.toStream.toOption)).getD []

/-- what the peers send -/
def exThreadPeer (x : ConnId) : Bytes := if x.mgr = 2 then reply 7 0 [11] else reply 7 0 [22]

/-- what the threads do -/
def exThreadEvs : List SyEv :=
  [.call exThreadA (some (.int 1000)), .call exThreadB (some (.int 1000)), .getPool 0 (.ok (py "h", 1)),
   .getPool 1 (.ok (py "h", 1)), .getConn 0 true, .getConn 1 false, .send 0 (.ok 1000), .getPool 0 (.ok (py "h", 1)),
   .send 1 (.ok 1000), .getConn 0 false, .send 0 (.ok 1000)] ++
  (List.replicate 40 [SyEv.round 1 (.recv 2), .round 0 (.recv 4)]).flatten ++
  [.put 1 (.ok (py "h", 1)), .put 0 (.ok (py "h", 1))]

/-- what the listener does -/
def exThreadSrv : List SrvEv :=
  [.accept, .accept, .conn 0 (.data (exThreadBytes exThreadA)), .conn 1 (.data (exThreadBytes exThreadB))] ++
  List.replicate 6 (.conn 0 .reader) ++ List.replicate 6 (.conn 1 .reader) ++
  [.conn 1 (.run 0 (py "t")), .conn 0 (.run 0 (py "u")), .take, .take, .finish 0 0 (.ret (.bytes [11])),
   .finish 1 0 (.ret (.bytes [22])), .conn 1 (.result 0), .conn 1 (.write 0), .conn 0 (.result 0), .conn 0 (.write 0)]

set_option maxRecDepth 40000 in
example : (syRun exThreadPeer exThreadEvs).calls.map (fun c => (c.conn, c.pc, c.tried.length)) =
    [(some ⟨2, 0, 0⟩, .ended (.ok (.bytes [11])), 2), (some ⟨1, 0, 0⟩, .ended (.ok (.bytes [22])), 1)] ∧
    (syRun exThreadPeer exThreadEvs).wire =
      [(1, ⟨1, 0, 0⟩, exThreadBytes exThreadB), (0, ⟨2, 0, 0⟩, exThreadBytes exThreadA)] ∧
    exThreadBytes exThreadA ≠ [] := by
  decide +kernel

set_option maxRecDepth 40000 in
example : received (view 0 exReg exThreadSrv).evs = exThreadBytes exThreadA ∧
    received (view 1 exReg exThreadSrv).evs = exThreadBytes exThreadB ∧
    (srvRun exServices exReg exThreadSrv).conns.map LSt.wire = [reply 7 0 [11], reply 7 0 [22]] ∧
    (srvRun exServices exReg exThreadSrv).conns.map (fun l => l.futs.map fun f => (f.body, f.st)) =
      [[([1], .finished (.ret (.bytes [11])))], [([2], .finished (.ret (.bytes [22])))]] := by
  decide +kernel

set_option maxRecDepth 40000 in
/-- before line 134 the calls have their results; a call that has had too few rounds waits -/
example : (syRun exThreadPeer (exThreadEvs.take 91)).calls.map sySees =
      [.ended (.ok (.bytes [11])), .ended (.ok (.bytes [22]))] ∧
    (syRun exThreadPeer (exThreadEvs.take 14)).calls.map sySees = [.waiting, .waiting] := by
  decide +kernel

end Bolt
