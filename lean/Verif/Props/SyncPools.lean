import Verif.Model.SyncPools
import Verif.Props.SyncSend
/-!
# C125, C126: the synchronous client on its pools
-/
namespace Bolt
open Spec

/-- how many connections have been opened (`ConnectionCls(...)`, connection_pool.py:92) by all pools -/
def Spec.opened (w : CliPools) : Nat := (w.mgrs.map fun m => (m.pools.map CPool.made).sum).sum

theorem modify_last {α : Type} (l : List α) (a : α) (f : α → α) :
    (l ++ [a]).modify l.length f = l ++ [f a] := by
  induction l with
  | nil => rfl
  | cons x l ih => rw [List.cons_append, List.length_cons, List.modify_succ_cons, ih, List.cons_append]

theorem poolGetConn_eq (w : CliPools) (addr : PyStr × Int) (r : Bool) :
    ∃ m : MgrWorld (PyStr × Int), poolGetConn w addr r = ({ mgrs := w.mgrs ++ [m] }, .ok ⟨w.mgrs.length, 0, 0⟩) ∧
      m.pools = [{ free := some [1], num := if r then 1 else 2, made := 2, closed := if r then [0] else [] }] := by
  obtain ⟨m, pool, h1, h2, h3⟩ := freshPool_spec addr
  have hg : getPool w addr = ({ mgrs := w.mgrs ++ [m] }, w.mgrs.length, .ok 0) := by
    simp only [getPool, h1]
  have hb : ((w.mgrs ++ [m])[w.mgrs.length]?.bind fun m => m.pools[0]?) = some pool := by
    simp [h2]
  have hc : pool.getConn {} false r =
      ({ free := some [1], num := if r then 1 else 2, made := 2, closed := if r then [0] else [] }, .ok 0) := by
    subst h3; cases r <;> rfl
  refine ⟨m.upd 0 fun _ => (pool.getConn {} false r).1, ?_, ?_⟩
  · simp only [poolGetConn, hg, hb, hc]
    rw [modify_last]
  · simp [MgrWorld.upd, h2, hc]

theorem getPool_eq (w : CliPools) (addr : PyStr × Int) :
    ∃ m : MgrWorld (PyStr × Int), (getPool w addr).1 = { mgrs := w.mgrs ++ [m] } ∧
      m.pools = [{ free := some [0], num := 1, made := 1 }] := by
  obtain ⟨m, pool, h1, h2, h3⟩ := freshPool_spec addr
  exact ⟨m, by simp only [getPool, h1], by rw [h2, h3]⟩

theorem opened_snoc (l : List (MgrWorld (PyStr × Int))) (m : MgrWorld (PyStr × Int)) :
    opened { mgrs := l ++ [m] } = opened { mgrs := l } + (m.pools.map CPool.made).sum := by
  simp [opened]

theorem isClosed_last (l : List (MgrWorld (PyStr × Int))) (m : MgrWorld (PyStr × Int)) (p : CPool)
    (h : m.pools = [p]) :
    CliPools.isClosed { mgrs := l ++ [m] } ⟨l.length, 0, 0⟩ = p.closed.contains 0 := by
  simp [CliPools.isClosed, h]

/-- What `get_conn` and `send` do in the attempts of a call that starts when `n` managers have been made: every attempt
gets a connection of its own; one that looked readable has been closed and refuses to send. -/
def Spec.poolEnv (n : Nat) (net : Nat → NetFacts) (i : Nat) : Attempt ConnId :=
  ⟨.ok ⟨n + i, 0, 0⟩, if (net i).readable then .socketValue else (net i).send⟩

theorem attemptPools_spec (stream : Except PyExc Bytes) (addr : PyStr × Int) (net : Nat → NetFacts) (n : Nat) :
    ∀ (k i : Nat) (w : CliPools) (conn : Option ConnId), w.mgrs.length = n + i →
      let r := attemptPools stream addr net k i w conn
      r.2 = attemptLoop stream (poolEnv n net) k i conn ∧ i ≤ r.2.attempts ∧ r.2.attempts ≤ i + k ∧
      r.1.mgrs.length = n + r.2.attempts ∧ opened r.1 = opened w + 2 * (r.2.attempts - i) ∧
      (r.2.attempts = i → k = 0 ∧ r = (w, { attempts := i, conn := conn })) ∧
      (i < r.2.attempts → r.2.conn = some ⟨n + (r.2.attempts - 1), 0, 0⟩ ∧
        r.1.isClosed ⟨n + (r.2.attempts - 1), 0, 0⟩ = (net (r.2.attempts - 1)).readable) := by
  intro k
  induction k with
  | zero =>
    intro i w conn hw
    simp [attemptPools, attemptLoop, hw]
  | succ k ih =>
    intro i w conn hw
    obtain ⟨m, hg, hm⟩ := poolGetConn_eq w addr (net i).readable
    have hl : ({ mgrs := w.mgrs ++ [m] } : CliPools).mgrs.length = n + (i + 1) := by simp [hw]; omega
    have ho : opened { mgrs := w.mgrs ++ [m] } = opened w + 2 := by rw [opened_snoc, hm]; rfl
    have hc : CliPools.isClosed { mgrs := w.mgrs ++ [m] } ⟨n + i, 0, 0⟩ = (net i).readable := by
      rw [← hw, isClosed_last _ _ _ hm]; cases (net i).readable <;> rfl
    have next := ih (i + 1) { mgrs := w.mgrs ++ [m] } (some ⟨n + i, 0, 0⟩) hl
    simp only [attemptPools, attemptLoop, hg, hw, poolEnv]
    cases stream with
    | error e => simp only; rw [hl, ho]; refine ⟨trivial, ?_⟩; simp [hc]
    | ok bs =>
      simp only [CliPools.sendOn, hc]
      cases hr : (net i).readable
      · simp only [Bool.false_eq_true, if_false]
        cases hs : (net i).send with
        | socketValue =>
          simp only at next ⊢
          obtain ⟨a1, a2, a3, a4, a5, a6, a7⟩ := next
          refine ⟨a1, by omega, by omega, a4, by omega, by omega, fun _ => ?_⟩
          by_cases e : (attemptPools (.ok bs) addr net k (i + 1) { mgrs := w.mgrs ++ [m] }
              (some ⟨n + i, 0, 0⟩)).2.attempts = i + 1
          · obtain ⟨-, b2⟩ := a6 e
            rw [b2]
            simp [hc]
          · exact a7 (by omega)
        | fail e => simp only; rw [hl, ho]; refine ⟨trivial, ?_⟩; simp [hc, hr]
        | hang => simp only; rw [hl, ho]; refine ⟨trivial, ?_⟩; simp [hc, hr]
        | ok z => simp only; rw [hl, ho]; refine ⟨trivial, ?_⟩; simp [hc, hr]
      · simp only [if_true]
        simp only at next
        obtain ⟨a1, a2, a3, a4, a5, a6, a7⟩ := next
        refine ⟨a1, by omega, by omega, a4, by omega, by omega, fun _ => ?_⟩
        by_cases e : (attemptPools (.ok bs) addr net k (i + 1) { mgrs := w.mgrs ++ [m] }
            (some ⟨n + i, 0, 0⟩)).2.attempts = i + 1
        · obtain ⟨-, b2⟩ := a6 e
          rw [b2]
          simp [hc]
        · exact a7 (by omega)

/-- `_raw_invoke` on the pools is `_raw_invoke` in the environment `poolEnv`. -/
theorem rawInvokePools_spec (w : CliPools) (a : CallArgs) (addr : PyStr × Int) (net : Nat → NetFacts) :
    let r := rawInvokePools w a addr net
    (r.out, r.loop) = rawInvoke a (poolEnv w.mgrs.length net) ∧ r.loop.attempts ≤ 3 ∧
    opened r.pools = opened w + 2 * r.loop.attempts ∧ (∀ p, a.request = .ok p → 0 < r.loop.attempts) ∧
    (0 < r.loop.attempts → r.loop.conn = some ⟨w.mgrs.length + (r.loop.attempts - 1), 0, 0⟩ ∧
      r.pools.isClosed ⟨w.mgrs.length + (r.loop.attempts - 1), 0, 0⟩ = (net (r.loop.attempts - 1)).readable) := by
  unfold rawInvokePools rawInvoke
  cases hp : a.request with
  | error e => simp
  | ok p =>
    obtain ⟨a1, -, a3, -, a5, a6, a7⟩ := attemptPools_spec p.toStream addr net w.mgrs.length 3 0 w none rfl
    dsimp only
    refine ⟨by rw [a1]; congr 1; split; rfl; cases (attemptLoop p.toStream _ 3 0 none).conn <;> rfl,
      by omega, by simpa using a5, fun q _ => ?_, a7⟩
    refine Nat.pos_of_ne_zero fun h => ?_
    have := (a6 h).1
    omega

/-- the outcome of a call on the pools is the outcome in the environment `poolEnv`: C49-C53, C86, C91 and C92 apply -/
theorem syncPools_invokeSync (w : CliPools) (a : CallArgs) (t : TimeoutArg) (addr : PyStr × Int) (net : Nat → NetFacts)
    (stream : Bytes) (evs : List RecvEv) :
    ∃ reg, (syncPools w a t addr net stream evs).out =
      invokeSync a t (poolEnv w.mgrs.length net) reg stream evs := by
  obtain ⟨h1, -⟩ := rawInvokePools_spec w { a with timeout := t.obj, ptype := .request } addr net
  have h2 := congrArg Prod.fst h1
  simp only at h2
  unfold syncPools invokeSync
  rw [← h2]
  cases ho : (rawInvokePools w { a with timeout := t.obj, ptype := .request } addr net).out with
  | hang => cases t <;> exact ⟨true, by simp only [ho]⟩
  | raise e => cases t <;> exact ⟨true, by simp only [ho]⟩
  | ok x =>
    obtain ⟨q, c⟩ := x
    refine ⟨!(rawInvokePools w { a with timeout := t.obj, ptype := .request } addr net).pools.isClosed c, ?_⟩
    cases t <;> simp only [ho] <;>
    · cases (rawInvokePools w _ addr net).pools.isClosed c <;> simp <;>
      cases (recvRun q stream evs).out <;> rfl

/-! ## C125 -/

/-- C125 as listed: a call opens at most one connection. -/
def C125_full : Prop :=
  ∀ (w : CliPools) (a : CallArgs) (t : TimeoutArg) (addr : PyStr × Int) (net : Nat → NetFacts) (stream : Bytes)
    (evs : List RecvEv), opened (syncPools w a t addr net stream evs).pools ≤ opened w + 1

/-- what follows `_raw_invoke` in `invoke_sync` opens a connection exactly when a whole response has been read -/
theorem rest_opened (w : CliPools) (a : CallArgs) (addr : PyStr × Int) (net : Nat → NetFacts) (stream : Bytes)
    (evs : List RecvEv) (r : PoolCall SyncRes) (q : PoolCall (Res (Int × ConnId)))
    (hq : q = rawInvokePools w a addr net)
    (hr : r = match q.out with
      | .hang => ⟨q.pools, q.loop, .hung⟩
      | .raise e => ⟨q.pools, q.loop, .ended (.error e)⟩
      | .ok (reqId, c) =>
        if q.pools.isClosed c then ⟨q.pools, q.loop, .ended (.error .valueError)⟩
        else
          let s := recvRun reqId stream evs
          ⟨if s.connBack then (getPool q.pools addr).1 else q.pools, q.loop,
            match s.out with
            | none => .waiting
            | some o => .ended o⟩) :
    r.loop = q.loop ∧
    (opened r.pools = opened w + 2 * r.loop.attempts ∧ (∀ x, r.out ≠ .ended (.ok x)) ∨
     opened r.pools = opened w + 2 * r.loop.attempts + 1 ∧ ∃ o, r.out = .ended o ∧
       Spec.responseOutcome a.id stream = some o) := by
  obtain ⟨h1, -, h3, -⟩ := rawInvokePools_spec w a addr net
  rw [← hq] at h1 h3
  have h2 := congrArg Prod.fst h1
  simp only at h2
  cases ho : q.out with
  | hang => rw [ho] at hr; subst hr; exact ⟨rfl, .inl ⟨h3, by simp⟩⟩
  | raise e => rw [ho] at hr; subst hr; exact ⟨rfl, .inl ⟨h3, by simp⟩⟩
  | ok x =>
    obtain ⟨k, c⟩ := x
    have hk : k = a.id := rawInvoke_id (by rw [← h2, ho])
    subst hk
    rw [ho] at hr
    simp only at hr
    split at hr
    · subst hr; exact ⟨rfl, .inl ⟨h3, by simp⟩⟩
    · subst hr
      refine ⟨rfl, ?_⟩
      dsimp only
      rcases recv_run a.id stream evs with ⟨g1, g2⟩ | ⟨o, g1, g2, -, -, g3, -⟩ | ⟨g1, -, -, g2⟩ | ⟨e, g1, -, -, g2⟩
      · refine .inl ⟨?_, by rw [g1]; simp⟩
        rw [g2.open_.2]; exact h3
      · refine .inr ⟨?_, o, by rw [g1], g2⟩
        obtain ⟨m, e1, e2⟩ := getPool_eq q.pools addr
        rw [g3, if_pos rfl, e1, opened_snoc, e2]
        show opened q.pools + 1 = _
        rw [h3]
      · refine .inl ⟨?_, by rw [g1]; simp⟩
        rw [g2]; exact h3
      · refine .inl ⟨?_, by rw [g1]; simp⟩
        rw [g2]; exact h3

theorem wire_short (w : CliPools) (a : CallArgs) (addr : PyStr × Int) (net : Nat → NetFacts) :
    (rawInvokePools w a addr net).loop.wire.length ≤ 1 := by
  obtain ⟨h1, -⟩ := rawInvokePools_spec w a addr net
  have h2 := congrArg Prod.snd h1
  simp only at h2
  rw [h2]
  cases hp : a.request with
  | error e => unfold rawInvoke; rw [hp]; simp
  | ok p =>
    obtain ⟨-, -, h | ⟨c, b, h, -⟩⟩ := C53_at_most_once a p hp (poolEnv w.mgrs.length net)
    · rw [h.1]; simp
    · rw [h]; simp

/-- C125, what the code does instead. A synchronous call whose request can be built opens two connections in each of
its one to three attempts, and one more if a whole response has been read (as it has if the call returns); it sends
on at most one of them. A one-way call that returns opens two in each attempt and one more. Missing for the listed
claim: `_get_pool` makes a new `PoolManager` with a new pool each time, a new pool opens a connection, and `get_conn`
opens another one as a reserve; the last one is opened in the pool made for giving the connection back. -/
theorem C125_connections_partial (w : CliPools) (a : CallArgs) (t : TimeoutArg) (addr : PyStr × Int)
    (net : Nat → NetFacts) (stream : Bytes) (evs : List RecvEv) :
    (let r := syncPools w a t addr net stream evs;
      r.loop.attempts ≤ 3 ∧ r.loop.wire.length ≤ 1 ∧
      (opened r.pools = opened w + 2 * r.loop.attempts ∧ (∀ x, r.out ≠ .ended (.ok x)) ∨
       opened r.pools = opened w + 2 * r.loop.attempts + 1 ∧ ∃ o, r.out = .ended o ∧
         Spec.responseOutcome a.id stream = some o) ∧
      (∀ p, (∀ o, t ≠ .other o) → ({ a with timeout := t.obj, ptype := .request } : CallArgs).request = .ok p →
        0 < r.loop.attempts)) ∧
    (let r := onewayPools w a addr net;
      r.loop.attempts ≤ 3 ∧ r.loop.wire.length ≤ 1 ∧
      (r.out = .ok () → opened r.pools = opened w + 2 * r.loop.attempts + 1) ∧
      (∀ p, ({ a with timeout := .none, ptype := .oneway } : CallArgs).request = .ok p → 0 < r.loop.attempts)) := by
  constructor
  · obtain ⟨-, b2, -, b4, -⟩ := rawInvokePools_spec w { a with timeout := t.obj, ptype := .request } addr net
    have b6 := wire_short w { a with timeout := t.obj, ptype := .request } addr net
    cases t with
    | other o => simp [syncPools]
    | int i =>
      obtain ⟨c1, c2⟩ := rest_opened w { a with timeout := (TimeoutArg.int i).obj, ptype := .request } addr net stream
        evs (syncPools w a (.int i) addr net stream evs) _ rfl rfl
      dsimp only
      rw [c1] at c2 ⊢
      exact ⟨b2, b6, c2, fun p _ h => b4 p h⟩
    | float i =>
      obtain ⟨c1, c2⟩ := rest_opened w { a with timeout := (TimeoutArg.float i).obj, ptype := .request } addr net stream
        evs (syncPools w a (.float i) addr net stream evs) _ rfl rfl
      dsimp only
      rw [c1] at c2 ⊢
      exact ⟨b2, b6, c2, fun p _ h => b4 p h⟩
  · obtain ⟨-, b2, b3, b4, -⟩ := rawInvokePools_spec w { a with timeout := .none, ptype := .oneway } addr net
    have b6 := wire_short w { a with timeout := .none, ptype := .oneway } addr net
    unfold onewayPools
    cases ho : (rawInvokePools w { a with timeout := .none, ptype := .oneway } addr net).out with
    | hang => simp only [ho]; exact ⟨b2, b6, by simp, b4⟩
    | raise e => simp only [ho]; exact ⟨b2, b6, by simp, b4⟩
    | ok x =>
      simp only [ho]
      refine ⟨b2, b6, fun _ => ?_, b4⟩
      obtain ⟨m, e1, e2⟩ := getPool_eq (rawInvokePools w { a with timeout := .none, ptype := .oneway } addr net).pools addr
      rw [e1, opened_snoc, e2]
      show opened (rawInvokePools w { a with timeout := .none, ptype := .oneway } addr net).pools + 1 = _
      rw [b3]

/-- C125 fails for every call whose request can be built. -/
theorem C125_violated : ¬ C125_full ∧
    ∀ (w : CliPools) (a : CallArgs) (i : Int) (addr : PyStr × Int) (net : Nat → NetFacts) (stream : Bytes)
      (evs : List RecvEv) (p : Pkg), ({ a with timeout := .int i, ptype := .request } : CallArgs).request = .ok p →
      opened w + 2 ≤ opened (syncPools w a (.int i) addr net stream evs).pools := by
  have key : ∀ (w : CliPools) (a : CallArgs) (i : Int) (addr : PyStr × Int) (net : Nat → NetFacts) (stream : Bytes)
      (evs : List RecvEv) (p : Pkg), ({ a with timeout := .int i, ptype := .request } : CallArgs).request = .ok p →
      opened w + 2 ≤ opened (syncPools w a (.int i) addr net stream evs).pools := by
    intro w a i addr net stream evs p hp
    obtain ⟨⟨-, -, h3, h4⟩, -⟩ := C125_connections_partial w a (.int i) addr net stream evs
    have := h4 p (by simp) hp
    rcases h3 with ⟨h3, -⟩ | ⟨h3, -⟩ <;> omega
  refine ⟨fun h => ?_, key⟩
  obtain ⟨p, bs, hp, hs⟩ := exCall_ok
  have h1 := h {} exCall (.int 1000) (py "h", 12200) (fun _ => ⟨false, .ok 0⟩) [] []
  have h2 := key {} exCall 1000 (py "h", 12200) (fun _ => ⟨false, .ok 0⟩) [] [] p hp
  omega

set_option maxRecDepth 20000 in
/-- a call whose first two connections are dead: three attempts, six connections opened, the third one used -/
example :
    let r := syncPools {} exCall (.int 1000) (py "h", 12200) (fun i => ⟨i < 2, .ok 1000⟩) [] []
    r.loop.attempts = 3 ∧ opened r.pools = 6 ∧ r.loop.wire.map (·.1) = [⟨2, 0, 0⟩] ∧ r.out = .waiting := by
  decide +kernel

/-! ## C126 -/

theorem attemptLoop_live {bs : Bytes} (n : Nat) (net : Nat → NetFacts) (j : Nat)
    (hdead : ∀ i, i < j → (net i).readable = true ∨ (net i).send = .socketValue) (hlive : (net j).readable = false)
    (z : Nat) (hz : (net j).send = .ok z) :
    ∀ (k i : Nat) (conn : Option ConnId), i ≤ j → j < i + k →
      attemptLoop (.ok bs) (poolEnv n net) k i conn =
        { attempts := j + 1, wire := [(⟨n + j, 0, 0⟩, bs.take z)], conn := some ⟨n + j, 0, 0⟩ } := by
  intro k
  induction k with
  | zero => intro i conn h1 h2; omega
  | succ k ih =>
    intro i conn h1 h2
    simp only [attemptLoop, poolEnv]
    by_cases e : i = j
    · subst e
      rw [hlive, hz]
      simp
    · have : (if (net i).readable then SendRes.socketValue else (net i).send) = .socketValue := by
        rcases hdead i (by omega) with h | h
        · rw [h]; rfl
        · rw [h]; split <;> rfl
      rw [this]
      exact ih (i + 1) _ (by omega) (by omega)

theorem attemptLoop_dead {bs : Bytes} (n : Nat) (net : Nat → NetFacts) :
    ∀ (k i : Nat) (conn : Option ConnId),
      (∀ j, j < i + k → (net j).readable = true ∨ (net j).send = .socketValue) →
      (attemptLoop (.ok bs) (poolEnv n net) k i conn).attempts = i + k ∧
      (attemptLoop (.ok bs) (poolEnv n net) k i conn).wire = [] ∧
      (attemptLoop (.ok bs) (poolEnv n net) k i conn).hung = false := by
  intro k
  induction k with
  | zero => intro i conn _; exact ⟨rfl, rfl, rfl⟩
  | succ k ih =>
    intro i conn h
    simp only [attemptLoop, poolEnv]
    have : (if (net i).readable then SendRes.socketValue else (net i).send) = .socketValue := by
      rcases h i (by omega) with h | h
      · rw [h]; rfl
      · rw [h]; split <;> rfl
    rw [this]
    obtain ⟨a, b, c⟩ := ih (i + 1) (some ⟨n + i, 0, 0⟩) (fun j hj => h j (by omega))
    exact ⟨by rw [a]; omega, b, c⟩

/-- C126. A synchronous call whose request can be built gets a connection in each attempt, a new one each time.
(1) If every connection it gets looks dead when it is tested (nobody listens at the address), the call ends at once
with a ValueError, nothing having been sent, after three attempts if the request can be encoded.
(2) If some attempt gets a connection that lives and sends, dead ones before it do not matter: the request goes out
on that connection, and what the call makes of the bytes that arrive is what one gets on a connection that was alive
from the start. -/
theorem C126_dead_connections (w : CliPools) (a : CallArgs) (t : Int) (addr : PyStr × Int) (net : Nat → NetFacts)
    (stream : Bytes) (evs : List RecvEv) (p : Pkg)
    (hp : ({ a with timeout := .int t, ptype := .request } : CallArgs).request = .ok p) :
    let r := syncPools w a (.int t) addr net stream evs
    (∃ c, r.loop.conn = some c ∧ w.mgrs.length ≤ c.mgr) ∧
    ((∀ i, i < 3 → (net i).readable = true) →
      r.out = .ended (.error .valueError) ∧ r.loop.wire = [] ∧
      ∀ bs, p.toStream = .ok bs → r.loop.attempts = 3) ∧
    (∀ j z bs, j < 3 → p.toStream = .ok bs →
      (∀ i, i < j → (net i).readable = true ∨ (net i).send = .socketValue) →
      (net j).readable = false → (net j).send = .ok z →
      ∃ c, r.loop.wire = [(c, bs.take z)] ∧ r.loop.attempts = j + 1 ∧
        r.out = match (recvRun a.id stream evs).out with
          | none => .waiting
          | some o => .ended o) := by
  obtain ⟨b1, b2, b3, b4, b5⟩ := rawInvokePools_spec w { a with timeout := .int t, ptype := .request } addr net
  have b0 := b4 p hp
  obtain ⟨b6, b7⟩ := b5 b0
  have l1 := congrArg Prod.snd b1
  have l2 := congrArg Prod.fst b1
  simp only at l1 l2
  have hl : (rawInvoke { a with timeout := .int t, ptype := .request } (poolEnv w.mgrs.length net)).2 =
      attemptLoop p.toStream (poolEnv w.mgrs.length net) 3 0 none := by
    unfold rawInvoke; rw [hp]
  have hloop : (syncPools w a (.int t) addr net stream evs).loop =
      (rawInvokePools w { a with timeout := .int t, ptype := .request } addr net).loop :=
    (rest_opened w _ addr net stream evs (syncPools w a (.int t) addr net stream evs) _ rfl rfl).1
  have hout : (rawInvokePools w { a with timeout := .int t, ptype := .request } addr net).loop.hung = false →
      (rawInvokePools w { a with timeout := .int t, ptype := .request } addr net).out =
        .ok (a.id, ⟨w.mgrs.length +
          ((rawInvokePools w { a with timeout := .int t, ptype := .request } addr net).loop.attempts - 1), 0, 0⟩) := by
    intro hh
    revert b6 hh
    unfold rawInvokePools
    rw [hp]
    dsimp only
    intro b6 hh
    rw [b6, hh]
    rfl
  have hsync : ∀ c, (rawInvokePools w { a with timeout := .int t, ptype := .request } addr net).out = .ok (a.id, c) →
      (syncPools w a (.int t) addr net stream evs).out =
        if (rawInvokePools w { a with timeout := .int t, ptype := .request } addr net).pools.isClosed c then
          .ended (.error .valueError)
        else match (recvRun a.id stream evs).out with
          | none => .waiting
          | some o => .ended o := by
    intro c hc
    unfold syncPools
    simp only [TimeoutArg.obj, hc]
    by_cases e : (rawInvokePools w { a with timeout := .int t, ptype := .request } addr net).pools.isClosed c = true
    · simp only [e, if_true]
    · simp only [e, if_false, Bool.false_eq_true]
      cases (recvRun a.id stream evs).out <;> rfl
  intro r
  refine ⟨⟨_, by rw [hloop]; exact b6, Nat.le_add_right _ _⟩, fun hd => ?_, fun j z bs hj hs hd hv hz => ?_⟩
  · have hfin : (rawInvokePools w { a with timeout := .int t, ptype := .request } addr net).loop.hung = false ∧
        (rawInvokePools w { a with timeout := .int t, ptype := .request } addr net).loop.wire = [] ∧
        ∀ bs, p.toStream = .ok bs →
          (rawInvokePools w { a with timeout := .int t, ptype := .request } addr net).loop.attempts = 3 := by
      rw [l1, hl]
      cases hs : p.toStream with
      | error e => simp [attemptLoop, poolEnv]
      | ok bs =>
        obtain ⟨c1, c2, c3⟩ := attemptLoop_dead (bs := bs) w.mgrs.length net 3 0 none (fun j hj => .inl (hd j (by omega)))
        exact ⟨c3, c2, fun _ _ => c1⟩
    obtain ⟨f1, f2, f3⟩ := hfin
    refine ⟨?_, by rw [hloop]; exact f2, fun bs hb => by rw [hloop]; exact f3 bs hb⟩
    show (syncPools w a (.int t) addr net stream evs).out = _
    rw [hsync _ (hout f1), b7, hd _ (by omega)]
    rfl
  · have hfin := attemptLoop_live (bs := bs) w.mgrs.length net j hd hv z hz 3 0 none (by omega) (by omega)
    rw [hs] at hl
    rw [hl, hfin] at l1
    refine ⟨_, by rw [hloop, l1], by rw [hloop, l1], ?_⟩
    show (syncPools w a (.int t) addr net stream evs).out = _
    rw [hsync _ (hout (by rw [l1])), b7, l1]
    simp only [Nat.add_sub_cancel, hv]
    rfl

set_option maxRecDepth 20000 in
/-- nobody listens -/
example :
    let r := syncPools {} exCall (.int 1000) (py "h", 12200) (fun _ => ⟨true, .ok 1000⟩) [] []
    r.loop.attempts = 3 ∧ r.loop.wire = [] ∧ r.out = .ended (.error .valueError) := by
  decide +kernel

end Bolt
