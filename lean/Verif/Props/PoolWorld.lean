import Verif.Model.PoolWorld
import Verif.Props.PoolManager
import Verif.Props.Pool
/-! C34 for the pools themselves: what the manager has evicted is closed, what it manages is open. -/
namespace Bolt
variable {K : Type} [DecidableEq K]
open CPool

/-- the pools named in `l` are closed, one after the other -/
def MgrWorld.closeAll (w : MgrWorld K) (l : List PoolRef) : MgrWorld K :=
  l.foldl (fun w i => w.upd i fun p => p.close.1) w

omit [DecidableEq K] in
theorem closeAll_mgr (w : MgrWorld K) (l : List PoolRef) :
    (w.closeAll l).mgr = w.mgr ∧ (w.closeAll l).pools.length = w.pools.length := by
  induction l generalizing w with
  | nil => exact ⟨rfl, rfl⟩
  | cons i l ih =>
    obtain ⟨h1, h2⟩ := ih (w.upd i fun p => p.close.1)
    exact ⟨h1, h2.trans (by simp [MgrWorld.upd])⟩

omit [DecidableEq K] in
theorem closeAll_free (w : MgrWorld K) (l : List PoolRef) (p : PoolRef) :
    ((w.closeAll l).pools[p]?).map CPool.free = (w.pools[p]?).map fun q => if p ∈ l then none else q.free := by
  induction l generalizing w with
  | nil => simp [MgrWorld.closeAll]
  | cons i l ih =>
    have := ih (w.upd i fun p => p.close.1)
    refine this.trans ?_
    unfold MgrWorld.upd
    dsimp only
    rw [List.getElem?_modify]
    cases w.pools[p]? with
    | none => rfl
    | some q =>
      by_cases hi : i = p
      · subst hi
        have : q.close.1.free = none := by unfold CPool.close; split <;> simp_all
        simp [this]
      · have hi' : ¬ p = i := fun h => hi h.symm
        simp [hi, hi']

theorem fill_free {cfg : PoolCfg} {i : Nat} {p p' : CPool} (h : p.free.isSome) (hf : fill cfg i p = .ok p') :
    p'.free.isSome := by
  induction i generalizing p with
  | zero => cases hf; exact h
  | succ i ih =>
    unfold fill at hf
    split at hf
    · cases hf
    · split at hf
      · cases hf
      · split at hf
        · cases hf
        · exact ih (by simp) hf

theorem getConn_isSome (cfg : PoolCfg) (p : CPool) (t r : Bool) : (getConn cfg p t r).1.free.isSome = p.free.isSome := by
  cases hq : p.free with
  | none => simp [getConn_free_none hq, hq]
  | some q =>
    cases q with
    | nil => simp [getConn_free_nil hq]
    | cons c q =>
      rcases getConn_free_pop (cfg := cfg) hq t r with ⟨e, h⟩ | ⟨-, h | ⟨-, h⟩⟩ <;> simp [h]

theorem putConn_isSome (cfg : PoolCfg) (p : CPool) (c : ConnRef) : (putConn cfg p c).free.isSome = p.free.isSome := by
  unfold putConn
  split
  · next h => simp [closeConn, h]
  · next q h => split <;> simp [closeConn, h]

/-- the invariant: a pool is closed exactly when the container has disposed of it -/
structure WorldInv (n : Nat) (w : MgrWorld K) : Prop where
  mgr : MgrInv n w.mgr
  len : w.pools.length = w.mgr.created.length
  closed : ∀ p pool, w.pools[p]? = some pool → (p ∈ w.mgr.pools.disposed ↔ pool.free.isSome = false)

omit [DecidableEq K] in
theorem WorldInv.upd {n : Nat} {w : MgrWorld K} (h : WorldInv n w) (p : PoolRef) (f : CPool → CPool)
    (hf : ∀ q, (f q).free.isSome = q.free.isSome) : WorldInv n (w.upd p f) := by
  refine ⟨h.mgr, by simpa [MgrWorld.upd] using h.len, fun i pool hi => ?_⟩
  unfold MgrWorld.upd at hi ⊢
  dsimp only at hi ⊢
  rw [List.getElem?_modify] at hi
  cases hq : w.pools[i]? with
  | none => rw [hq] at hi; simp at hi
  | some q =>
    rw [hq] at hi
    have := h.closed i q hq
    split at hi
    · simp at hi; rw [← hi, hf]; exact this
    · simp at hi; rw [← hi]; exact this

theorem setitem_disposed {V : Type} (s : Ru K V) (k : K) (v : V) : ∃ l, (s.setitem k v).disposed = s.disposed ++ l := by
  unfold Ru.setitem
  dsimp only
  split
  · split
    · exact ⟨_, rfl⟩
    · exact ⟨_, rfl⟩
  · exact ⟨_, rfl⟩

omit [DecidableEq K] in
theorem WorldInv.closeAll {n : Nat} {w : MgrWorld K} {l old : List PoolRef} (hm : MgrInv n w.mgr)
    (hlen : w.pools.length = w.mgr.created.length) (hd : w.mgr.pools.disposed = old ++ l)
    (hc : ∀ p pool, w.pools[p]? = some pool → (p ∈ old ↔ pool.free.isSome = false)) : WorldInv n (w.closeAll l) := by
  obtain ⟨e1, e2⟩ := closeAll_mgr w l
  refine ⟨by rw [e1]; exact hm, by rw [e2, e1]; exact hlen, fun p pool hp => ?_⟩
  have h := closeAll_free w l p
  rw [hp] at h
  cases hq : w.pools[p]? with
  | none => rw [hq] at h; simp at h
  | some q =>
    rw [hq] at h
    simp at h
    have := hc p q hq
    rw [e1, hd, List.mem_append, this, h]
    by_cases hl : p ∈ l
    · simp [hl]
    · simp [hl]

theorem WorldInv.ask {cfg : PoolCfg} {n : Nat} {w : MgrWorld K} (h : WorldInv n w) (k : K) :
    WorldInv n (w.poolFor cfg k).1 := by
  have hm1 := mgrInv_ask h.mgr k (.ok ())
  unfold MgrWorld.poolFor
  rcases getitem_cases w.mgr.pools h.mgr.ru k with ⟨hk, hg⟩ | ⟨p, a, b, h1, hg⟩
  · have hget : w.mgr.pools.get k = (w.mgr.pools, none) := by simp [Ru.get, hg]
    rw [hget]
    dsimp only
    cases hi : CPool.init cfg with
    | hang => exact h
    | raise e => exact h
    | ok pool =>
      have hpf : w.mgr.poolFor k (.ok ())
          = ({ pools := w.mgr.pools.setitem k w.mgr.created.length, created := w.mgr.created ++ [k] }, .ok w.mgr.created.length) := by
        simp [PoolMgr.poolFor, hget]
      rw [hpf] at hm1
      simp only [hpf]
      obtain ⟨l, hl⟩ := setitem_disposed w.mgr.pools k w.mgr.created.length
      rw [hl]
      simp only [List.drop_left]
      refine WorldInv.closeAll (w := ⟨_, _⟩) hm1 (by simp [h.len]) hl ?_
      intro p q hq
      dsimp only at hq
      by_cases hp : p < w.pools.length
      · rw [List.getElem?_append_left hp] at hq
        exact h.closed p q hq
      · rw [List.getElem?_append_right (Nat.le_of_not_lt hp)] at hq
        have hq' : q = pool := by
          cases hx : p - w.pools.length with
          | zero => rw [hx] at hq; simpa using hq.symm
          | succ m => rw [hx] at hq; simp at hq
        subst hq'
        have h1 : q.free.isSome = true := fill_free (p := {}) rfl hi
        rw [h1]
        refine ⟨fun hd => ?_, fun hd => (by cases hd)⟩
        have : p ∈ List.range w.mgr.created.length := h.mgr.books.mem_iff.1 (List.mem_append_left _ hd)
        rw [List.mem_range, ← h.len] at this
        exact absurd this hp
  · have hget : w.mgr.pools.get k = ({ w.mgr.pools with container := a ++ b ++ [(k, p)] }, some p) := by simp [Ru.get, hg]
    rw [hget]
    have hpf : w.mgr.poolFor k (.ok ())
        = ({ w.mgr with pools := { w.mgr.pools with container := a ++ b ++ [(k, p)] } }, .ok p) := by
      simp [PoolMgr.poolFor, hget]
    rw [hpf] at hm1
    exact ⟨hm1, h.len, h.closed⟩

theorem WorldInv.clear {n : Nat} {w : MgrWorld K} (h : WorldInv n w) : WorldInv n w.clear := by
  have hd : w.mgr.clear.pools.disposed = w.mgr.pools.disposed ++ w.mgr.pools.container.map Prod.snd := rfl
  unfold MgrWorld.clear
  simp only [hd, List.drop_left]
  exact WorldInv.closeAll (w := ⟨_, _⟩) (mgrInv_step h.mgr .clear) h.len hd h.closed

theorem WorldInv.run (cfg : PoolCfg) (n : Nat) (ops : List (WorldOp K)) : WorldInv n (worldRun cfg n ops) := by
  have : ∀ w : MgrWorld K, WorldInv n w → WorldInv n (ops.foldl (worldStep cfg) w) := by
    induction ops with
    | nil => exact fun _ h => h
    | cons op ops ih =>
      intro w h
      refine ih _ ?_
      cases op with
      | ask k => exact h.ask k
      | get p t r => exact h.upd p _ fun q => getConn_isSome cfg q t r
      | put p c => exact h.upd p _ fun q => putConn_isSome cfg q c
      | closeConn p c => exact h.upd p _ fun q => rfl
      | clear => exact h.clear
  exact this _ ⟨mgrInv_init n, rfl, fun p pool hp => (by simp at hp)⟩

/-- C34 for the pools themselves. After any history of requests, clears and uses of the pools (evicted or not): there are as
many pools as were created and at most `max_pools` of them are managed; a pool that is managed is open, and a pool that is not
managed any more is closed: it keeps nothing, `get_conn` raises `ClosedPoolError` and `put_conn` closes the connection. -/
theorem C34_evicted_closed (cfg : PoolCfg) (n : Nat) (ops : List (WorldOp K)) :
    let w := worldRun cfg n ops
    w.pools.length = w.mgr.created.length ∧ w.mgr.pools.len ≤ n ∧
    (∀ k p, PyDict.get? w.mgr.pools.container k = some p →
      ∃ pool q, w.pools[p]? = some pool ∧ pool.free = some q) ∧
    (∀ p pool, w.pools[p]? = some pool → (∀ k, PyDict.get? w.mgr.pools.container k ≠ some p) →
      pool.free = none ∧ (∀ t r, getConn cfg pool t r = (pool, .raise .closedPool)) ∧
      ∀ c, putConn cfg pool c = { pool with closed := c :: pool.closed }) := by
  intro w
  have hw : WorldInv n w := WorldInv.run cfg n ops
  have hm := hw.mgr
  have hnd := hm.books.symm.nodup List.nodup_range
  rw [List.nodup_append] at hnd
  refine ⟨hw.len, by have := hm.ru.2; rwa [hm.size] at this, ?_, ?_⟩
  · intro k p hkp
    have hmem : p ∈ w.mgr.pools.container.map Prod.snd := List.mem_map.2 ⟨_, PyDict.get?_mem hkp, rfl⟩
    have hlt : p ∈ List.range w.mgr.created.length := hm.books.mem_iff.1 (List.mem_append_right _ hmem)
    rw [List.mem_range, ← hw.len] at hlt
    have hp := List.getElem?_eq_getElem hlt
    refine ⟨w.pools[p], ?_⟩
    have hd : p ∉ w.mgr.pools.disposed := fun hd => hnd.2.2 p hd p hmem rfl
    rw [hw.closed p _ hp] at hd
    simp only [Bool.not_eq_false] at hd
    obtain ⟨q, hq⟩ := Option.isSome_iff_exists.1 hd
    exact ⟨q, hp, hq⟩
  · intro p pool hp hno
    have hlt := (List.getElem?_eq_some_iff.1 hp).1
    have hin : p ∈ w.mgr.pools.disposed ++ w.mgr.pools.container.map Prod.snd :=
      hm.books.mem_iff.2 (by rw [List.mem_range, ← hw.len]; exact hlt)
    have hd : p ∈ w.mgr.pools.disposed := by
      rcases List.mem_append.1 hin with h | h
      · exact h
      · obtain ⟨⟨k, p'⟩, h1, rfl⟩ := List.mem_map.1 h
        exact absurd (PyDict.get?_of_mem hm.ru.1 h1) (hno k)
    have hf := (hw.closed p pool hp).1 hd
    have hf : pool.free = none := by cases h : pool.free with
      | none => rfl
      | some q => rw [h] at hf; cases hf
    exact ⟨hf, fun t r => getConn_free_none hf t r, fun c => by simp [putConn, hf, closeConn]⟩

example : (worldRun {} 1 [.ask (7 : Nat), .get 0 false false, .ask 8, .put 0 0, .get 1 false false]).pools
    = [{ free := none, num := 2, made := 2, closed := [0, 1] }, { free := some [1], num := 2, made := 2 }] := by decide

end Bolt
