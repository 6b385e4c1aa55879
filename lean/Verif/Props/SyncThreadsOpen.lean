import Verif.Props.SyncThreads
/-!
# C151: which connections the calls read from
-/
namespace Bolt
open Spec

/-- a call reads from an open connection; one that ends without reading was given a closed one -/
def SyOpn (w : CliPools) (c : SyCall) : Prop :=
  match c.pc with
  | .attempt | .pooled _ _ | .got _ => c.rounds = []
  | .hung => True
  | .reading x _ => w.isClosed x = false
  | .putting _ _ => c.timeout ≠ none → c.rounds ≠ []
  | .ended o => c.timeout ≠ none → c.rounds = [] → ∀ x, c.conn = some x → w.isClosed x = true ∧ o = .error .valueError

theorem isClosed_frame {w w' : CliPools} {x : ConnId} (h : w'.mgrs[x.mgr]? = w.mgrs[x.mgr]?) : w'.isClosed x = w.isClosed x := by
  unfold CliPools.isClosed; rw [h]

theorem SyOpn.frame {w w' : CliPools} {c : SyCall} (h : SyOpn w c) (hx : ∀ x, c.conn = some x → w'.mgrs[x.mgr]? = w.mgrs[x.mgr]?)
    (hr : ∀ x r, c.pc = .reading x r → c.conn = some x) : SyOpn w' c := by
  unfold SyOpn at h ⊢
  split <;> simp only [*] at h ⊢
  · exact h
  · exact h
  · exact h
  · next x r hp => rw [isClosed_frame (hx x (hr x r hp))]; exact h
  · exact h
  · next o hp =>
    intro h1 h2 x h3
    rw [isClosed_frame (hx x h3)]
    exact h h1 h2 x h3

theorem SyOpn.leave {peer : ConnId → Bytes} {w : CliPools} {c : SyCall} : SyOpn w (syLeave peer w c) := by
  unfold syLeave
  split
  · next hn => exact fun _ _ x hx => by rw [hn] at hx; cases hx
  · next x hx =>
    split
    · next ht => exact fun hn => absurd ht hn
    · split
      · next hcl => exact fun _ _ y hy => by rw [hx] at hy; cases hy; exact ⟨hcl, rfl⟩
      · next hcl => exact Bool.eq_false_iff.2 hcl

theorem SyOpn.brk {peer : ConnId → Bytes} {w : CliPools} {c : SyCall} (a : Attempt ConnId) :
    SyOpn w (syBreak peer w c a) := SyOpn.leave

theorem SyOpn.again {peer : ConnId → Bytes} {w : CliPools} {c : SyCall} (a : Attempt ConnId) (h : c.rounds = []) :
    SyOpn w (syAgain peer w c a) := by
  unfold syAgain
  dsimp only
  split
  · exact SyOpn.leave
  · exact h

theorem SyOpn.raise {peer : ConnId → Bytes} {w : CliPools} {c : SyCall} (e : PyExc) (h : c.rounds = []) :
    SyOpn w (syRaise peer w c e) := by
  unfold syRaise
  split
  · exact SyOpn.again _ h
  · exact SyOpn.brk _

theorem SyOk.reading {peer : ConnId → Bytes} {w : List (ConnId × Bytes)} {c : SyCall} (h : SyOk peer w c) {x : ConnId} {r : RecvSt}
    (hp : c.pc = .reading x r) : c.conn = some x := by
  unfold SyOk at h
  rw [hp] at h
  exact h.2.1

/-- call `i` makes a step; the managers of the others stay as they are -/
theorem opn_set {peer : ConnId → Bytes} {s : SySt} (h : SyInv peer s)
    (ho : ∀ (j : Nat) (d : SyCall), s.calls[j]? = some d → SyOpn s.pools d) {i : Nat} {c : SyCall} (hc : s.calls[i]? = some c)
    (c' : SyCall) (w' : CliPools) (hf : ∀ m, m < s.pools.mgrs.length → m ∉ c.mine → w'.mgrs[m]? = s.pools.mgrs[m]?)
    (hn : SyOpn w' c') : ∀ (j : Nat) (d : SyCall), (s.calls.set i c')[j]? = some d → SyOpn w' d := by
  intro j d hj
  have hi := (List.getElem?_eq_some_iff.1 hc).1
  by_cases e : j = i
  · subst e
    rw [List.getElem?_set_self hi] at hj
    cases hj
    exact hn
  · rw [List.getElem?_set_ne (fun e' => e e'.symm)] at hj
    refine (ho j d hj).frame (fun x hx => ?_) (fun x r hp => (h.ok j d hj).reading hp)
    have hm := h.conn j d x hj hx
    exact hf _ (h.below j d hj _ hm) fun hm' => e (h.apart j i d c _ hj hc hm hm')

theorem getPool_frame (w : CliPools) (a : PyStr × Int) (m : Nat) (hm : m < w.mgrs.length) :
    (getPool w a).1.mgrs[m]? = w.mgrs[m]? := by
  simp only [getPool]
  exact List.getElem?_append_left hm

theorem getConnOf_frame (w : CliPools) (n : Nat) (p : PoolRef) (r : Bool) (m : Nat) (hm : m ≠ n) :
    (getConnOf w n p r).1.mgrs[m]? = w.mgrs[m]? := by
  unfold getConnOf
  split
  · rfl
  · dsimp only
    rw [List.getElem?_modify]
    cases w.mgrs[m]? <;> simp [Ne.symm hm]

theorem closeConn_frame (w : CliPools) (x : ConnId) (m : Nat) (hm : m ≠ x.mgr) : (w.closeConn x).mgrs[m]? = w.mgrs[m]? := by
  unfold CliPools.closeConn
  dsimp only
  rw [List.getElem?_modify]
  cases w.mgrs[m]? <;> simp [Ne.symm hm]

theorem recvStep_open (id : Int) (s : RecvSt) (e : RecvEv) (h : s.out = none → s.connClosed = false) :
    (recvStep id s e).out = none → (recvStep id s e).connClosed = false := by
  have hp : ∀ t : RecvSt, (parseHdr t).connClosed = t.connClosed := by
    intro t; unfold parseHdr
    split
    · split
      · rfl
      · split <;> rfl
    · rfl
  have hl : ∀ t : RecvSt, (loopTest id t).connClosed = t.connClosed := by
    intro t; unfold loopTest
    split
    · rfl
    · split
      · rfl
      · split <;> rfl
  unfold recvStep
  split
  · exact h
  · next ho =>
    have ho : s.out = none := by simpa using ho
    split
    · exact fun h => by cases h
    · exact fun h => by cases h
    · intro _
      dsimp only
      rw [hl, hp]
      exact h ho

theorem recvRun_open (id : Int) (st : Bytes) (evs : List RecvEv) : (recvRun id st evs).out = none →
    (recvRun id st evs).connClosed = false := by
  induction evs using snoc_induct with
  | nil => intro _; rfl
  | snoc evs e ih =>
    rw [show recvRun id st (evs ++ [e]) = recvStep id (recvRun id st evs) e by simp [recvRun]]
    exact recvStep_open id _ e ih

theorem opn_step {peer : ConnId → Bytes} {s : SySt} (h : SyInv peer s)
    (ho : ∀ (j : Nat) (d : SyCall), s.calls[j]? = some d → SyOpn s.pools d) (e : SyEv) :
    ∀ (j : Nat) (d : SyCall), (syStep peer s e).calls[j]? = some d → SyOpn (syStep peer s e).pools d := by
  cases e with
  | call a t =>
    intro j d hj
    show SyOpn s.pools d
    simp only [syStep] at hj
    rw [List.getElem?_append] at hj
    split at hj
    · exact ho j d hj
    · have := List.mem_of_getElem? hj
      rw [List.mem_singleton] at this
      subst this
      unfold syStart
      split
      · exact fun _ _ x hx => by cases hx
      · split
        · exact fun _ _ x hx => by cases hx
        · rfl
  | getPool i addr =>
    unfold syStep
    dsimp only
    split
    · exact ho
    · rename_i c hc
      have hoc := ho i c hc
      split
      · rename_i e hpc
        unfold SyOpn at hoc
        rw [hpc] at hoc
        exact opn_set h ho hc _ _ (fun _ _ _ => rfl) (SyOpn.raise _ hoc)
      · rename_i a hpc
        unfold SyOpn at hoc
        rw [hpc] at hoc
        split
        · exact opn_set h ho hc _ _ (fun m hm _ => getPool_frame _ _ _ hm) hoc
        · exact opn_set h ho hc _ _ (fun m hm _ => getPool_frame _ _ _ hm) (SyOpn.raise _ hoc)
        · exact opn_set h ho hc _ _ (fun m hm _ => getPool_frame _ _ _ hm) trivial
      · exact ho
  | getConn i readable =>
    unfold syStep
    dsimp only
    split
    · exact ho
    · rename_i c hc
      have hoc := ho i c hc
      have hok := h.ok i c hc
      split
      · rename_i m p hpc
        unfold SyOpn at hoc
        rw [hpc] at hoc
        unfold SyOk at hok
        rw [hpc] at hok
        have hf : ∀ m', m' < s.pools.mgrs.length → m' ∉ c.mine →
            (getConnOf s.pools m p readable).1.mgrs[m']? = s.pools.mgrs[m']? := fun m' _ hm' =>
          getConnOf_frame _ _ _ _ _ fun e => hm' (e ▸ hok.2)
        split
        · exact opn_set h ho hc _ _ hf hoc
        · exact opn_set h ho hc _ _ hf (SyOpn.raise _ hoc)
        · exact opn_set h ho hc _ _ hf trivial
      · exact ho
  | send i r =>
    unfold syStep
    dsimp only
    split
    · exact ho
    · rename_i c hc
      have hoc := ho i c hc
      split
      · rename_i x hpc
        unfold SyOpn at hoc
        rw [hpc] at hoc
        split
        · exact opn_set h ho hc _ _ (fun _ _ _ => rfl) (SyOpn.brk _)
        · split
          · exact opn_set h ho hc _ _ (fun _ _ _ => rfl) (SyOpn.again _ hoc)
          · exact opn_set h ho hc _ _ (fun _ _ _ => rfl) (SyOpn.brk _)
          · exact opn_set h ho hc _ _ (fun _ _ _ => rfl) trivial
          · exact opn_set h ho hc _ _ (fun _ _ _ => rfl) (SyOpn.brk _)
      · exact ho
  | round i e =>
    unfold syStep
    dsimp only
    split
    · exact ho
    · rename_i c hc
      have hoc := ho i c hc
      have hok := h.ok i c hc
      split
      · rename_i x r hpc
        unfold SyOpn at hoc
        rw [hpc] at hoc
        have hconn := hok.reading hpc
        unfold SyOk at hok
        rw [hpc] at hok
        have hmine := h.conn i c x hc hconn
        have hf : ∀ m', m' < s.pools.mgrs.length → m' ∉ c.mine → (s.pools.closeConn x).mgrs[m']? = s.pools.mgrs[m']? :=
          fun m' _ hm' => closeConn_frame _ _ _ fun e => hm' (e ▸ hmine)
        have hne : c.rounds ++ [e] ≠ [] := by simp
        split
        · rename_i hout
          have hcl : (recvStep c.args.id r e).connClosed = false := by
            refine recvStep_open _ _ _ (fun _ => ?_) hout
            obtain ⟨-, -, -, hev, hnone⟩ := hok
            rw [hev] at hnone ⊢
            exact recvRun_open _ _ _ hnone
          simp only [hcl, Bool.false_eq_true, if_false]
          exact opn_set h ho hc _ _ (fun _ _ _ => rfl) hoc
        · rename_i o hout
          have hn : ∀ w : CliPools, SyOpn w { c with rounds := c.rounds ++ [e], pc := if (recvStep c.args.id r e).connBack then .putting x o else .ended o } := by
            intro w
            unfold SyOpn
            dsimp only
            split <;> rename_i heq <;> split at heq <;> (try cases heq)
            · exact fun _ => hne
            · exact fun _ hr => absurd hr hne
          by_cases hb : (recvStep c.args.id r e).connClosed
          · simp only [hb, if_true]
            exact opn_set h ho hc _ _ hf (hn _)
          · simp only [hb]
            exact opn_set h ho hc _ _ (fun _ _ _ => rfl) (hn _)
      · exact ho
  | put i addr =>
    unfold syStep
    dsimp only
    split
    · exact ho
    · rename_i c hc
      have hoc := ho i c hc
      split
      · rename_i x o e hpc
        unfold SyOpn at hoc
        rw [hpc] at hoc
        exact opn_set h ho hc _ _ (fun _ _ _ => rfl) fun h1 h2 => absurd h2 (hoc h1)
      · rename_i x o a hpc
        unfold SyOpn at hoc
        rw [hpc] at hoc
        split
        · exact opn_set h ho hc _ _ (fun m hm _ => getPool_frame _ _ _ hm) fun h1 h2 => absurd h2 (hoc h1)
        · exact opn_set h ho hc _ _ (fun m hm _ => getPool_frame _ _ _ hm) fun h1 h2 => absurd h2 (hoc h1)
        · exact opn_set h ho hc _ _ (fun m hm _ => getPool_frame _ _ _ hm) trivial
      · exact ho

theorem syRun_snoc (peer : ConnId → Bytes) (evs : List SyEv) (e : SyEv) :
    syRun peer (evs ++ [e]) = syStep peer (syRun peer evs) e := by simp [syRun]

theorem syRun_opn (peer : ConnId → Bytes) (evs : List SyEv) :
    ∀ (j : Nat) (d : SyCall), (syRun peer evs).calls[j]? = some d → SyOpn (syRun peer evs).pools d := by
  induction evs using snoc_induct with
  | nil => intro j d h; simp [syRun] at h
  | snoc evs e ih => rw [syRun_snoc]; exact opn_step (SyInv.run peer evs) ih e

/-- C151: a call of `invoke_sync` reads from a connection that nobody has closed; one that has a connection and ends without
having read anything ends with the `ValueError` of the selector, and its connection had been closed by `get_conn`. -/
theorem C151_open (peer : ConnId → Bytes) (evs : List SyEv) (i : Nat) (c : SyCall) (x : ConnId)
    (hc : (syRun peer evs).calls[i]? = some c) (hx : c.conn = some x) (ht : c.timeout ≠ none) :
    (∀ y r, c.pc = .reading y r → y = x ∧ (syRun peer evs).pools.isClosed x = false) ∧
    (∀ o, c.pc = .ended o → c.rounds = [] → o = .error .valueError ∧ (syRun peer evs).pools.isClosed x = true) := by
  have ho := syRun_opn peer evs i c hc
  have hok := (SyInv.run peer evs).ok i c hc
  refine ⟨fun y r hp => ?_, fun o hp hr => ?_⟩
  · have := hok.reading hp
    rw [hx] at this
    cases this
    unfold SyOpn at ho
    rw [hp] at ho
    exact ⟨rfl, ho⟩
  · unfold SyOpn at ho
    rw [hp] at ho
    exact (ho ht hr x hx).symm

/-- a call that finds its connection dead three times, next to one that reads and a one-way call -/
def exDeadEvs : List SyEv :=
  [.call exThreadA (some (.int 1000)), .call exThreadB (some (.int 1000)), .call exThreadB none, .getPool 2 (.ok (py "h", 1)),
   .getPool 1 (.ok (py "h", 1)), .getConn 1 false, .getConn 2 false, .send 2 (.ok 3), .send 1 (.ok 1000)] ++
  (List.replicate 3 [SyEv.getPool 0 (.ok (py "h", 1)), .getConn 0 true, .send 0 (.ok 1000)]).flatten ++
  [.put 2 (.ok (py "h", 1))]

set_option maxRecDepth 40000 in
example : (syRun exThreadPeer exDeadEvs).calls.map (fun c => (c.conn, c.rounds)) =
      [(some ⟨4, 0, 0⟩, []), (some ⟨1, 0, 0⟩, []), (some ⟨0, 0, 0⟩, [])] ∧
    (syRun exThreadPeer exDeadEvs).calls.map (fun c => match c.pc with | .ended o => some o | _ => none) =
      [some (.error .valueError), none, some (.ok .none)] ∧
    [(⟨4, 0, 0⟩ : ConnId), ⟨1, 0, 0⟩].map (syRun exThreadPeer exDeadEvs).pools.isClosed = [true, false] := by
  decide +kernel

end Bolt
