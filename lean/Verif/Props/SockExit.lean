import Verif.Model.SockExit
import Verif.Props.SockServer
/-!
# C193: the end of a process whose socket listener was shut down
-/
namespace Bolt
open Spec

namespace Spec

/-- a thread of the listener runs, or a service method ends -/
def WithinServer : SockSrvEv → Prop
  | .conn _ (.handler _) | .conn _ (.finish _) => True
  | _ => False

end Spec

/-- C193 as listed: a process whose socket listener was shut down, and all of whose peers have gone, ends, if methods end
and threads run. -/
def C193_full : Prop :=
  ∀ (svc : Services) (reg : Registry) (evs : List SockSrvEv), .shutdown ∈ evs →
    (∀ l ∈ (ssrvRun svc reg evs).conns, l.eof = true ∨ l.reset = true) →
    ∃ more : List SockSrvEv, (∀ e ∈ more, WithinServer e) ∧ (ssrvRun svc reg (evs ++ more)).exits

theorem ssrvRun_append (svc : Services) (reg : Registry) (a b : List SockSrvEv) :
    ssrvRun svc reg (a ++ b) = b.foldl (ssrvStep svc) (ssrvRun svc reg a) := by
  unfold ssrvRun
  rw [List.foldl_append]

/-! ## threads that stay -/

/-- the thread of a connection on which no complete request, and no reset, has arrived -/
structure StaysOn (svc : Services) (s : SSt) : Prop where
  from_ : ∃ reg evs, s = srun svc reg evs
  reset : s.reset = false
  recvd : Incomplete s.recvd

theorem StaysOn.phase {svc : Services} {s : SSt} (h : StaysOn svc s) : s.phase ≠ .done := by
  obtain ⟨⟨reg, evs, rfl⟩, h2, h3⟩ := h
  obtain ⟨e1, -, e3, -⟩ := srun_env svc reg evs
  rw [e1] at h3
  have hn : .reset ∉ evs := by
    rw [e3] at h2
    simpa using h2
  rcases C110_every_stream svc reg evs hn with ⟨-, -, -, h, -⟩ | ⟨h, -⟩ | ⟨h, -⟩
  · exact h
  · exact absurd h3 h
  · exact absurd h3 h

theorem sreceived_snoc (evs : List SEv) (e : SEv) (h : ∀ bs, e ≠ .data bs) : sreceived (evs ++ [e]) = sreceived evs := by
  induction evs with
  | nil =>
    cases e with
    | data bs => exact absurd rfl (h bs)
    | _ => rfl
  | cons x evs ih =>
    cases x with
    | eof => rfl
    | data bs => simp only [List.cons_append, sreceived]; rw [ih]
    | _ => simp only [List.cons_append, sreceived]; exact ih

theorem StaysOn.step {svc : Services} {s : SSt} (h : StaysOn svc s) (e : SEv) (hr : e ≠ .reset)
    (hd : s.eof = true ∨ ∀ bs, e ≠ .data bs) : StaysOn svc (sstep svc s e) ∧ (s.eof = true → (sstep svc s e).eof = true) := by
  obtain ⟨⟨reg, evs, rfl⟩, h2, h3⟩ := h
  obtain ⟨a1, a2, a3, -⟩ := srun_env svc reg evs
  obtain ⟨b1, b2, b3, -⟩ := srun_env svc reg (evs ++ [e])
  rw [← srun_snoc]
  refine ⟨⟨⟨reg, _, rfl⟩, ?_, ?_⟩, ?_⟩
  · rw [a3] at h2
    rw [b3]
    simp only [List.contains_eq_mem, decide_eq_false_iff_not, List.mem_append, List.mem_singleton] at h2 ⊢
    rintro (h | h)
    · exact h2 h
    · exact hr h.symm
  · have : sreceived (evs ++ [e]) = sreceived evs := by
      rcases hd with hd | hd
      · rw [a2] at hd
        exact sreceived_eof _ _ (by simpa using hd)
      · exact sreceived_snoc _ _ hd
    rw [b1, this, ← a1]
    exact h3
  · intro he
    rw [a2] at he
    rw [b2]
    simp only [List.contains_eq_mem, decide_eq_true_eq, List.mem_append] at he ⊢
    exact .inl he

/-- a connection keeps its place, and events that are neither a reset nor data (or come after the end of the stream) leave
its thread where it is -/
theorem StaysOn.run {svc : Services} {c : Nat} (more : List SockSrvEv) (s : SockSrv) (l : SSt) (hl : s.conns[c]? = some l)
    (h : StaysOn svc l) (hm : ∀ e ∈ more, e ≠ .conn c .reset) (hd : l.eof = true ∨ ∀ e ∈ more, ∀ bs, e ≠ .conn c (.data bs)) :
    ∃ l', (more.foldl (ssrvStep svc) s).conns[c]? = some l' ∧ StaysOn svc l' := by
  induction more generalizing s l with
  | nil => exact ⟨l, hl, h⟩
  | cons e more ih =>
    have next : ∀ l', (ssrvStep svc s e).conns[c]? = some l' → StaysOn svc l' → (l.eof = true → l'.eof = true) →
        ∃ l', ((e :: more).foldl (ssrvStep svc) s).conns[c]? = some l' ∧ StaysOn svc l' := by
      intro l' h1 h2 h3
      refine ih _ l' h1 h2 (fun e' he' => hm e' (List.mem_cons_of_mem _ he')) ?_
      rcases hd with hd | hd
      · exact .inl (h3 hd)
      · exact .inr fun e' he' => hd e' (List.mem_cons_of_mem _ he')
    cases e with
    | accept =>
      refine next l ?_ h id
      simp only [ssrvStep]
      split
      · dsimp only
        rw [List.getElem?_append_left (List.getElem?_eq_some_iff.1 hl).1]
        exact hl
      · exact hl
    | shutdown => exact next l hl h id
    | register r =>
      obtain ⟨h1, h2⟩ := h.step (.register r) (by intro h; cases h) (.inr fun bs h => by cases h)
      refine next _ ?_ h1 h2
      simp only [ssrvStep]
      rw [List.getElem?_map, hl]
      rfl
    | conn c' e =>
      simp only [ssrvStep] at next
      by_cases hloc : e.isLocal = true
      · rw [if_pos hloc] at next
        by_cases hc : c' = c
        · subst hc
          have hr : e ≠ .reset := fun h => hm _ List.mem_cons_self (by rw [h])
          have hd' : l.eof = true ∨ ∀ bs, e ≠ .data bs := by
            rcases hd with hd | hd
            · exact .inl hd
            · exact .inr fun bs h => hd _ List.mem_cons_self bs (by rw [h])
          obtain ⟨h1, h2⟩ := h.step e hr hd'
          refine next _ ?_ h1 h2
          dsimp only
          rw [List.getElem?_modify_eq, hl]
          rfl
        · refine next l ?_ h id
          dsimp only
          rw [List.getElem?_modify_ne _ _ hc]
          exact hl
      · rw [if_neg hloc] at next
        exact next l hl h id

/-- where a connection of a listener comes from -/
theorem conn_from (svc : Services) (reg : Registry) (evs : List SockSrvEv) (c : Nat) (l : SSt)
    (h : (ssrvRun svc reg evs).conns[c]? = some l) : ∃ reg' evs', l = srun svc reg' evs' :=
  ⟨_, _, C113_alone svc reg evs c l h⟩

/-! ## threads that end -/

/-- four turns of the thread of connection `c`, and the end of its method -/
def endConn (c : Nat) : List SockSrvEv :=
  [.conn c (.handler []), .conn c (.handler []), .conn c (.handler []), .conn c (.handler []), .conn c (.finish (.raised .typeError))]

/-- what this makes of the connection -/
def endedConn (svc : Services) (l : SSt) : SSt :=
  [SEv.handler [], .handler [], .handler [], .handler [], .finish (.raised .typeError)].foldl (sstep svc) l

theorem modify_self_get (l : List SSt) (c i : Nat) (f : SSt → SSt) :
    (l.modify c f)[i]? = if c = i then (l[i]?).map f else l[i]? := by
  rw [List.getElem?_modify]
  split <;> simp

theorem endConn_run (svc : Services) (s : SockSrv) (c : Nat) :
    ((endConn c).foldl (ssrvStep svc) s).serving = s.serving ∧
    ∀ i, ((endConn c).foldl (ssrvStep svc) s).conns[i]? =
      if c = i then (s.conns[i]?).map (endedConn svc) else s.conns[i]? := by
  refine ⟨rfl, fun i => ?_⟩
  unfold endConn
  simp only [List.foldl_cons, List.foldl_nil, ssrvStep, SEv.isLocal, if_true]
  simp only [modify_self_get]
  by_cases h : c = i
  · simp only [if_pos h, Option.map_map]
    rfl
  · simp only [if_neg h]

theorem endAll_run (svc : Services) (s : SockSrv) (n : Nat) :
    (((List.range n).flatMap endConn).foldl (ssrvStep svc) s).serving = s.serving ∧
    ∀ i, (((List.range n).flatMap endConn).foldl (ssrvStep svc) s).conns[i]? =
      if i < n then (s.conns[i]?).map (endedConn svc) else s.conns[i]? := by
  induction n with
  | zero => exact ⟨rfl, fun i => by rw [if_neg (by omega)]; rfl⟩
  | succ n ih =>
    rw [List.range_succ, List.flatMap_append, List.foldl_append]
    simp only [List.flatMap_cons, List.flatMap_nil, List.append_nil]
    obtain ⟨h1, h2⟩ := endConn_run svc (((List.range n).flatMap endConn).foldl (ssrvStep svc) s) n
    refine ⟨h1.trans ih.1, fun i => ?_⟩
    rw [h2, ih.2]
    by_cases hi : i < n
    · rw [if_pos hi, if_neg (by omega), if_pos (by omega)]
    · by_cases hn : n = i
      · rw [if_neg hi, if_pos hn, if_pos (by omega)]
      · rw [if_neg hi, if_neg hn, if_neg (by omega)]

theorem endedConn_done (svc : Services) (reg : Registry) (evs : List SEv)
    (h : (srun svc reg evs).reset = true ∨ ¬ Incomplete (srun svc reg evs).recvd) :
    (endedConn svc (srun svc reg evs)).phase = .done := by
  have e : endedConn svc (srun svc reg evs) =
      srun svc reg (evs ++ [.handler [], .handler [], .handler [], .handler [], .finish (.raised .typeError)]) := by
    unfold endedConn srun
    rw [List.foldl_append]
  rw [e]
  obtain ⟨e1, -, e3, -⟩ := srun_env svc reg evs
  by_cases hn : .reset ∈ evs
  · exact C84_reset_partial svc reg evs hn [] [] [] [] _
  · have hi : ¬ Incomplete (sreceived evs) := by
      rcases h with h | h
      · rw [e3] at h
        exact absurd (by simpa using h) hn
      · rw [e1] at h
        exact h
    rcases C110_every_stream svc reg evs hn with ⟨h, -⟩ | ⟨-, -, -, -, -, h⟩ | ⟨-, -, q, -, -, -, h⟩
    · exact absurd h hi
    · have hd := h [] [] [] []
      rw [show evs ++ [SEv.handler [], .handler [], .handler [], .handler [], .finish (.raised .typeError)] =
        (evs ++ [.handler [], .handler [], .handler [], .handler []]) ++ [.finish (.raised .typeError)] by simp, srun_snoc]
      simp only [sstep, hd]
    · exact h [] [] [] [] _

/-! ## C193 -/

/-- C193, exactly: the process can end, without anything new from outside, if and only if the listener was shut down and on
every connection ever accepted a whole frame has arrived (or one whose header section cannot be decoded), or it was reset. -/
theorem C193_exits_partial (svc : Services) (reg : Registry) (evs : List SockSrvEv) :
    (∃ more : List SockSrvEv, (∀ e ∈ more, WithinServer e) ∧ (ssrvRun svc reg (evs ++ more)).exits) ↔
    (ssrvRun svc reg evs).serving = false ∧
    ∀ l ∈ (ssrvRun svc reg evs).conns, l.reset = true ∨ ¬ Incomplete l.recvd := by
  constructor
  · rintro ⟨more, hm, hx⟩
    rw [ssrvRun_append] at hx
    constructor
    · have : ∀ (more : List SockSrvEv) (s : SockSrv), (∀ e ∈ more, WithinServer e) →
          (more.foldl (ssrvStep svc) s).serving = s.serving := by
        intro more
        induction more with
        | nil => intro s _; rfl
        | cons e more ih =>
          intro s hm
          rw [List.foldl_cons, ih _ fun e' he' => hm e' (List.mem_cons_of_mem _ he')]
          have := hm e List.mem_cons_self
          cases e with
          | conn c e =>
            simp only [ssrvStep]
            split <;> rfl
          | register r => rfl
          | accept => cases this
          | shutdown => cases this
      rw [← this more _ hm]
      exact hx.1
    · intro l hl
      cases hr : l.reset with
      | true => exact .inl rfl
      | false =>
        right
        intro hi
        obtain ⟨c, hc⟩ := List.mem_iff_getElem?.1 hl
        obtain ⟨l', h1, h2⟩ := StaysOn.run (svc := svc) more _ l hc ⟨conn_from svc reg evs c l hc, hr, hi⟩
          (fun e he h => by have := hm e he; rw [h] at this; exact this)
          (.inr fun e he bs h => by have := hm e he; rw [h] at this; exact this)
        exact h2.phase (hx.2 l' (List.mem_of_getElem? h1))
  · rintro ⟨h1, h2⟩
    refine ⟨(List.range (ssrvRun svc reg evs).conns.length).flatMap endConn, ?_, ?_⟩
    · intro e he
      obtain ⟨c, -, hc⟩ := List.mem_flatMap.1 he
      unfold endConn at hc
      simp only [List.mem_cons, List.not_mem_nil, or_false] at hc
      rcases hc with rfl | rfl | rfl | rfl | rfl <;> trivial
    · rw [ssrvRun_append]
      obtain ⟨r1, r2⟩ := endAll_run svc (ssrvRun svc reg evs) (ssrvRun svc reg evs).conns.length
      refine ⟨r1.trans h1, fun l hl => ?_⟩
      obtain ⟨c, hc⟩ := List.mem_iff_getElem?.1 hl
      rw [r2] at hc
      have hlt : c < (ssrvRun svc reg evs).conns.length := by
        revert hc
        split
        · next h => exact fun _ => h
        · exact fun hc => (List.getElem?_eq_some_iff.1 hc).1
      rw [if_pos hlt, Option.map_eq_some_iff] at hc
      obtain ⟨l0, hc, rfl⟩ := hc
      obtain ⟨reg', evs', rfl⟩ := conn_from svc reg evs c l0 hc
      exact endedConn_done svc reg' evs' (h2 _ (List.mem_of_getElem? hc))

/-- What happens, always: a peer that closes its connection before it has sent a whole request, as the probes of a load
balancer do, leaves a thread for ever, and the process does not end, whatever happens later. -/
theorem C193_always (svc : Services) (reg : Registry) (evs more : List SockSrvEv) (c : Nat) (l : SSt)
    (hc : (ssrvRun svc reg evs).conns[c]? = some l) (he : l.eof = true) (hr : l.reset = false) (hi : Incomplete l.recvd)
    (hm : ∀ e ∈ more, e ≠ .conn c .reset) : ¬ (ssrvRun svc reg (evs ++ more)).exits := by
  rw [ssrvRun_append]
  intro hx
  obtain ⟨l', h1, h2⟩ := StaysOn.run (svc := svc) more _ l hc ⟨conn_from svc reg evs c l hc, hr, hi⟩ hm (.inl he)
  exact h2.phase (hx.2 l' (List.mem_of_getElem? h1))

/-- `n` peers that connect and close at once -/
def Spec.probes (n : Nat) : List SockSrvEv := (List.range n).flatMap fun i => [.accept, .conn i .eof]

theorem probes_run (svc : Services) (reg : Registry) (n : Nat) :
    ssrvRun svc reg (probes n) = { conns := List.replicate n { eof := true, reg := reg }, serving := true, reg := reg } := by
  induction n with
  | zero => rfl
  | succ n ih =>
    unfold probes at ih ⊢
    rw [List.range_succ, List.flatMap_append, ssrvRun_append, ih]
    simp only [List.flatMap_cons, List.flatMap_nil, List.append_nil, List.foldl_cons, List.foldl_nil, ssrvStep, SEv.isLocal,
      if_true]
    congr 1
    apply List.ext_getElem?
    intro i
    rw [modify_self_get, List.getElem?_append, List.getElem?_replicate, List.getElem?_replicate]
    simp only [List.length_replicate]
    by_cases h : i < n
    · rw [if_pos h, if_neg (by omega), if_pos (by omega), if_pos (by omega)]
    · by_cases h' : n = i
      · subst h'
        simp [sstep]
      · rw [if_neg h, if_neg h', if_neg (by omega)]
        rw [List.getElem?_eq_none (by simp; omega)]

theorem incomplete_nil : Incomplete [] := .inl (by simp)

theorem countP_ge {α : Type} (p : α → Bool) (n : Nat) (l : List α) (h : ∀ c, c < n → ∃ x, l[c]? = some x ∧ p x = true) :
    n ≤ l.countP p := by
  induction l generalizing n with
  | nil =>
    cases n with
    | zero => exact Nat.le_refl _
    | succ n =>
      obtain ⟨x, hx, -⟩ := h 0 (by omega)
      cases hx
  | cons a l ih =>
    cases n with
    | zero => exact Nat.zero_le _
    | succ n =>
      obtain ⟨x, hx, hp⟩ := h 0 (by omega)
      cases hx
      rw [List.countP_cons_of_pos hp]
      exact Nat.succ_le_succ (ih n fun c hc => h (c + 1) (by omega))

/-- The number of threads is not bounded: `n` peers that connect and close at once leave `n` threads for ever. -/
theorem C193_threads (svc : Services) (reg : Registry) (n : Nat) (more : List SockSrvEv)
    (hm : ∀ e ∈ more, ∀ c, e ≠ .conn c .reset) : n ≤ (ssrvRun svc reg (probes n ++ more)).live := by
  rw [ssrvRun_append]
  refine countP_ge _ n _ fun c hc => ?_
  have hl : (ssrvRun svc reg (probes n)).conns[c]? = some { eof := true, reg := reg } := by
    rw [probes_run]
    dsimp only
    rw [List.getElem?_replicate, if_pos hc]
  obtain ⟨l', h1, h2⟩ := StaysOn.run (svc := svc) more _ _ hl ⟨conn_from svc reg _ c _ hl, rfl, incomplete_nil⟩
    (fun e he => hm e he c) (.inl rfl)
  exact ⟨l', h1, decide_eq_true h2.phase⟩

/-- C193 fails: a peer that connects and closes. -/
theorem C193_violated : ¬ C193_full := by
  intro h
  obtain ⟨more, h1, h2⟩ := h exServices exReg (probes 1 ++ [.shutdown]) (by simp) (by decide +kernel)
  rw [List.append_assoc] at h2
  have := C193_threads exServices exReg 1 (.shutdown :: more) (by
    intro e he c hx
    rcases List.mem_cons.1 he with rfl | he
    · cases hx
    · have := h1 e he
      rw [hx] at this
      exact this)
  have h0 : (ssrvRun exServices exReg (probes 1 ++ .shutdown :: more)).live = 0 := by
    unfold SockSrv.live
    rw [List.countP_eq_zero]
    intro l hl
    have := h2.2 l hl
    simp [this]
  omega

/-! ## concrete cases -/

set_option maxRecDepth 20000 in
/-- one peer with a whole request, one that resets its connection: the process ends -/
example : (ssrvRun exServices exReg [.accept, .accept, .conn 0 (.data (exReq 3 [1]).bytes), .conn 1 .reset, .shutdown]).serving = false ∧
    (ssrvRun exServices exReg ([.accept, .accept, .conn 0 (.data (exReq 3 [1]).bytes), .conn 1 .reset, .shutdown] ++
      (List.range 2).flatMap endConn)).exits := by
  unfold SockSrv.exits
  decide +kernel

/-- three probes, then a shutdown: three threads are left -/
example : (ssrvRun exServices exReg (probes 3 ++ [.shutdown, .conn 0 (.handler []), .conn 1 (.handler [])])).live = 3 := by
  decide +kernel

end Bolt
