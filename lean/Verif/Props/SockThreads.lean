import Verif.Model.SockThreads
import Verif.Props.SockListener
import Verif.Lemmas.AioClient
/-!
# C206: a socket listener in a process with a limit on threads
-/
namespace Bolt
open Spec

namespace Spec

/-- the connection was closed without any service: no thread, no call, nothing sent -/
def TurnedAway (s : SSt) : Prop := s.phase = .done ∧ s.calls = [] ∧ s.out = []

/-- the peer has closed the connection (in good order) without having sent the 22 bytes of a header -/
structure LeftEarly (s : SSt) : Prop where
  closed : s.eof = true
  noReset : s.reset = false
  phase : s.phase = .hdr
  few : s.acc.length + s.buf.length < 22

instance (s : SSt) : Decidable (LeftEarly s) :=
  decidable_of_iff (s.eof = true ∧ s.reset = false ∧ s.phase = .hdr ∧ s.acc.length + s.buf.length < 22)
    ⟨fun ⟨a, b, c, d⟩ => ⟨a, b, c, d⟩, fun ⟨a, b, c, d⟩ => ⟨a, b, c, d⟩⟩

/-- the turns of the threads -/
def ThreadTurn : SockSrvEv → Prop
  | .conn _ (.handler _) => True
  | _ => False

end Spec

/-- C206 as listed: when all the peers have closed their connections and no method is running, a serving listener comes to have
a thread for the next connection if its threads go on. -/
def C206_full : Prop :=
  ∀ (limit : Nat) (svc : Services) (reg : Registry) (evs : List SockSrvEv), 0 < limit →
    (∀ s ∈ (limRun limit svc reg evs).conns, s.eof = true ∧ ∀ id, s.phase ≠ .calling id) →
    ∃ more, (∀ e ∈ more, ThreadTurn e) ∧ (limRun limit svc reg (evs ++ more)).threads < limit

theorem limRun_snoc (limit : Nat) (svc : Services) (reg : Registry) (evs : List SockSrvEv) (e : SockSrvEv) :
    limRun limit svc reg (evs ++ [e]) = limStep limit svc (limRun limit svc reg evs) e := by simp [limRun]

theorem ssrvRun_snoc' (svc : Services) (reg : Registry) (evs : List SockSrvEv) (e : SockSrvEv) :
    ssrvRun svc reg (evs ++ [e]) = ssrvStep svc (ssrvRun svc reg evs) e := by simp [ssrvRun]

/-- C206, what holds: as long as there is a thread for every connection at the moment it is accepted, the listener behaves as one
without a limit. Missing: that threads become free when peers leave, which is not so (`C206_always`). -/
theorem C206_threads_partial (limit : Nat) (svc : Services) (reg : Registry) (evs : List SockSrvEv)
    (h : ∀ pre post, evs = pre ++ .accept :: post → (limRun limit svc reg pre).threads < limit) :
    limRun limit svc reg evs = ssrvRun svc reg evs := by
  induction evs using snoc_induct with
  | nil => rfl
  | snoc evs e ih =>
    have ih := ih fun pre post he => h pre (post ++ [e]) (by rw [he]; simp)
    rw [limRun_snoc, ssrvRun_snoc', ← ih]
    cases e with
    | accept =>
      simp only [limStep, ssrvStep]
      rw [if_pos (h evs [] rfl)]
    | _ => rfl

theorem turnedAway_step (svc : Services) {s : SSt} (h : TurnedAway s) (e : SEv) : TurnedAway (sstep svc s e) := by
  obtain ⟨h1, h2, h3⟩ := h
  cases e with
  | data bs => simp only [sstep]; split <;> exact ⟨h1, h2, h3⟩
  | eof => exact ⟨h1, h2, h3⟩
  | reset => exact ⟨h1, h2, h3⟩
  | handler f => simp only [sstep, SSt.handler, h1]; exact ⟨h1, h2, h3⟩
  | finish o => simp only [sstep, h1]; exact ⟨h1, h2, h3⟩
  | register r => exact ⟨h1, h2, h3⟩

/-- C206, the others do not suffer: with a limit, each connection is in the state in which it is without one, or it was turned
away. -/
theorem C206_others (limit : Nat) (svc : Services) (reg : Registry) (evs : List SockSrvEv) :
    (limRun limit svc reg evs).conns.length = (ssrvRun svc reg evs).conns.length ∧
    ∀ (c : Nat) (s : SSt), (limRun limit svc reg evs).conns[c]? = some s → (ssrvRun svc reg evs).conns[c]? = some s ∨ TurnedAway s := by
  suffices (limRun limit svc reg evs).reg = (ssrvRun svc reg evs).reg ∧ (limRun limit svc reg evs).serving = (ssrvRun svc reg evs).serving ∧
      (limRun limit svc reg evs).conns.length = (ssrvRun svc reg evs).conns.length ∧
      ∀ (c : Nat) (s : SSt), (limRun limit svc reg evs).conns[c]? = some s → (ssrvRun svc reg evs).conns[c]? = some s ∨ TurnedAway s from
    this.2.2
  induction evs using snoc_induct with
  | nil => exact ⟨rfl, rfl, rfl, fun c s h => .inl h⟩
  | snoc evs e ih =>
    rw [limRun_snoc, ssrvRun_snoc']
    generalize limRun limit svc reg evs = a at *
    generalize ssrvRun svc reg evs = b at *
    obtain ⟨i1, i2, i3, i4⟩ := ih
    cases e with
    | accept =>
      simp only [limStep, ssrvStep, ← i2]
      by_cases hs : a.serving = true
      · rw [if_pos hs, if_pos hs, ← i1]
        have new : ∀ x : SSt, (x = { reg := a.reg } ∨ TurnedAway x) → ∀ (c : Nat) (s : SSt), (a.conns ++ [x])[c]? = some s →
            (b.conns ++ [({ reg := a.reg } : SSt)])[c]? = some s ∨ TurnedAway s := by
          intro x hx c s hc
          rcases Nat.lt_trichotomy c a.conns.length with hl | hl | hl
          · rw [List.getElem?_append_left hl] at hc
            rw [List.getElem?_append_left (by omega)]
            exact i4 c s hc
          · subst hl
            rw [List.getElem?_concat_length] at hc
            cases hc
            rcases hx with rfl | hx
            · rw [i3, List.getElem?_concat_length]; exact .inl rfl
            · exact .inr hx
          · rw [List.getElem?_eq_none (by simp; omega)] at hc
            cases hc
        split
        · exact ⟨rfl, rfl, by simp [i3], new _ (.inl rfl)⟩
        · exact ⟨rfl, rfl, by simp [i3], new _ (.inr ⟨rfl, rfl, rfl⟩)⟩
      · rw [if_neg hs, if_neg hs]
        exact ⟨i1, i2, i3, i4⟩
    | conn c e =>
      simp only [limStep, ssrvStep]
      split
      · refine ⟨i1, i2, by simp [i3], fun d s hd => ?_⟩
        dsimp only at hd ⊢
        rw [List.getElem?_modify] at hd ⊢
        cases hx : a.conns[d]? with
        | none => rw [hx] at hd; cases hd
        | some x =>
          rw [hx] at hd
          simp only [Option.map_eq_map, Option.map_some, Option.some.injEq] at hd
          rcases i4 d x hx with g | g
          · rw [g]
            exact .inl (by simp only [Option.map_eq_map, Option.map_some, hd])
          · right
            rw [← hd]
            split
            · exact turnedAway_step svc g e
            · exact g
      · exact ⟨i1, i2, i3, i4⟩
    | register r =>
      simp only [limStep, ssrvStep]
      refine ⟨by rw [i1], i2, by simp [i3], fun d s hd => ?_⟩
      rw [List.getElem?_map] at hd ⊢
      cases hx : a.conns[d]? with
      | none => rw [hx] at hd; cases hd
      | some x =>
        rw [hx] at hd
        cases hd
        rcases i4 d x hx with g | g
        · rw [g]; exact .inl rfl
        · exact .inr (turnedAway_step svc g (.register r))
    | shutdown => exact ⟨i1, rfl, i3, i4⟩

theorem leftEarly_step (svc : Services) {s : SSt} (h : LeftEarly s) {e : SEv} (he : e ≠ .reset) : LeftEarly (sstep svc s e) := by
  obtain ⟨h1, h2, h3, h4⟩ := h
  cases e with
  | data bs => simp only [sstep]; rw [if_pos h1]; exact ⟨h1, h2, h3, h4⟩
  | eof => exact ⟨rfl, h2, h3, h4⟩
  | reset => exact absurd rfl he
  | handler f =>
    simp only [sstep, SSt.handler, h3]
    unfold SSt.readexactly
    rw [boltRequest_headerSize, if_pos (by omega), if_neg (by rw [h2]; decide)]
    dsimp only
    rw [if_pos (.inr h1), if_pos (by rw [List.length_append, List.length_take]; omega)]
    refine ⟨h1, h2, h3, ?_⟩
    dsimp only
    rw [List.length_append, List.length_take, List.length_drop]
    omega
  | finish o => simp only [sstep, h3]; exact ⟨h1, h2, h3, h4⟩
  | register r => exact ⟨h1, h2, h3, h4⟩

theorem countP_pointwise {α : Type} (p : α → Bool) {l l' : List α} (hl : l.length ≤ l'.length)
    (h : ∀ (i : Nat) x y, l[i]? = some x → l'[i]? = some y → p x = true → p y = true) : l.countP p ≤ l'.countP p := by
  induction l generalizing l' with
  | nil => simp
  | cons x l ih =>
    cases l' with
    | nil => simp at hl
    | cons y l' =>
      have h0 := h 0 x y rfl rfl
      have := ih (l' := l') (by simpa using hl) fun i x y hx hy => h (i + 1) x y hx hy
      rw [List.countP_cons, List.countP_cons]
      split <;> split <;> simp_all <;> omega

/-- what becomes of the connections there are (`reset` excepted) -/
theorem lim_keeps (limit : Nat) (svc : Services) (s : SockSrv) (e : SockSrvEv) (he : ∀ c, e ≠ .conn c .reset) :
    s.conns.length ≤ (limStep limit svc s e).conns.length ∧
    ∀ (i : Nat) x y, s.conns[i]? = some x → (limStep limit svc s e).conns[i]? = some y → y = x ∨ ∃ e', e' ≠ .reset ∧ y = sstep svc x e' := by
  cases e with
  | accept =>
    simp only [limStep]
    have app : ∀ z : SSt, s.conns.length ≤ (s.conns ++ [z]).length ∧ ∀ (i : Nat) x y, s.conns[i]? = some x → (s.conns ++ [z])[i]? = some y →
        y = x ∨ ∃ e', e' ≠ .reset ∧ y = sstep svc x e' := by
      refine fun z => ⟨by simp, fun i x y hx hy => .inl ?_⟩
      rw [List.getElem?_append_left (List.getElem?_eq_some_iff.1 hx).1, hx] at hy
      exact (Option.some.inj hy).symm
    split
    · split <;> exact app _
    · exact ⟨Nat.le_refl _, fun i x y hx hy => .inl (by rw [hx] at hy; exact (Option.some.inj hy).symm)⟩
  | conn c e =>
    simp only [limStep, ssrvStep]
    split
    · refine ⟨by simp, fun i x y hx hy => ?_⟩
      dsimp only at hy
      rw [List.getElem?_modify, hx] at hy
      simp only [Option.map_eq_map, Option.map_some, Option.some.injEq] at hy
      split at hy
      · exact .inr ⟨e, (fun h => he c (by rw [h])), hy.symm⟩
      · exact .inl hy.symm
    · exact ⟨Nat.le_refl _, fun i x y hx hy => .inl (by rw [hx] at hy; exact (Option.some.inj hy).symm)⟩
  | register r =>
    simp only [limStep, ssrvStep]
    refine ⟨by simp, fun i x y hx hy => .inr ⟨.register r, (fun h => by cases h), ?_⟩⟩
    rw [List.getElem?_map, hx] at hy
    exact (Option.some.inj hy).symm
  | shutdown => exact ⟨Nat.le_refl _, fun i x y hx hy => .inl (by
      simp only [limStep, ssrvStep] at hy; rw [hx] at hy; exact (Option.some.inj hy).symm)⟩

theorem early_count (limit : Nat) (svc : Services) (s : SockSrv) (e : SockSrvEv) (he : ∀ c, e ≠ .conn c .reset) :
    s.conns.countP (fun s => decide (LeftEarly s)) ≤ (limStep limit svc s e).conns.countP (fun s => decide (LeftEarly s)) := by
  obtain ⟨h1, h2⟩ := lim_keeps limit svc s e he
  refine countP_pointwise _ h1 fun i x y hx hy hp => ?_
  have hp := of_decide_eq_true hp
  apply decide_eq_true
  rcases h2 i x y hx hy with rfl | ⟨e', h3, rfl⟩
  · exact hp
  · exact leftEarly_step svc hp h3

theorem early_running (s : SockSrv) : s.conns.countP (fun s => decide (LeftEarly s)) ≤ s.threads := by
  unfold SockSrv.threads
  apply List.countP_mono_left
  intro x _ hx
  have := (of_decide_eq_true hx).phase
  simp [SSt.running, this]

/-- C206, how it fails: when as many peers as there can be threads have closed their connections without having sent a header, no
connection is served any more, whatever happens and however long one waits: every one accepted from then on is closed at once. -/
theorem C206_always (limit : Nat) (svc : Services) (reg : Registry) (pre more : List SockSrvEv)
    (h : limit ≤ (limRun limit svc reg pre).conns.countP (fun s => decide (LeftEarly s))) (hr : ∀ c, .conn c .reset ∉ more)
    (c : Nat) (s : SSt) (hc : (limRun limit svc reg pre).conns.length ≤ c) (hs : (limRun limit svc reg (pre ++ more)).conns[c]? = some s) :
    TurnedAway s := by
  suffices limit ≤ (limRun limit svc reg (pre ++ more)).conns.countP (fun s => decide (LeftEarly s)) ∧
      ∀ (c : Nat) (s : SSt), (limRun limit svc reg pre).conns.length ≤ c → (limRun limit svc reg (pre ++ more)).conns[c]? = some s → TurnedAway s from
    this.2 c s hc hs
  clear hs hc c s
  induction more using snoc_induct with
  | nil =>
    rw [List.append_nil]
    exact ⟨h, fun c s hc hs => by rw [List.getElem?_eq_none hc] at hs; cases hs⟩
  | snoc more e ih =>
    obtain ⟨i1, i2⟩ := ih fun c hm => hr c (List.mem_append_left _ hm)
    rw [← List.append_assoc, limRun_snoc]
    generalize limRun limit svc reg (pre ++ more) = a at *
    have he : ∀ c, e ≠ .conn c .reset := fun c hc => hr c (by rw [hc]; simp)
    refine ⟨Nat.le_trans i1 (early_count limit svc a e he), fun c s hc hs => ?_⟩
    have hk := lim_keeps limit svc a e he
    cases hx : a.conns[c]? with
    | some x =>
      rcases hk.2 c x s hx hs with rfl | ⟨e', -, rfl⟩
      · exact i2 c _ hc hx
      · exact turnedAway_step svc (i2 c x hc hx) e'
    | none =>
      have hlen : a.conns.length ≤ c := List.getElem?_eq_none_iff.1 hx
      cases e with
      | accept =>
        have hfull : ¬ a.threads < limit := by have := early_running a; omega
        simp only [limStep] at hs
        rw [if_neg hfull] at hs
        split at hs
        · dsimp only at hs
          have hlt := (List.getElem?_eq_some_iff.1 hs).1
          have hce : c = a.conns.length := by simp at hlt; omega
          subst hce
          rw [List.getElem?_concat_length] at hs
          cases hs
          exact ⟨rfl, rfl, rfl⟩
        · rw [hx] at hs; cases hs
      | conn d e =>
        simp only [limStep, ssrvStep] at hs
        split at hs
        · dsimp only at hs; rw [List.getElem?_modify, hx] at hs; cases hs
        · rw [hx] at hs; cases hs
      | register r =>
        simp only [limStep, ssrvStep] at hs
        rw [List.getElem?_map, hx] at hs
        cases hs
      | shutdown =>
        simp only [limStep, ssrvStep] at hs
        rw [hx] at hs; cases hs

/-- C206 as listed is violated: there can be one thread, and a peer connects and leaves. -/
theorem C206_violated : ¬ C206_full := by
  intro h
  obtain ⟨more, h1, h2⟩ := h 1 exServices exReg [.accept, .conn 0 .eof] (by decide) (fun s hs => by
    have hk : ∀ s ∈ (limRun 1 exServices exReg [.accept, .conn 0 .eof]).conns, s.eof = true ∧ s.phase = .hdr := by decide +kernel
    exact ⟨(hk s hs).1, fun id hid => by rw [(hk s hs).2] at hid; cases hid⟩)
  have key : ∀ more : List SockSrvEv, (∀ e ∈ more, ThreadTurn e) →
      1 ≤ (limRun 1 exServices exReg ([.accept, .conn 0 .eof] ++ more)).conns.countP (fun s => decide (LeftEarly s)) := by
    intro more hm
    induction more using snoc_induct with
    | nil => decide +kernel
    | snoc more e ih =>
      rw [← List.append_assoc, limRun_snoc]
      refine Nat.le_trans (ih fun e he => hm e (List.mem_append_left _ he)) (early_count _ _ _ _ fun c hc => ?_)
      have := hm e (by simp)
      rw [hc] at this
      exact this
  have := early_running (limRun 1 exServices exReg ([.accept, .conn 0 .eof] ++ more))
  have := key more h1
  omega

set_option maxRecDepth 20000 in
/-- `C206_always` and `C206_threads_partial` have content: with two threads, one peer that leaves early does no harm, and after two
a whole request is not served -/
example :
    (limRun 2 exServices exReg [.accept, .conn 0 .eof]).threads < 2 ∧
    2 ≤ (limRun 2 exServices exReg [.accept, .conn 0 .eof, .accept, .conn 1 .eof]).conns.countP (fun s => decide (LeftEarly s)) ∧
    ((limRun 2 exServices exReg [.accept, .conn 0 .eof, .accept, .conn 1 (.data (exReq 3 [1]).bytes), .conn 1 (.handler []), .conn 1 (.handler []),
      .conn 1 (.handler []), .conn 1 (.handler (py "t")), .conn 1 (.finish (.ret (.bytes [7, 8])))]).conns[1]?.map fun s => s.out) =
      some [reply 3 0 [7, 8]] := by decide +kernel

end Bolt
