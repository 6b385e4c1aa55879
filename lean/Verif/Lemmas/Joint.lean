import Verif.Props.EndToEndAio
import Verif.Props.AioFrames
import Verif.Props.ListenerStream
/-!
# The asyncio client and its listeners in one schedule
-/
namespace Bolt
open Spec

/-! ## The system -/

/-- An asyncio client and the listeners its connections lead to (one side of each connection): what has happened so far
on the client, and on the listener's side of each connection. -/
structure Spec.Sys where
  aevs : List AEv := []
  levs : Nat → List LEv := fun _ => []

/-- What happens next: something on the client, something on the listener's side of connection `n`, or bytes arrive on
connection `n`, there or back: the next `len` of those written and not yet received. -/
inductive Spec.SysEv where
  | client (e : AEv)
  | server (n : Nat) (e : LEv)
  | there (n len : Nat)
  | back (n len : Nat)

/-- the listener at the other end of connection `n` -/
def Spec.Sys.peer (y : Sys) (svc : Nat → Services) (reg : Nat → Registry) (n : Nat) : Peer := ⟨svc n, reg n, y.levs n⟩

def Spec.Sys.client (y : Sys) (v : PyVer) : ASt := arun v y.aevs

/-- the bytes written by the client on connection `n` -/
def Spec.Sys.out (y : Sys) (v : PyVer) (n : Nat) : Bytes :=
  match (y.client v).conns[n]? with
  | some k => (k.sent.map Prod.snd).flatten
  | none => []

/-- the bytes received by the client on connection `n` -/
def Spec.Sys.got (y : Sys) (v : PyVer) (n : Nat) : Bytes :=
  match (y.client v).conns[n]? with
  | some k => k.recvd
  | none => []

def Spec.Sys.add (y : Sys) (n : Nat) (e : LEv) : Sys := { y with levs := fun m => if m = n then y.levs n ++ [e] else y.levs m }

/-- One event. Bytes arrive only by `there` and `back`. -/
def Spec.sysStep (v : PyVer) (svc : Nat → Services) (reg : Nat → Registry) (y : Sys) : SysEv → Sys
  | .client (.data _ _) => y
  | .client e => { y with aevs := y.aevs ++ [e] }
  | .server _ (.data _) => y
  | .server n e => y.add n e
  | .there n len => y.add n (.data (((y.out v n).drop (received (y.levs n)).length).take len))
  | .back n len => { y with aevs := y.aevs ++ [.data n (((y.peer svc reg n).st.wire.drop (y.got v n).length).take len)] }

def Spec.sysRun (v : PyVer) (svc : Nat → Services) (reg : Nat → Registry) (es : List SysEv) : Sys :=
  es.foldl (sysStep v svc reg) {}

theorem sysRun_snoc (v : PyVer) (svc : Nat → Services) (reg : Nat → Registry) (es : List SysEv) (e : SysEv) :
    sysRun v svc reg (es ++ [e]) = sysStep v svc reg (sysRun v svc reg es) e := by
  unfold sysRun
  rw [List.foldl_append]
  rfl

/-! ## What one event does to the bytes -/

theorem received_snoc (l : List LEv) (e : LEv) : received (l ++ [e]) = received l ++ (if sawEof l then [] else received [e]) := by
  induction l with
  | nil => simp [received, sawEof]
  | cons x l ih =>
    cases x with
    | eof => simp [received, sawEof]
    | data bs =>
      have : sawEof (.data bs :: l) = sawEof l := by simp [sawEof]
      rw [this, List.cons_append, received, received, ih, List.append_assoc]
    | _ =>
      rw [List.cons_append]
      simp only [received, ih]
      congr 1

theorem lrun_snoc' (svc : Services) (reg : Registry) (l : List LEv) (e : LEv) :
    lrun svc reg (l ++ [e]) = lstep svc (lrun svc reg l) e := by
  unfold lrun
  rw [List.foldl_append]
  rfl

theorem wire_snoc (svc : Services) (reg : Registry) (l : List LEv) (e : LEv) :
    (lrun svc reg l).wire <+: (lrun svc reg (l ++ [e])).wire := by
  rw [lrun_snoc']
  obtain ⟨x, hx⟩ := lstep_out svc (lrun svc reg l) e
  unfold LSt.wire
  rw [hx, List.map_append, List.flatten_append]
  exact List.prefix_append _ _

theorem modify_recvd (l : List AConn) (n : Nat) (f : AConn → AConn) (hf : ∀ k, (f k).recvd = k.recvd) :
    (l.modify n f).map AConn.recvd = l.map AConn.recvd := by
  induction l generalizing n with
  | nil => simp
  | cons k l ih =>
    cases n with
    | zero => simp [hf]
    | succ n => simp [ih]

theorem set_recvd {l : List AConn} {n : Nat} {k k' : AConn} (hk : l[n]? = some k) (h : k'.recvd = k.recvd) :
    (l.set n k').map AConn.recvd = l.map AConn.recvd := by
  rw [List.map_set]
  apply List.ext_getElem?
  intro m
  rw [List.getElem?_set]
  split
  · next e =>
    subst e
    have hl := (List.getElem?_eq_some_iff.1 hk).1
    rw [List.length_map, if_pos hl, List.getElem?_map, hk, h]
    rfl
  · rfl

theorem recv_recvd (s : ASt) (n : Nat) : (s.recv n).conns.map AConn.recvd = s.conns.map AConn.recvd := by
  unfold ASt.recv
  split
  · rfl
  · next k hk =>
    have key : ∀ k' : AConn, k'.recvd = k.recvd → (s.setConn n k').conns.map AConn.recvd = s.conns.map AConn.recvd :=
      fun k' h => set_recvd hk h
    split
    · rfl
    · split <;> exact key _ rfl
    · split
      · exact key _ rfl
      · dsimp only
        split
        · split <;> exact key _ rfl
        · split
          · exact key _ rfl
          · rfl
    · split
      · exact key _ rfl
      · split
        · exact key _ rfl
        · split
          · dsimp only
            split
            · exact key _ rfl
            · rw [onPkg_conns]; exact key _ rfl
          · split
            · exact key _ rfl
            · rfl

/-- only arriving bytes change what has been received -/
theorem astep_recvd (v : PyVer) (s : ASt) (e : AEv) (he : ∀ n bs, e ≠ .data n bs) :
    (astep v s e).conns.map AConn.recvd = s.conns.map AConn.recvd ∨
    (astep v s e).conns.map AConn.recvd = s.conns.map AConn.recvd ++ [[]] := by
  have brk : ∀ i c r a n, (s.broken i c r a n).conns.map AConn.recvd = s.conns.map AConn.recvd := by
    intro i c r a n
    rw [broken_conns]
    exact modify_recvd _ _ _ fun _ => rfl
  cases e with
  | call req => exact .inl rfl
  | start i addr =>
    left
    simp only [astep, ASt.start]
    split
    · split
      · rw [send_conns]
      · rfl
    · rfl
  | lock i =>
    left
    simp only [astep, ASt.lockTurn]
    split
    · split
      · split
        · split <;> rfl
        · rfl
      · rfl
    · rfl
  | dialed i ok =>
    simp only [astep, ASt.dialed]
    split
    · next c hc =>
      split
      · next r a l hp =>
        split
        · right
          split <;> exact List.map_append
        · left
          rw [sendFailed_conns]
          rfl
      · exact .inl rfl
    · exact .inl rfl
  | drained i ok =>
    left
    simp only [astep, ASt.drained]
    split
    · next c hc =>
      split
      · next r a n hp =>
        split
        · next hok =>
          split
          · exact brk ..
          · refine modify_recvd _ _ _ fun k => ?_
            rfl
        · exact brk ..
      · split
        · split
          · rfl
          · split <;> rfl
        · exact brk ..
      · rfl
    · rfl
  | wake i =>
    left
    simp only [astep, ASt.wake]
    split
    · split
      · split
        · split <;> rfl
        · rfl
      · rfl
    · rfl
  | cancel i =>
    left
    simp only [astep, ASt.cancel]
    split
    · split
      · rfl
      · split
        · rw [sendFailed_conns]
        · rfl
      · split
        · rw [sendFailed_conns]; rfl
        · rfl
      · split
        · exact brk ..
        · rfl
      · split
        · exact brk ..
        · rfl
      · rfl
      · rfl
    · rfl
  | recv n => exact .inl (recv_recvd s n)
  | data n bs => exact absurd rfl (he n bs)
  | eof n => exact .inl (modify_recvd _ _ _ fun _ => rfl)
  | reset n => exact .inl (modify_recvd _ _ _ fun _ => rfl)

/-- what has been written on a connection stays written -/
theorem astep_sent (v : PyVer) (s : ASt) (e : AEv) (n : Nat) (k' : AConn) (hk : (astep v s e).conns[n]? = some k') :
    (∃ k, s.conns[n]? = some k ∧ k.sent <+: k'.sent) ∨ (s.conns[n]? = none ∧ k'.sent = []) := by
  have get : ∀ l : List AConn, (l.map AConn.fixed)[n]? = (l[n]?).map AConn.fixed := fun l => List.getElem?_map
  rcases astep_fixed v s e with h | ⟨i, c, r, a, l, -, -, -, h⟩ | ⟨i, c, r, a, m, bs, -, -, -, -, -, h⟩
  · left
    have := congrArg (·[n]?) h
    simp only [get, hk] at this
    cases hx : s.conns[n]? with
    | none => rw [hx] at this; cases this
    | some k =>
      rw [hx] at this
      simp only [Option.map_some, Option.some.injEq, AConn.fixed, Prod.mk.injEq] at this
      exact ⟨k, rfl, by rw [this.2]; exact List.prefix_refl _⟩
  · have := congrArg (·[n]?) h
    simp only [get, hk] at this
    cases hx : s.conns[n]? with
    | none =>
      right
      refine ⟨rfl, ?_⟩
      have hl := List.getElem?_eq_none_iff.1 hx
      rw [List.getElem?_append_right (by simpa using hl)] at this
      have := List.mem_of_getElem? this.symm
      simp only [List.mem_singleton, AConn.fixed, Prod.mk.injEq] at this
      exact this.2
    | some k =>
      left
      have hl := (List.getElem?_eq_some_iff.1 hx).1
      rw [List.getElem?_append_left (by simpa using hl), get, hx] at this
      simp only [Option.map_some, Option.some.injEq, AConn.fixed, Prod.mk.injEq] at this
      exact ⟨k, rfl, by rw [this.2]; exact List.prefix_refl _⟩
  · left
    rw [h] at hk
    by_cases e : m = n
    · subst e
      cases hx : s.conns[m]? with
      | none => rw [List.getElem?_modify, hx] at hk; simp at hk
      | some k =>
        rw [modify_self hx] at hk
        cases hk
        refine ⟨k, rfl, ?_⟩
        exact List.prefix_append _ _
    · rw [modify_other e] at hk
      exact ⟨k', hk, List.prefix_refl _⟩

theorem data_sent (v : PyVer) (s : ASt) (n : Nat) (bs : Bytes) (m : Nat) (k' : AConn)
    (hk : (astep v s (.data n bs)).conns[m]? = some k') :
    ∃ k, s.conns[m]? = some k ∧ k'.sent = k.sent ∧
      (k'.recvd = k.recvd ∨ m = n ∧ k'.recvd = k.recvd ++ bs) := by
  have hk : (s.conns.modify n fun k =>
        if k.eof || k.lost then k else { k with buf := k.buf ++ bs, recvd := k.recvd ++ bs })[m]? = some k' := hk
  by_cases e : n = m
  · subst e
    cases hx : s.conns[n]? with
    | none => rw [List.getElem?_modify, hx] at hk; simp at hk
    | some k =>
      rw [modify_self hx] at hk
      cases hk
      refine ⟨k, rfl, ?_⟩
      split
      · exact ⟨rfl, .inl rfl⟩
      · exact ⟨rfl, .inr ⟨rfl, rfl⟩⟩
  · rw [modify_other e] at hk
    exact ⟨k', hk, rfl, .inl rfl⟩

/-! ## The system is joined -/

theorem take_drop_prefix {a b : Bytes} (h : a <+: b) (len : Nat) : a ++ (b.drop a.length).take len <+: b := by
  obtain ⟨t, rfl⟩ := h
  rw [List.drop_left]
  exact (List.prefix_append_right_inj a).2 (List.take_prefix len t)

/-- the listener's side has received a beginning of what was written, and the other way round -/
structure SysOk (v : PyVer) (svc : Nat → Services) (reg : Nat → Registry) (y : Sys) : Prop where
  there : ∀ n, received (y.levs n) <+: y.out v n
  back : ∀ n, y.got v n <+: (y.peer svc reg n).st.wire

theorem SysOk.joined {v : PyVer} {svc : Nat → Services} {reg : Nat → Registry} {y : Sys} (h : SysOk v svc reg y) :
    Joined (arun v y.aevs) (y.peer svc reg) := by
  refine ⟨?_, ?_⟩
  · intro n k hk
    have := h.there n
    unfold Spec.Sys.out Spec.Sys.client at this
    rw [hk] at this
    exact this
  · intro n k hk
    have := h.back n
    unfold Spec.Sys.got Spec.Sys.client at this
    rw [hk] at this
    exact this

theorem out_astep (v : PyVer) (y : Sys) (e : AEv) (n : Nat) :
    y.out v n <+: ({ y with aevs := y.aevs ++ [e] } : Sys).out v n := by
  unfold Spec.Sys.out Spec.Sys.client
  dsimp only
  rw [arun_snoc]
  cases hx : (arun v y.aevs).conns[n]? with
  | none => exact List.nil_prefix
  | some k =>
    dsimp only
    cases hk : (astep v (arun v y.aevs) e).conns[n]? with
    | none =>
      by_cases he : e = .recv n
      · subst he
        obtain ⟨z, hz, -⟩ := recv_flags _ n hx
        rw [show (astep v (arun v y.aevs) (.recv n)).conns[n]? = ((arun v y.aevs).recv n).conns[n]? from rfl, hz] at hk
        cases hk
      · obtain ⟨z, hz, -⟩ := astep_grows v _ e hx he
        rw [hz] at hk
        cases hk
    | some k' =>
      dsimp only
      rcases astep_sent v _ e n k' hk with ⟨k0, h1, h2⟩ | ⟨h1, -⟩
      · rw [hx] at h1
        cases h1
        obtain ⟨t, ht⟩ := h2
        rw [← ht, List.map_append, List.flatten_append]
        exact List.prefix_append _ _
      · rw [hx] at h1; cases h1

theorem got_astep (v : PyVer) (y : Sys) (e : AEv) (he : ∀ n bs, e ≠ .data n bs) (n : Nat) :
    ({ y with aevs := y.aevs ++ [e] } : Sys).got v n = y.got v n := by
  have get : ∀ l : List AConn, (match l[n]? with | some k => k.recvd | none => []) = ((l.map AConn.recvd)[n]?).getD [] := by
    intro l
    rw [List.getElem?_map]
    cases l[n]? <;> rfl
  unfold Spec.Sys.got Spec.Sys.client
  dsimp only
  rw [arun_snoc, get, get]
  rcases astep_recvd v (arun v y.aevs) e he with h | h
  · rw [h]
  · rw [h, List.getElem?_append]
    split
    · rfl
    · next hl =>
      rw [List.getElem?_eq_none (Nat.le_of_not_lt hl)]
      generalize n - _ = d
      cases d <;> rfl

theorem SysOk.run (v : PyVer) (svc : Nat → Services) (reg : Nat → Registry) (es : List SysEv) :
    SysOk v svc reg (sysRun v svc reg es) := by
  induction es using snoc_induct with
  | nil => exact ⟨fun n => List.nil_prefix, fun n => List.nil_prefix⟩
  | snoc es e ih =>
    rw [sysRun_snoc]
    generalize sysRun v svc reg es = y at ih
    have cl : ∀ a : AEv, (∀ n bs, a ≠ .data n bs) → SysOk v svc reg { y with aevs := y.aevs ++ [a] } := by
      intro a ha
      refine ⟨fun n => (ih.there n).trans (out_astep v y a n), fun n => ?_⟩
      rw [got_astep v y a ha n]
      exact ih.back n
    have srv : ∀ (n : Nat) (a : LEv), received (y.levs n ++ [a]) <+: y.out v n → SysOk v svc reg (y.add n a) := by
      intro n a ha
      refine ⟨fun m => ?_, fun m => ?_⟩
      · show received (if m = n then y.levs n ++ [a] else y.levs m) <+: y.out v m
        split
        · next e => rw [e]; exact ha
        · exact ih.there m
      · refine (ih.back m).trans ?_
        show (lrun (svc m) (reg m) (y.levs m)).wire <+: (lrun (svc m) (reg m) (if m = n then y.levs n ++ [a] else y.levs m)).wire
        split
        · next e => rw [e]; exact wire_snoc _ _ _ _
        · exact List.prefix_refl _
    have srv' : ∀ (n : Nat) (a : LEv), (∀ bs, a ≠ .data bs) → SysOk v svc reg (y.add n a) := by
      intro n a ha
      refine srv n a ?_
      have : received [a] = [] := by
        cases a with
        | data bs => exact absurd rfl (ha bs)
        | _ => rfl
      rw [received_snoc, this]
      simpa using ih.there n
    cases e with
    | client a =>
      cases a with
      | data n bs => exact ih
      | _ => exact cl _ (by intro n bs h; cases h)
    | server n a =>
      cases a with
      | data bs => exact ih
      | _ => exact srv' _ _ (by intro bs h; cases h)
    | there n len =>
      refine srv n _ ?_
      rw [received_snoc]
      split
      · rw [List.append_nil]; exact ih.there n
      · show received (y.levs n) ++ (_ ++ []) <+: _
        rw [List.append_nil]
        exact take_drop_prefix (ih.there n) len
    | back n len =>
      refine ⟨fun m => (ih.there m).trans (out_astep v y _ m), fun m => ?_⟩
      show (Spec.Sys.got _ v m) <+: (y.peer svc reg m).st.wire
      have hb := ih.back m
      unfold Spec.Sys.got Spec.Sys.client
      dsimp only [sysStep]
      rw [arun_snoc]
      split
      · next k hk =>
        obtain ⟨k0, h1, -, h2⟩ := data_sent v _ _ _ _ _ hk
        have hg : y.got v m = k0.recvd := by
          unfold Spec.Sys.got Spec.Sys.client
          rw [h1]
        rw [hg] at hb
        rcases h2 with h2 | ⟨rfl, h2⟩
        · rw [h2]; exact hb
        · rw [h2, hg]
          exact take_drop_prefix hb len
      · exact List.nil_prefix

/-- at any moment before, the system was one -/
theorem sys_prefix (v : PyVer) (svc : Nat → Services) (reg : Nat → Registry) (es : List SysEv) (pre post : List AEv)
    (h : (sysRun v svc reg es).aevs = pre ++ post) : ∃ es', (sysRun v svc reg es').aevs = pre := by
  induction es using snoc_induct generalizing post with
  | nil =>
    have h : [] = pre ++ post := h
    exact ⟨[], (List.append_eq_nil_iff.1 h.symm).1.symm⟩
  | snoc es e ih =>
    rw [sysRun_snoc] at h
    have cl : ∀ a : AEv, (sysRun v svc reg es).aevs ++ [a] = pre ++ post →
        sysStep v svc reg (sysRun v svc reg es) e = { sysRun v svc reg es with aevs := (sysRun v svc reg es).aevs ++ [a] } →
        ∃ es', (sysRun v svc reg es').aevs = pre := by
      intro a h hs
      rcases List.append_eq_append_iff.1 h with ⟨l, h1, h2⟩ | ⟨l, h1, h2⟩
      · cases l with
        | nil => exact ⟨es, by rw [h1, List.append_nil]⟩
        | cons x l =>
          have hl : l = [] ∧ post = [] := by
            have := congrArg List.length h2
            simp only [List.length_cons, List.length_append, List.length_nil] at this
            exact ⟨List.length_eq_zero_iff.1 (by omega), List.length_eq_zero_iff.1 (by omega)⟩
          obtain ⟨rfl, rfl⟩ := hl
          refine ⟨es ++ [e], ?_⟩
          rw [sysRun_snoc, hs]
          dsimp only
          rw [h, List.append_nil]
      · exact ih l h1
    cases e with
    | client a =>
      cases a with
      | data n bs => exact ih post h
      | _ => exact cl _ h rfl
    | server n a =>
      cases a with
      | data bs => exact ih post h
      | _ => exact ih post h
    | there n len => exact ih post h
    | back n len => exact cl _ h rfl

/-! ## Where a reader may begin a frame -/

theorem readerIter_act {r r' : ReadSt} {b b' : Bytes} (h : readerIter r b false = some (r', b', none)) : r'.phase ≠ .hdr := by
  unfold readerIter at h
  intro hp
  split at h
  · dsimp only at h
    split at h
    · split at h
      · cases h
      · cases h; cases hp
    · cases h
  · dsimp only at h
    split at h
    · cases h; cases hp
    · cases h
  · dsimp only at h
    split at h
    · split at h
      · cases h
      · cases h; cases hp
    · cases h
  · dsimp only at h
    split at h <;> cases h
  · cases h

theorem steps_no_act {r r' : ReadSt} {b b' : Bytes} {l : List Act} (h : RSteps r b l r' b') (hl : l = [])
    (hp : r'.phase = .hdr) : r = r' ∧ b = b' := by
  induction h with
  | refl => exact ⟨rfl, rfl⟩
  | @step r r1 r2 b b1 b2 a l h t ih =>
    rw [List.append_eq_nil_iff] at hl
    obtain ⟨rfl, rfl⟩ := ih hl.2 hp
    cases a with
    | some a => simp at hl
    | none => exact absurd hp (readerIter_act h)

/-- the reader begins at the frames only -/
theorem frame_boundary (qs : List AnyFrame) (hq : ∀ q ∈ qs, q.Ok) : ∀ (a last : Option Int) (l : List Act) (b : Bytes),
    RSteps ⟨.hdr, a⟩ (framesBytes qs) l ⟨.hdr, last⟩ b → ∃ qs1 qs2, qs = qs1 ++ qs2 ∧ b = framesBytes qs2 := by
  induction qs with
  | nil =>
    intro a last l b h
    refine ⟨[], [], rfl, ?_⟩
    exact (h.stuck rfl).2.2
  | cons q qs ih =>
    intro a last l b h
    have h2 := reads_any q (hq q (by simp)) a (framesBytes qs)
    rw [show q.bytes ++ framesBytes qs = framesBytes (q :: qs) by simp [framesBytes]] at h2
    rcases h.confluent h2 with ⟨l', h3, e⟩ | ⟨l', h3, e⟩
    · cases l with
      | nil => exact ⟨[], q :: qs, rfl, (steps_no_act h rfl rfl).2.symm⟩
      | cons x l =>
        have : l' = [] := by
          have := congrArg List.length e
          simp only [List.length_cons, List.length_nil, List.length_append] at this
          exact List.length_eq_zero_iff.1 (by omega)
        exact ⟨[q], qs, rfl, (steps_no_act h3 this rfl).2⟩
    · obtain ⟨qs1, qs2, e1, e2⟩ := ih (fun x hx => hq x (by simp [hx])) _ _ _ _ h3
      exact ⟨q :: qs1, qs2, by rw [e1]; rfl, e2⟩

theorem s4_inj {a b : Int} (ha : IdOk a) (hb : IdOk b) (h : s4 a = s4 b) : a = b := by
  have fit : ∀ x : Int, IdOk x → Fields.Fit true ⟨0, 0, 0, 0, x, 0, 0⟩ := fun x hx => ⟨by simp, by simp, by simp, by simp, hx, by simp, by simp⟩
  have e : frame true ⟨0, 0, 0, 0, a, 0, 0⟩ [] [] [] = frame true ⟨0, 0, 0, 0, b, 0, 0⟩ [] [] [] := by
    unfold frame fixedPart
    dsimp only
    rw [h]
  have := (frame_inj e (fit a ha) (fit b hb) bodyFit_nil bodyFit_nil).1
  injection this

theorem fixedPart_id {f f' : Fields} {cl hl nl cl' hl' nl' : Nat} {x y : Bytes} (hf : Fields.Fit true f)
    (hf' : Fields.Fit true f') (h : fixedPart true f cl hl nl ++ x = fixedPart true f' cl' hl' nl' ++ y) :
    f.requestId = f'.requestId := by
  have key : ∀ (f : Fields) (cl hl nl : Nat) (x : Bytes), ((fixedPart true f cl hl nl ++ x).drop 5).take 4 = s4 f.requestId := by
    intro f cl hl nl x
    simp [fixedPart, s1, s2, s4, be2, be4]
  have := congrArg (fun l => (l.drop 5).take 4) h
  rw [key, key] at this
  exact s4_inj hf.requestId hf'.requestId this

/-- a header found in (a beginning of) a sequence of frames is the header of one of them -/
theorem headerAt_frames {qs : List AnyFrame} (hq : ∀ q ∈ qs, q.Ok) {bs : Bytes} (hb : bs <+: framesBytes qs) {id : Int}
    (h : HeaderAt bs id) : ∃ q ∈ qs, q.f.requestId = id := by
  obtain ⟨more, hm⟩ := hb
  have h := h.append more
  rw [hm] at h
  obtain ⟨l, last, f, cl, hl, nl, rest, h1, hf, hid⟩ := h
  obtain ⟨qs1, qs2, e1, e2⟩ := frame_boundary qs hq _ _ _ _ h1
  cases qs2 with
  | nil =>
    have := congrArg List.length e2
    rw [List.length_append, fixedPart_length] at this
    simp [framesBytes] at this
  | cons q qs2 =>
    have hm : q ∈ qs := by rw [e1]; simp
    refine ⟨q, hm, ?_⟩
    rw [← hid]
    have e : framesBytes (q :: qs2) = fixedPart true q.f q.cls.length q.hdr.length q.content.length ++
        (q.cls ++ q.hdr ++ q.content ++ framesBytes qs2) := by
      simp [framesBytes, AnyFrame.bytes, frame]
    rw [e] at e2
    exact (fixedPart_id hf (hq q hm).fit e2).symm

end Bolt
