import Verif.Lemmas.AioRecvd
/-!
# Progress of the reading task of the asyncio client
-/
namespace Bolt
open Spec

/-- what happens to a connection apart from its own reading task -/
def AConn.grows (x y : AConn) : Prop :=
  y.pc = x.pc ∧ x.buf <+: y.buf ∧ (x.cancelled = true → y.cancelled = true) ∧ (x.lost = true → y.lost = true)

theorem modify_grows {l : List AConn} {n m : Nat} {f : AConn → AConn} (h : ∀ k : AConn, k.grows (f k))
    {x : AConn} (hx : l[m]? = some x) : ∃ y, (l.modify n f)[m]? = some y ∧ x.grows y := by
  by_cases e : n = m
  · subst e
    exact ⟨_, modify_self hx, h x⟩
  · exact ⟨x, by rw [modify_other e]; exact hx, rfl, List.prefix_refl _, id, id⟩

/-- a reading task leaves the other connections alone -/
theorem recv_other (s : ASt) {n m : Nat} (h : n ≠ m) : (s.recv n).conns[m]? = s.conns[m]? := by
  have key : ∀ k', (s.conns.set n k')[m]? = s.conns[m]? := by
    intro k'
    rw [List.getElem?_set, if_neg h]
  unfold ASt.recv
  split
  · rfl
  · split
    · rfl
    · split <;> exact key _
    · split
      · exact key _
      · dsimp only
        split
        · split <;> exact key _
        · split
          · exact key _
          · rfl
    · split
      · exact key _
      · split
        · exact key _
        · split
          · dsimp only
            split
            · exact key _
            · rw [onPkg_conns]; exact key _
          · split
            · exact key _
            · rfl

theorem astep_grows (v : PyVer) (s : ASt) (e : AEv) {m : Nat} {x : AConn} (hx : s.conns[m]? = some x) (he : e ≠ .recv m) :
    ∃ y, (astep v s e).conns[m]? = some y ∧ x.grows y := by
  have hd : x.grows x := ⟨rfl, List.prefix_refl _, id, id⟩
  have brk : ∀ i c r a n, ∃ y, (s.broken i c r a n).conns[m]? = some y ∧ x.grows y := by
    intro i c r a n
    rw [broken_conns]
    exact modify_grows (fun _ => by exact ⟨rfl, List.prefix_refl _, fun _ => rfl, id⟩) hx
  cases e with
  | call req => exact ⟨x, hx, hd⟩
  | start i addr =>
    simp only [astep, ASt.start]
    split
    · split
      · rw [send_conns]; exact ⟨x, hx, hd⟩
      · exact ⟨x, hx, hd⟩
    · exact ⟨x, hx, hd⟩
  | lock i =>
    simp only [astep, ASt.lockTurn]
    split
    · split
      · split
        · split <;> exact ⟨x, hx, hd⟩
        · exact ⟨x, hx, hd⟩
      · exact ⟨x, hx, hd⟩
    · exact ⟨x, hx, hd⟩
  | dialed i ok =>
    simp only [astep, ASt.dialed]
    split
    · split
      · next r a l hp =>
        split
        · have : (s.conns ++ [({ addr := a } : AConn)])[m]? = some x := by
            rw [List.getElem?_append_left (List.getElem?_eq_some_iff.1 hx).1]
            exact hx
          split <;> exact ⟨x, this, hd⟩
        · rw [sendFailed_conns]; exact ⟨x, hx, hd⟩
      · exact ⟨x, hx, hd⟩
    · exact ⟨x, hx, hd⟩
  | drained i ok =>
    simp only [astep, ASt.drained]
    split
    · split
      · split
        · split
          · exact brk ..
          · refine modify_grows (l := s.conns) ?_ hx
            exact fun k => ⟨rfl, List.prefix_refl _, id, id⟩
        · exact brk ..
      · split
        · split
          · exact ⟨x, hx, hd⟩
          · split <;> exact ⟨x, hx, hd⟩
        · exact brk ..
      · exact ⟨x, hx, hd⟩
    · exact ⟨x, hx, hd⟩
  | wake i =>
    simp only [astep, ASt.wake]
    split
    · split
      · split
        · split <;> exact ⟨x, hx, hd⟩
        · exact ⟨x, hx, hd⟩
      · exact ⟨x, hx, hd⟩
    · exact ⟨x, hx, hd⟩
  | cancel i =>
    simp only [astep, ASt.cancel]
    split
    · split
      · exact ⟨x, hx, hd⟩
      · split
        · rw [sendFailed_conns]; exact ⟨x, hx, hd⟩
        · exact ⟨x, hx, hd⟩
      · split
        · rw [sendFailed_conns]; exact ⟨x, hx, hd⟩
        · exact ⟨x, hx, hd⟩
      · split
        · exact brk ..
        · exact ⟨x, hx, hd⟩
      · split
        · exact brk ..
        · exact ⟨x, hx, hd⟩
      · exact ⟨x, hx, hd⟩
      · exact ⟨x, hx, hd⟩
    · exact ⟨x, hx, hd⟩
  | recv n => exact ⟨x, by rw [← hx]; exact recv_other s fun h => he (by rw [h]), hd⟩
  | data n bs =>
    refine modify_grows (l := s.conns) ?_ hx
    intro k
    split
    · exact ⟨rfl, List.prefix_refl _, id, id⟩
    · exact ⟨rfl, List.prefix_append _ _, id, id⟩
  | eof n => exact modify_grows (l := s.conns) (fun _ => by exact ⟨rfl, List.prefix_refl _, id, id⟩) hx
  | reset n => exact modify_grows (l := s.conns) (fun _ => by exact ⟨rfl, List.prefix_refl _, id, fun _ => rfl⟩) hx


/-- the reading task never takes a mark off its connection -/
theorem recv_flags (s : ASt) (n : Nat) {x : AConn} (hx : s.conns[n]? = some x) : ∃ y, (s.recv n).conns[n]? = some y ∧
    (x.cancelled = true → y.cancelled = true) ∧ (x.lost = true → y.lost = true) := by
  have key : ∀ k' : AConn, (x.cancelled = true → k'.cancelled = true) → (x.lost = true → k'.lost = true) →
      ∃ y, (s.conns.set n k')[n]? = some y ∧ (x.cancelled = true → y.cancelled = true) ∧
        (x.lost = true → y.lost = true) := by
    intro k' h1 h2
    exact ⟨k', by rw [List.getElem?_set, if_pos rfl, if_pos (List.getElem?_eq_some_iff.1 hx).1], h1, h2⟩
  unfold ASt.recv
  rw [hx]
  dsimp only
  split
  · exact ⟨x, hx, id, id⟩
  · split <;> exact key _ id id
  · split
    · exact key _ id id
    · split
      · split <;> exact key _ id id
      · split
        · exact key _ id id
        · exact ⟨x, hx, id, id⟩
  · split
    · exact key _ id id
    · split
      · exact key _ id id
      · split
        · split
          · exact key _ id id
          · rw [onPkg_conns]; exact key _ id id
        · split
          · exact key _ id id
          · exact ⟨x, hx, id, id⟩

/-- The package `p` is due on the connection within `m` turns of the reading task: it has arrived, preceded by frames. -/
def Spec.Due (p : Pkg) (k : AConn) (m : Nat) : Prop :=
  ∃ (us : List Bytes) (fr rest : Bytes), (∀ u ∈ us, RespUnit u) ∧ fromStream .boltResponse fr = .ok p ∧
    ((k.pc = .hdr ∧ k.buf = us.flatten ++ fr ++ rest ∧ m = 2 * us.length + 2) ∨
     ∃ (h : BoltHdr) (hb : Bytes), k.pc = .body h ∧ hb.length = 20 ∧ boltHeaderFromStream .boltResponse hb = .ok h ∧
       hb ++ k.buf = us.flatten ++ fr ++ rest ∧ m = 2 * us.length + 1)

theorem Spec.Due.grows {p : Pkg} {x y : AConn} {m : Nat} (h : Due p x m) (hg : x.grows y) : Due p y m := by
  obtain ⟨us, fr, rest, h1, h2, h3⟩ := h
  obtain ⟨g1, ⟨t, g2⟩, -⟩ := hg
  refine ⟨us, fr, rest ++ t, h1, h2, ?_⟩
  rcases h3 with ⟨a, b, c⟩ | ⟨h, hb, a, b, c, d, e⟩
  · exact .inl ⟨g1.trans a, by rw [← g2, b]; simp, c⟩
  · refine .inr ⟨h, hb, g1.trans a, b, c, ?_, e⟩
    rw [← g2, ← List.append_assoc, d]
    simp

theorem fromStream_unit {u : Bytes} {p : Pkg} (h : fromStream .boltResponse u = .ok p) : RespUnit u := by
  rw [fromStream_ok_iff] at h
  obtain ⟨f, cn, hb, ct, d, rfl, -, h, -⟩ := h
  exact ⟨by rw [frame_length]; simp [PkgClass.isRequest]; omega, by
    have := declaredLength_frame false f cn hb ct h []
    rw [List.append_nil] at this
    exact this.symm⟩

/-- one turn of the reading task with a package due -/
theorem recv_due (s : ASt) (n : Nat) {x : AConn} {p : Pkg} {m : Nat} (hx : s.conns[n]? = some x)
    (hc : x.cancelled = false) (hl : x.lost = false) (h : Due p x m) :
    (m = 1 ∧ Processes s n p) ∨ ∃ y, (s.recv n).conns[n]? = some y ∧ Due p y (m - 1) ∧ 2 ≤ m := by
  have key : ∀ k' : AConn, (s.conns.set n k')[n]? = some k' := by
    intro k'
    rw [List.getElem?_set, if_pos rfl, if_pos (List.getElem?_eq_some_iff.1 hx).1]
  obtain ⟨us, fr, rest, hus, hfr, h3⟩ := h
  have hf := fromStream_unit hfr
  rcases h3 with ⟨a, b, rfl⟩ | ⟨h, hb, a, b, c, d, rfl⟩
  · right
    have hl20 : 20 ≤ x.buf.length := by
      rw [b]
      simp only [List.length_append]
      have := hf.1
      omega
    have hlen : (x.buf.take 20).length = 20 := by rw [List.length_take]; omega
    obtain ⟨h, hh⟩ := boltHeaderFromStream_total .boltResponse (x.buf.take 20) (by rw [hlen]; exact Nat.le_refl _)
    have e : s.recv n = s.setConn n { x with buf := x.buf.drop 20, pc := .body h } := by
      unfold ASt.recv
      rw [hx]
      dsimp only
      rw [a]
      simp only [hc, hl, Bool.or_self, Bool.false_eq_true, if_false, headerSize_resp, hl20, if_true, hh]
    rw [e]
    refine ⟨_, key _, ⟨us, fr, rest, hus, hfr, .inr ⟨h, x.buf.take 20, rfl, hlen, hh, ?_, by omega⟩⟩, by omega⟩
    rw [← b]
    exact List.take_append_drop ..
  · obtain ⟨h', w, e1, b1, d1, -⟩ := header_declares .boltResponse hb (by rw [b]; exact Nat.le_refl _)
    rw [c] at e1
    cases e1
    rw [show PkgClass.boltResponse.isRequest = false from rfl, headerSize_resp] at d1
    have cut : ∀ u t, RespUnit u → hb ++ x.buf = u ++ t → w ≤ x.buf.length ∧ u = hb ++ x.buf.take w ∧ t = x.buf.drop w := by
      intro u t hu e
      have h1 := respUnit_prefix hb x.buf (by omega)
      rw [e, respUnit_prefix u t hu.1, d1, ← hu.2] at h1
      have hlen := congrArg List.length e
      rw [List.length_append, List.length_append] at hlen
      have hw : w ≤ x.buf.length := by omega
      refine ⟨hw, ?_⟩
      rw [← List.take_append_drop w x.buf, ← List.append_assoc] at e
      obtain ⟨e1, e2⟩ := List.append_inj e (by rw [List.length_append, List.length_take, b]; omega)
      exact ⟨e1.symm, e2.symm⟩
    cases us with
    | nil =>
      left
      obtain ⟨g1, g2, g3⟩ := cut fr rest hf (by simpa using d)
      refine ⟨rfl, x, h, w, hx, a, hc, hl, b1, by rw [Int.toNat_natCast]; exact g1, ?_⟩
      rw [Int.toNat_natCast]
      have e : boltHeaderFromStream .boltResponse fr = .ok h := by
        rw [← c, g2]
        unfold boltHeaderFromStream
        rw [List.take_append_of_le_length (by rw [headerSize_resp]; omega)]
      unfold fromStream at hfr
      rw [e] at hfr
      simp only [bind, Except.bind] at hfr
      rw [headerSize_resp, g2, ← b, List.drop_left] at hfr
      exact hfr
    | cons u us =>
      right
      obtain ⟨g1, g2, g3⟩ := cut u (us.flatten ++ fr ++ rest) (hus u (by simp)) (by simpa using d)
      have e : ∃ y, (s.recv n).conns[n]? = some y ∧ y = { x with buf := x.buf.drop w, pc := .hdr } := by
        unfold ASt.recv
        rw [hx]
        dsimp only
        rw [a]
        simp only [hc, hl, Bool.or_self, Bool.false_eq_true, if_false, b1, Int.toNat_natCast, g1, if_true]
        cases boltContentFromStream .boltResponse (x.buf.take w) h with
        | error e => exact ⟨_, key _, rfl⟩
        | ok q => dsimp only; rw [onPkg_conns]; exact ⟨_, key _, rfl⟩
      obtain ⟨y, hy, rfl⟩ := e
      refine ⟨_, hy, ⟨us, fr, rest, fun v hv => hus v (by simp [hv]), hfr, .inl ⟨rfl, g3.symm, ?_⟩⟩, ?_⟩
      · rw [List.length_cons]; omega
      · rw [List.length_cons]; omega

/-- marks stay -/
theorem arun_flags (v : PyVer) (evs more : List AEv) {n : Nat} {x : AConn} (hx : (arun v evs).conns[n]? = some x) :
    ∃ y, (arun v (evs ++ more)).conns[n]? = some y ∧ (x.cancelled = true → y.cancelled = true) ∧
      (x.lost = true → y.lost = true) := by
  induction more using snoc_induct with
  | nil => rw [List.append_nil]; exact ⟨x, hx, id, id⟩
  | snoc more e ih =>
    obtain ⟨y, h1, h2, h3⟩ := ih
    rw [← List.append_assoc, arun_snoc]
    by_cases he : e = .recv n
    · subst he
      obtain ⟨z, g1, g2, g3⟩ := recv_flags _ n h1
      exact ⟨z, g1, fun h => g2 (h2 h), fun h => g3 (h3 h)⟩
    · obtain ⟨z, g1, -, -, g2, g3⟩ := astep_grows v _ e h1 he
      exact ⟨z, g1, fun h => g2 (h2 h), fun h => g3 (h3 h)⟩

/-- A package that is due within `m` turns is processed once the reading task has had `m` turns, if the connection is not
lost or given up. -/
theorem due_processed (v : PyVer) (pre : List AEv) (n : Nat) (p : Pkg) : ∀ (post : List AEv) (x : AConn) (m : Nat),
    (arun v pre).conns[n]? = some x → Due p x m → m ≤ post.count (.recv n) →
    (∃ y, (arun v (pre ++ post)).conns[n]? = some y ∧ y.cancelled = false ∧ y.lost = false) →
    ∃ p1 p2, post = p1 ++ .recv n :: p2 ∧ Processes (arun v (pre ++ p1)) n p := by
  intro post x m hx hm hcount hend
  -- either it has been processed, or it is due within the turns that are left
  have key : ∀ p1 p2, post = p1 ++ p2 →
      (∃ q1 q2, p1 = q1 ++ .recv n :: q2 ∧ Processes (arun v (pre ++ q1)) n p) ∨
      ∃ y m', (arun v (pre ++ p1)).conns[n]? = some y ∧ Due p y m' ∧ m' + p1.count (.recv n) = m ∧ 1 ≤ m' := by
    intro p1
    induction p1 using snoc_induct with
    | nil =>
      intro p2 _
      right
      rw [List.append_nil]
      refine ⟨x, m, hx, hm, by simp, ?_⟩
      obtain ⟨us, -, -, -, -, ⟨-, -, e⟩ | ⟨-, -, -, -, -, -, e⟩⟩ := hm <;> omega
    | snoc p1 e ih =>
      intro p2 hp
      rcases ih ([e] ++ p2) (by rw [hp]; simp) with ⟨q1, q2, h1, h2⟩ | ⟨y, m', h1, h2, h3, h4⟩
      · exact .inl ⟨q1, q2 ++ [e], by rw [h1]; simp, h2⟩
      · by_cases he : e = .recv n
        · subst he
          have hfl : y.cancelled = false ∧ y.lost = false := by
            obtain ⟨z, z1, z2, z3⟩ := hend
            obtain ⟨z', w1, w2, w3⟩ := arun_flags v (pre ++ p1) ([.recv n] ++ p2) h1
            rw [show pre ++ p1 ++ ([.recv n] ++ p2) = pre ++ post by rw [hp]; simp, z1] at w1
            cases w1
            refine ⟨Bool.eq_false_iff.2 fun h => ?_, Bool.eq_false_iff.2 fun h => ?_⟩
            · rw [w2 h] at z2; cases z2
            · rw [w3 h] at z3; cases z3
          rcases recv_due _ n h1 hfl.1 hfl.2 h2 with ⟨-, hpr⟩ | ⟨z, g1, g2, g3⟩
          · exact .inl ⟨p1, [], rfl, hpr⟩
          · right
            refine ⟨z, m' - 1, ?_, g2, ?_, by omega⟩
            · rw [← List.append_assoc, arun_snoc]; exact g1
            · rw [List.count_append, List.count_singleton]
              simp only [beq_self_eq_true, if_true]
              omega
        · obtain ⟨z, g1, g2⟩ := astep_grows v _ e h1 he
          right
          refine ⟨z, m', ?_, h2.grows g2, ?_, h4⟩
          · rw [← List.append_assoc, arun_snoc]; exact g1
          · rw [List.count_append, List.count_singleton]
            rw [if_neg (by simpa using he)]
            omega
  rcases key post [] (by simp) with h | ⟨y, m', -, -, h3, h4⟩
  · exact h
  · omega

end Bolt
