import Verif.Model.Pool
/-! Lemmas about the sequential connection pool. -/
namespace Bolt
open CPool

/-- free connections as a list (none when closed) -/
def CPool.freeL (p : CPool) : List ConnRef := p.free.getD []

/-- Well-formedness of a pool, `H` being the connections elsewhere (held or lost). -/
structure Loc (cfg : PoolCfg) (p : CPool) (H : List ConnRef) : Prop where
  nodup : (p.freeL ++ H).Nodup
  bound : ∀ c ∈ p.freeL ++ H, c < p.made
  cap : p.num ≤ cfg.maxConns
  freeCap : 0 < cfg.maxFree → p.freeL.length ≤ cfg.maxFree

theorem loc_newConn {cfg : PoolCfg} {p p' : CPool} {H : List ConnRef} {n : ConnRef} (h : Loc cfg p H)
    (hn : newConn cfg p = (p', .ok n)) : Loc cfg p' (n :: H) ∧ n = p.made ∧ p'.free = p.free
      ∧ p'.closed = p.closed ∧ p'.num = p.num + 1 ∧ p'.made = p.made + 1 := by
  unfold newConn at hn
  split at hn
  · cases hn
  · next hlt =>
    cases hn
    refine ⟨⟨?_, ?_, ?_, h.freeCap⟩, rfl, rfl, rfl, rfl, rfl⟩
    · have : (p.freeL ++ p.made :: H).Perm (p.made :: (p.freeL ++ H)) := List.perm_middle
      refine this.symm.nodup (List.nodup_cons.2 ⟨?_, h.nodup⟩)
      intro hm; exact absurd (h.bound _ hm) (Nat.lt_irrefl _)
    · intro c hc
      have hc' : c ∈ p.freeL ++ p.made :: H := hc
      simp only [List.mem_append, List.mem_cons] at hc'
      show c < p.made + 1
      rcases hc' with hc' | rfl | hc'
      · exact Nat.lt_succ_of_lt (h.bound c (List.mem_append_left _ hc'))
      · exact Nat.lt_succ_self _
      · exact Nat.lt_succ_of_lt (h.bound c (List.mem_append_right _ hc'))
    · show p.num + 1 ≤ _; omega

theorem newConn_error {cfg : PoolCfg} {p p' : CPool} {e : PyExc} (hn : newConn cfg p = (p', .error e)) :
    p' = p ∧ e = .emptyPool ∧ (cfg.maxConns : Int) ≤ p.num := by
  unfold newConn at hn
  split at hn
  · next h => cases hn; exact ⟨rfl, rfl, h⟩
  · cases hn

theorem loc_congr {cfg : PoolCfg} {p p' : CPool} {H : List ConnRef} (h : Loc cfg p H) (h1 : p'.free = p.free)
    (h2 : p'.made = p.made) (h3 : p'.num ≤ p.num) : Loc cfg p' H := by
  have hf : p'.freeL = p.freeL := by simp [freeL, h1]
  exact ⟨by rw [hf]; exact h.nodup, by rw [hf, h2]; exact h.bound, Int.le_trans h3 h.cap,
    by rw [hf]; exact h.freeCap⟩

theorem loc_perm {cfg : PoolCfg} {p : CPool} {H H' : List ConnRef} (h : Loc cfg p H) (hp : H.Perm H') :
    Loc cfg p H' :=
  ⟨(hp.append_left _).nodup h.nodup, fun c hc => h.bound c ((hp.append_left _).mem_iff.2 hc), h.cap, h.freeCap⟩

theorem loc_forget {cfg : PoolCfg} {p : CPool} {H : List ConnRef} {c : ConnRef} (h : Loc cfg p (c :: H)) :
    Loc cfg p H := by
  refine ⟨?_, ?_, h.cap, h.freeCap⟩
  · exact List.Nodup.sublist (List.Sublist.append_left (List.sublist_cons_self _ _) _) h.nodup
  · intro x hx
    refine h.bound x ?_
    simp only [List.mem_append, List.mem_cons] at hx ⊢
    rcases hx with hx | hx
    · exact .inl hx
    · exact .inr (.inr hx)

theorem loc_putConn {cfg : PoolCfg} {p : CPool} {H : List ConnRef} {c : ConnRef} (h : Loc cfg p (c :: H)) :
    Loc cfg (putConn cfg p c) H := by
  unfold putConn
  split
  · exact loc_congr (loc_forget h) rfl rfl (Int.le_refl _)
  · next q hq =>
    split
    · exact loc_congr (loc_forget h) rfl rfl (by show p.num - 1 ≤ p.num; omega)
    · next hf =>
      have hL : p.freeL = q := by simp [freeL, hq]
      refine ⟨?_, ?_, h.cap, ?_⟩
      · have := h.nodup
        rw [hL] at this
        have hp : (q ++ c :: H).Perm (c :: (q ++ H)) := List.perm_middle
        exact hp.nodup this
      · intro x hx
        refine h.bound x ?_
        rw [hL]
        have hx' : x ∈ c :: q ++ H := hx
        simp only [List.cons_append, List.mem_cons, List.mem_append] at hx' ⊢
        rcases hx' with hx' | hx' | hx'
        · exact .inr (.inl hx')
        · exact .inl hx'
        · exact .inr (.inr hx')
      · intro hpos
        have hf' := hf
        simp only [full, Bool.and_eq_true, decide_eq_true_eq, not_and] at hf'
        have := hf' hpos
        show (c :: q).length ≤ _
        simp; omega

theorem loc_pop {cfg : PoolCfg} {p : CPool} {H : List ConnRef} {c : ConnRef} {q : List ConnRef} (h : Loc cfg p H)
    (hq : p.free = some (c :: q)) : Loc cfg { p with free := some q } (c :: H) := by
  have hL : p.freeL = c :: q := by simp [freeL, hq]
  refine ⟨?_, ?_, h.cap, ?_⟩
  · have := h.nodup
    rw [hL] at this
    have hp : (q ++ c :: H).Perm (c :: (q ++ H)) := List.perm_middle
    exact hp.symm.nodup this
  · intro x hx
    refine h.bound x ?_
    rw [hL]
    have hx' : x ∈ q ++ c :: H := hx
    simp only [List.cons_append, List.mem_cons, List.mem_append] at hx' ⊢
    rcases hx' with hx' | hx' | hx'
    · exact .inr (.inl hx')
    · exact .inl hx'
    · exact .inr (.inr hx')
  · intro hpos
    have := h.freeCap hpos
    rw [hL] at this
    show q.length ≤ _
    simp at this; omega

/-- All the ways `get_conn` can go. -/
theorem getConn_cases (cfg : PoolCfg) (p : CPool) (t r : Bool) :
    (p.free = none ∧ getConn cfg p t r = (p, .raise .closedPool)) ∨
    (p.free = some [] ∧ cfg.block = true ∧
      getConn cfg p t r = (p, if t then .raise .emptyPool else .hang)) ∨
    (p.free = some [] ∧ cfg.block = false ∧ (cfg.maxConns : Int) ≤ p.num ∧
      getConn cfg p t r = (p, .raise .emptyPool)) ∨
    (p.free = some [] ∧ cfg.block = false ∧ ∃ p', newConn cfg p = (p', .ok p.made) ∧
      getConn cfg p t r = (p', .ok p.made)) ∨
    (∃ c q, p.free = some (c :: q) ∧ q.length < cfg.minFree ∧ (cfg.maxConns : Int) ≤ p.num ∧
      getConn cfg p t r = ({ p with free := some q }, .raise .emptyPool)) ∨
    (∃ c q p2, p.free = some (c :: q) ∧
      ((q.length < cfg.minFree ∧ ∃ p1, newConn cfg { p with free := some q } = (p1, .ok p.made) ∧
          p2 = putConn cfg p1 p.made) ∨
        (cfg.minFree ≤ q.length ∧ p2 = { p with free := some q })) ∧
      getConn cfg p t r = if isDropped p2 c r then ({ p2.closeConn c with num := p2.num - 1 }, .ok c)
        else (p2, .ok c)) := by
  unfold getConn
  match hf : p.free with
  | none => exact .inl ⟨rfl, rfl⟩
  | some [] =>
    right
    by_cases hb : cfg.block = true
    · exact .inl ⟨rfl, hb, by simp [hb]⟩
    · right
      simp only [Bool.not_eq_true] at hb
      by_cases hn : p.num ≥ cfg.maxConns
      · exact .inl ⟨rfl, hb, hn, by simp [newConn, hn, hb]⟩
      · refine .inr (.inl ⟨rfl, hb, { p with num := p.num + 1, made := p.made + 1 }, by simp [newConn, hn],
          by simp [newConn, hn, hb]⟩)
  | some (c :: q) =>
    right; right; right; right
    by_cases hm : q.length < cfg.minFree
    · by_cases hn : p.num ≥ cfg.maxConns
      · exact .inl ⟨c, q, rfl, hm, hn, by simp [newConn, hm, hn]⟩
      · refine .inr ⟨c, q, _, rfl, .inl ⟨hm, { p with free := some q, num := p.num + 1, made := p.made + 1 },
          by simp [newConn, hn], rfl⟩, ?_⟩
        simp [newConn, hm, hn, CPool.closeConn]
    · refine .inr ⟨c, q, _, rfl, .inr ⟨by omega, rfl⟩, ?_⟩
      simp [hm, CPool.closeConn]

theorem loc_mid {cfg : PoolCfg} {p p2 : CPool} {H : List ConnRef} {c : ConnRef} {q : List ConnRef}
    (h : Loc cfg p H) (hq : p.free = some (c :: q))
    (h2 : (q.length < cfg.minFree ∧ ∃ p1, newConn cfg { p with free := some q } = (p1, .ok p.made) ∧
          p2 = putConn cfg p1 p.made) ∨ (cfg.minFree ≤ q.length ∧ p2 = { p with free := some q })) :
    Loc cfg p2 (c :: H) := by
  have hpop := loc_pop h hq
  rcases h2 with ⟨_, p1, h3, rfl⟩ | ⟨_, rfl⟩
  · exact loc_putConn (loc_newConn hpop h3).1
  · exact hpop

theorem loc_getConn {cfg : PoolCfg} {p : CPool} {H : List ConnRef} (h : Loc cfg p H) (t r : Bool) :
    (∀ c, (getConn cfg p t r).2 = .ok c → Loc cfg (getConn cfg p t r).1 (c :: H)) ∧
    ((∀ c, (getConn cfg p t r).2 ≠ .ok c) →
      Loc cfg (getConn cfg p t r).1 ((p.freeL.take 1) ++ H)) := by
  rcases getConn_cases cfg p t r with ⟨hf, h1⟩ | ⟨hf, _, h1⟩ | ⟨hf, _, _, h1⟩ | ⟨hf, _, p', hn, h1⟩ |
    ⟨c, q, hf, _, _, h1⟩ | ⟨c, q, p2, hf, h2, h1⟩
  · rw [h1]; exact ⟨fun _ h => (by cases h), fun _ => by simpa [freeL, hf] using h⟩
  · rw [h1]
    refine ⟨fun _ h => (by dsimp only at h; split at h <;> cases h), fun _ => by simpa [freeL, hf] using h⟩
  · rw [h1]; exact ⟨fun _ h => (by cases h), fun _ => by simpa [freeL, hf] using h⟩
  · rw [h1]; exact ⟨fun c h2 => (by cases h2; exact (loc_newConn h hn).1), fun h2 => absurd rfl (h2 _)⟩
  · rw [h1]
    refine ⟨fun _ h => (by cases h), fun _ => ?_⟩
    have : p.freeL.take 1 = [c] := by simp [freeL, hf]
    rw [this]; exact loc_pop h hf
  · have hm := loc_mid h hf h2
    rw [h1]
    split
    · exact ⟨fun c' h3 => (by cases h3; exact loc_congr hm rfl rfl (by show p2.num - 1 ≤ p2.num; omega)),
        fun h3 => absurd rfl (h3 _)⟩
    · exact ⟨fun c' h3 => (by cases h3; exact hm), fun h3 => absurd rfl (h3 _)⟩

theorem loc_close {cfg : PoolCfg} {p : CPool} {H : List ConnRef} (h : Loc cfg p H) : Loc cfg p.close.1 H := by
  unfold CPool.close
  split
  · exact h
  · refine ⟨?_, ?_, h.cap, fun _ => Nat.zero_le _⟩
    · exact List.Nodup.sublist (List.sublist_append_right p.freeL H) h.nodup
    · intro c hc; exact h.bound c (List.mem_append_right _ hc)

theorem loc_fill {cfg : PoolCfg} {i : Nat} {p p' : CPool} (h : Loc cfg p []) (hf : fill cfg i p = .ok p')
    (hs : p.free.isSome) (hc : p.closed = []) (hn : p.num = p.freeL.length) :
    Loc cfg p' [] ∧ p'.free.isSome ∧ p'.closed = [] ∧ p'.num = p'.freeL.length := by
  induction i generalizing p with
  | zero => cases hf; exact ⟨h, hs, hc, hn⟩
  | succ i ih =>
    unfold fill at hf
    split at hf
    · cases hf
    · next p1 c hnew =>
      obtain ⟨h1, h2, h3, h4, h5, h6⟩ := loc_newConn h hnew
      match hq : p1.free with
      | none => rw [hq] at hf; cases hf
      | some q =>
        simp only [hq] at hf
        split at hf
        · cases hf
        · next hfull =>
          have := loc_putConn h1
          have he : putConn cfg p1 c = { p1 with free := some (c :: q) } := by simp [putConn, hq, hfull]
          rw [he] at this
          refine ih this hf rfl (h4.trans hc) ?_
          show p1.num = _
          have hL : p.freeL = q := by rw [h3] at hq; simp [freeL, hq]
          rw [h5, hn, hL]; simp [freeL]

theorem loc_init {cfg : PoolCfg} {p : CPool} (h : CPool.init cfg = .ok p) :
    Loc cfg p [] ∧ p.free.isSome ∧ p.closed = [] ∧ p.num = p.freeL.length :=
  loc_fill (p := {}) ⟨List.nodup_nil, fun _ h => (by cases h), by show (0 : Int) ≤ _; omega, fun _ => Nat.zero_le _⟩ h
    rfl rfl rfl

theorem popped_eq (s : PoolSys) : s.popped = s.pool.freeL.take 1 := by
  unfold PoolSys.popped freeL
  split
  · next h => simp [h]
  · next h =>
    match hf : s.pool.free with
    | none => rfl
    | some [] => rfl
    | some (c :: q) => exact absurd hf (h c q)

theorem loc_step {cfg : PoolCfg} {s : PoolSys} (h : Loc cfg s.pool (s.held ++ s.lost)) (op : PoolOp) :
    Loc cfg (poolStep cfg s op).pool ((poolStep cfg s op).held ++ (poolStep cfg s op).lost) := by
  cases op with
  | get t r =>
    have hg := loc_getConn h t r
    simp only [poolStep]
    split
    · next p c he =>
      rw [he] at hg
      exact hg.1 c rfl
    · next p res hne he =>
      rw [he] at hg
      have := hg.2 (fun c hc => hne c hc)
      simp only [popped_eq]
      refine loc_perm this ?_
      rw [← List.append_assoc, ← List.append_assoc]
      exact List.Perm.append_right _ List.perm_append_comm
  | put c =>
    simp only [poolStep]
    split
    · next hc =>
      refine loc_putConn (loc_perm h ?_)
      exact List.Perm.append_right s.lost (List.perm_cons_erase hc)
    · exact h
  | closeConn c =>
    simp only [poolStep]
    split
    · exact loc_congr h rfl rfl (Int.le_refl _)
    · exact h
  | closePool => exact loc_close h

theorem loc_run {cfg : PoolCfg} {p : CPool} (hp : CPool.init cfg = .ok p) (ops : List PoolOp) :
    Loc cfg (poolRun cfg p ops).pool ((poolRun cfg p ops).held ++ (poolRun cfg p ops).lost) := by
  have h0 : Loc cfg (poolStart p).pool ((poolStart p).held ++ (poolStart p).lost) := (loc_init hp).1
  unfold poolRun
  generalize poolStart p = s at h0
  induction ops generalizing s with
  | nil => exact h0
  | cons op ops ih => exact ih _ (loc_step h0 op)

theorem poolRun_snoc (cfg : PoolCfg) (p : CPool) (ops : List PoolOp) (op : PoolOp) :
    poolRun cfg p (ops ++ [op]) = poolStep cfg (poolRun cfg p ops) op := by simp [poolRun]

end Bolt
