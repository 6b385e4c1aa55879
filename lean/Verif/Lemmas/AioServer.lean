import Verif.Model.AioServer
import Verif.Props.ListenerReplies
/-!
# Lemmas about the whole listener: how the states of the submitted calls change, the queue and the threads
-/
namespace Bolt

/-! ## Calls of one connection -/

/-- A step changes the calls of a connection in this way: old calls stay or are cancelled before they have started, new
ones are queued. -/
structure FutStep (l l' : LSt) : Prop where
  len : l.futs.length ≤ l'.futs.length
  old : ∀ k st, l.futSt k = some st → l'.futSt k = some st ∨ (st = .queued ∧ l'.futSt k = some .cancelled)
  new : ∀ k st, l.futs.length ≤ k → l'.futSt k = some st → st = .queued

theorem futSt_none {l : LSt} {k : Nat} : l.futSt k = none ↔ l.futs.length ≤ k := by
  unfold LSt.futSt
  rw [Option.map_eq_none_iff, List.getElem?_eq_none_iff]

theorem FutStep.of_eq {l l' : LSt} (h : l'.futs = l.futs) : FutStep l l' := by
  have e : ∀ k, l'.futSt k = l.futSt k := fun k => by unfold LSt.futSt; rw [h]
  refine ⟨by rw [h]; exact Nat.le_refl _, fun k st hk => .inl (by rw [e, hk]), fun k st hl hk => ?_⟩
  rw [e, futSt_none.2 hl] at hk
  cases hk

theorem reader_futs (s : LSt) : s.reader.futs = s.futs := by
  unfold LSt.reader LSt.write LSt.perform
  repeat' split
  all_goals rfl

theorem write_futs (s : LSt) (o : Origin) (m : Bytes) : (s.write o m).futs = s.futs := by
  unfold LSt.write; split <;> rfl

/-- `_dispatch` submits at most one call -/
theorem dispatch_futs (svc : Services) (s : LSt) (i : Nat) (t : Task) (r : Req) (fresh : PyStr) :
    (s.dispatch svc i t r fresh).futs = s.futs ∨
    ∃ f : Fut, f.st = .queued ∧ (s.dispatch svc i t r fresh).futs = s.futs ++ [f] := by
  unfold LSt.dispatch LSt.setTask
  cases serviceOf r.header with
  | none => exact .inl rfl
  | some service =>
    cases methodOf r.header with
    | none => exact .inl rfl
    | some method =>
      cases extract s.heap fresh r.header with
      | error e => exact .inl rfl
      | ok p =>
        dsimp only
        cases findMethod svc s.reg p.1 p.2 service method with
        | error e => cases e <;> exact .inl rfl
        | ok func =>
          dsimp only
          refine .inr ⟨{ func := func, body := r.body, ctx := p.2, heap := p.1 }, rfl, ?_⟩
          split <;> rfl

theorem setFut_futSt (l : LSt) (k : Nat) (st : FutSt) (k' : Nat) :
    (l.setFut k st).futSt k' = if k' = k ∧ (l.futSt k).isSome then some st else l.futSt k' := by
  unfold LSt.setFut LSt.futSt
  dsimp only
  rw [List.getElem?_modify]
  by_cases h : k = k'
  · subst h
    cases l.futs[k]? <;> simp
  · have : ¬ k' = k := fun e => h e.symm
    simp [h, this]

theorem local_futStep (svc : Services) (l : LSt) (e : LEv) (he : e.isLocal = true) : FutStep l (lstep svc l e) := by
  cases e with
  | futStart | futFinish | tick | register => cases he
  | data bs => refine .of_eq ?_; unfold lstep; dsimp only; split <;> rfl
  | eof => exact .of_eq rfl
  | reset => exact .of_eq rfl
  | reader => exact .of_eq (reader_futs l)
  | run i fresh =>
    unfold lstep
    dsimp only
    split
    · next t ht =>
      split
      · next r h1 h2 =>
        rcases dispatch_futs svc l i t r fresh with h | ⟨f, hq, h⟩
        · exact .of_eq h
        · refine ⟨by rw [h, List.length_append]; omega, fun k st hk => .inl ?_, fun k st hl hk => ?_⟩
          · have hlt : k < l.futs.length := by
              apply Nat.lt_of_not_le
              intro hle
              rw [futSt_none.2 hle] at hk
              cases hk
            unfold LSt.futSt at hk ⊢
            rw [h, List.getElem?_append_left hlt]
            exact hk
          · unfold LSt.futSt at hk
            rw [h, List.getElem?_append_right hl] at hk
            cases hkk : k - l.futs.length with
            | zero => rw [hkk] at hk; simp at hk; rw [← hk, hq]
            | succ n => rw [hkk] at hk; simp at hk
      · exact .of_eq rfl
    · exact .of_eq rfl
  | result i =>
    refine .of_eq ?_
    unfold lstep LSt.setTask
    dsimp only
    repeat' split
    all_goals rfl
  | write i =>
    refine .of_eq ?_
    unfold lstep LSt.setTask
    dsimp only
    repeat' split
    all_goals first | rfl | exact write_futs _ _ _
  | expire i =>
    unfold lstep
    dsimp only
    split
    · next t ht =>
      split
      · next d r k h1 h2 h3 =>
        split
        · by_cases hq : l.futSt k = some .queued
          · have e : (l.cancelFut k) = l.setFut k .cancelled := by unfold LSt.cancelFut; rw [if_pos hq]
            rw [e]
            refine ⟨by show l.futs.length ≤ (l.futs.modify _ _).length; rw [List.length_modify]; exact Nat.le_refl _,
              fun k' st hk' => ?_, fun k' st hl hk' => ?_⟩
            · show (l.setFut k .cancelled).futSt k' = _ ∨ (_ ∧ (l.setFut k .cancelled).futSt k' = _)
              rw [setFut_futSt, hq]
              by_cases hkk : k' = k
              · subst hkk
                rw [hq] at hk'
                injection hk' with hk'
                exact .inr ⟨hk'.symm, by simp⟩
              · simp [hkk, hk']
            · have hk' : (l.setFut k .cancelled).futSt k' = some st := hk'
              rw [setFut_futSt] at hk'
              have hkk : ¬ k' = k := by
                intro e
                subst e
                rw [futSt_none.2 hl] at hq
                cases hq
              simp only [hkk, false_and, if_false] at hk'
              rw [futSt_none.2 hl] at hk'
              cases hk'
          · refine .of_eq ?_
            unfold LSt.cancelFut
            rw [if_neg hq]
            rfl
        · exact .of_eq rfl
      · exact .of_eq rfl
    · exact .of_eq rfl

/-! ## Calls of the listener -/

theorem futSt_modify (s : SrvSt) (c : Nat) (f : LSt → LSt) (x : Nat × Nat) :
    ({ s with conns := s.conns.modify c f } : SrvSt).futSt x =
      if x.1 = c then (s.conns[c]?).bind (fun l => (f l).futSt x.2) else s.futSt x := by
  unfold SrvSt.futSt
  dsimp only
  rw [List.getElem?_modify]
  by_cases h : c = x.1
  · subst h
    cases s.conns[x.1]? <;> simp
  · have : ¬ x.1 = c := fun e => h e.symm
    simp [h, this]

theorem futSt_map (s : SrvSt) (f : LSt → LSt) (hf : ∀ l, (f l).futs = l.futs) (x : Nat × Nat) :
    ({ s with conns := s.conns.map f } : SrvSt).futSt x = s.futSt x := by
  unfold SrvSt.futSt LSt.futSt
  dsimp only
  rw [List.getElem?_map]
  cases s.conns[x.1]? with
  | none => rfl
  | some l => dsimp only [Option.map_some, Option.bind_some]; rw [hf]

/-- what holds of the queue and the threads at any time -/
structure SrvInv (s : SrvSt) : Prop where
  subs : ∀ x, x ∈ s.subs ↔ (s.futSt x).isSome = true
  nodup : s.subs.Nodup
  queue : ∃ pre, s.subs = pre ++ s.queue ∧ ∀ x ∈ pre, s.futSt x ≠ some .queued
  waiting : ∀ x ∈ s.queue, s.futSt x = some .queued ∨ s.futSt x = some .cancelled
  running : ∀ x, x ∈ s.running ↔ s.futSt x = some .running
  runNodup : s.running.Nodup
  cap : s.running.length ≤ maxWorker

theorem SrvInv.init (reg : Registry) : SrvInv { reg := reg } where
  subs x := by simp [SrvSt.futSt]
  nodup := List.nodup_nil
  queue := ⟨[], rfl, by simp⟩
  waiting := by simp
  running x := by simp [SrvSt.futSt]
  runNodup := List.nodup_nil
  cap := Nat.zero_le _

/-- steps that change no call -/
theorem SrvInv.same {s s' : SrvSt} (h : SrvInv s) (hf : ∀ x, s'.futSt x = s.futSt x) (hq : s'.queue = s.queue)
    (hr : s'.running = s.running) (hs : s'.subs = s.subs) : SrvInv s' where
  subs x := by rw [hs, hf]; exact h.subs x
  nodup := by rw [hs]; exact h.nodup
  queue := by
    obtain ⟨pre, h1, h2⟩ := h.queue
    exact ⟨pre, by rw [hs, hq, h1], fun x hx => by rw [hf]; exact h2 x hx⟩
  waiting x hx := by rw [hq] at hx; rw [hf]; exact h.waiting x hx
  running x := by rw [hr, hf]; exact h.running x
  runNodup := by rw [hr]; exact h.runNodup
  cap := by rw [hr]; exact h.cap

theorem mem_submitted {c : Nat} {l l' : LSt} {x : Nat × Nat} :
    x ∈ submitted c l l' ↔ x.1 = c ∧ l.futs.length ≤ x.2 ∧ x.2 < l'.futs.length := by
  unfold submitted
  rw [List.mem_map]
  constructor
  · rintro ⟨k, hk, rfl⟩
    rw [List.mem_range'_1] at hk
    exact ⟨rfl, hk.1, by dsimp only; omega⟩
  · rintro ⟨rfl, h1, h2⟩
    exact ⟨x.2, by rw [List.mem_range'_1]; omega, rfl⟩

theorem submitted_nodup (c : Nat) (l l' : LSt) : (submitted c l l').Nodup := by
  unfold submitted
  refine List.Pairwise.map _ (fun a b hab e => hab ?_) (List.nodup_range' (step := 1) (by decide))
  injection e

theorem futSt_isSome {l : LSt} {k : Nat} : (l.futSt k).isSome = true ↔ k < l.futs.length := by
  cases h : l.futSt k with
  | none => have := futSt_none.1 h; simp; omega
  | some st =>
    simp
    apply Nat.lt_of_not_le
    intro hle
    rw [futSt_none.2 hle] at h
    cases h

theorem SrvInv.conn {svc : Services} {s : SrvSt} (h : SrvInv s) {c : Nat} {l : LSt} (e : LEv) (he : e.isLocal = true)
    (hl : s.conns[c]? = some l) :
    SrvInv { s with conns := s.conns.set c (lstep svc l e), queue := s.queue ++ submitted c l (lstep svc l e),
                    subs := s.subs ++ submitted c l (lstep svc l e) } := by
  have hf := local_futStep svc l e he
  generalize lstep svc l e = l' at hf
  have hc : c < s.conns.length := (List.getElem?_eq_some_iff.1 hl).1
  generalize hs' : ({ s with conns := s.conns.set c l', queue := s.queue ++ submitted c l l', subs := s.subs ++ submitted c l l' } : SrvSt) = s'
  have eq : s'.queue = s.queue ++ submitted c l l' := by rw [← hs']
  have es : s'.subs = s.subs ++ submitted c l l' := by rw [← hs']
  have er : s'.running = s.running := by rw [← hs']
  have hst : ∀ x : Nat × Nat, s'.futSt x = if x.1 = c then l'.futSt x.2 else s.futSt x := by
    intro x
    rw [← hs']
    unfold SrvSt.futSt
    dsimp only
    by_cases hx : x.1 = c
    · rw [if_pos hx, hx, List.getElem?_set_self hc]; rfl
    · rw [if_neg hx, List.getElem?_set_ne (fun e => hx e.symm)]
  have hold : ∀ k, s.futSt (c, k) = l.futSt k := by
    intro k
    unfold SrvSt.futSt
    dsimp only
    rw [hl]
    rfl
  -- old calls
  have hkeep : ∀ x st, s.futSt x = some st →
      s'.futSt x = some st ∨
      (st = .queued ∧ s'.futSt x = some .cancelled) := by
    intro x st hx
    rw [hst]
    by_cases hxc : x.1 = c
    · obtain ⟨x1, x2⟩ := x
      dsimp only at hxc
      subst hxc
      rw [hold] at hx
      rw [if_pos rfl]
      exact hf.old _ _ hx
    · rw [if_neg hxc]; exact .inl hx
  have hback : ∀ x st, st ≠ .queued → st ≠ .cancelled → s'.futSt x = some st →
      s.futSt x = some st := by
    intro x st n1 n2 hx
    rw [hst] at hx
    split at hx
    · next hxc =>
      obtain ⟨x1, x2⟩ := x
      dsimp only at hxc hx
      subst hxc
      rw [hold]
      cases ho : l.futSt x2 with
      | none => exact absurd (hf.new _ _ (futSt_none.1 ho) hx) n1
      | some st0 =>
        rcases hf.old _ _ ho with h1 | ⟨-, h1⟩
        · rw [hx] at h1; exact h1.symm
        · rw [hx] at h1; injection h1 with h1; exact absurd h1 n2
    · exact hx
  refine ⟨fun x => ?_, ?_, ?_, ?_, fun x => ?_, by rw [er]; exact h.runNodup, by rw [er]; exact h.cap⟩
  · rw [es, hst, List.mem_append, mem_submitted, h.subs]
    by_cases hxc : x.1 = c
    · obtain ⟨x1, x2⟩ := x
      dsimp only at hxc
      subst hxc
      rw [if_pos rfl, hold, futSt_isSome, futSt_isSome]
      have := hf.len
      simp only [true_and]
      omega
    · rw [if_neg hxc]
      simp [hxc]
  · rw [es, List.nodup_append]
    refine ⟨h.nodup, submitted_nodup _ _ _, ?_⟩
    intro a ha b hb e
    subst e
    obtain ⟨h1, h2, -⟩ := mem_submitted.1 hb
    have := (h.subs a).1 ha
    obtain ⟨a1, a2⟩ := a
    dsimp only at h1
    subst h1
    rw [hold, futSt_isSome] at this
    dsimp only at h2
    omega
  · obtain ⟨pre, h1, h2⟩ := h.queue
    refine ⟨pre, by rw [es, eq, h1, List.append_assoc], fun x hx hq => ?_⟩
    have hm : x ∈ s.subs := by rw [h1]; exact List.mem_append_left _ hx
    obtain ⟨st, hs⟩ := Option.isSome_iff_exists.1 ((h.subs x).1 hm)
    rcases hkeep x st hs with h3 | ⟨h3, -⟩
    · rw [hq] at h3; injection h3 with h3; exact h2 x hx (by rw [hs, h3])
    · exact h2 x hx (by rw [hs, h3])
  · intro x hx
    rw [eq] at hx
    rcases List.mem_append.1 hx with hx | hx
    · rcases h.waiting x hx with h1 | h1
      · rcases hkeep x _ h1 with h2 | ⟨-, h2⟩
        · exact .inl h2
        · exact .inr h2
      · rcases hkeep x _ h1 with h2 | ⟨h2, -⟩
        · exact .inr h2
        · cases h2
    · obtain ⟨h1, h2, h3⟩ := mem_submitted.1 hx
      left
      rw [hst, if_pos h1]
      obtain ⟨st, hs⟩ := Option.isSome_iff_exists.1 (futSt_isSome.2 h3)
      rw [hs, hf.new _ _ h2 hs]
  · rw [er, h.running]
    constructor
    · intro hx
      rcases hkeep x _ hx with h1 | ⟨h1, -⟩
      · exact h1
      · cases h1
    · exact hback x _ (by decide) (by decide)

/-- one call changes its state -/
theorem futSt_set_one {svc : Services} (s : SrvSt) (x : Nat × Nat) (e : LEv) (st : FutSt)
    (he : ∀ l : LSt, s.conns[x.1]? = some l → lstep svc l e = l.setFut x.2 st) (hx : (s.futSt x).isSome = true)
    (y : Nat × Nat) :
    ({ s with conns := s.conns.modify x.1 fun l => lstep svc l e } : SrvSt).futSt y =
      if y = x then some st else s.futSt y := by
  rw [futSt_modify]
  unfold SrvSt.futSt at hx
  cases hc : s.conns[x.1]? with
  | none => rw [hc] at hx; cases hx
  | some l =>
    rw [hc] at hx
    by_cases h1 : y.1 = x.1
    · rw [if_pos h1]
      dsimp only [Option.bind_some]
      rw [he l hc, setFut_futSt]
      by_cases h2 : y.2 = x.2
      · rw [if_pos ⟨h2, hx⟩, if_pos (Prod.ext h1 h2)]
      · rw [if_neg (fun h => h2 h.1), if_neg (fun h => h2 (by rw [h]))]
        unfold SrvSt.futSt
        rw [h1, hc]
        rfl
    · rw [if_neg h1, if_neg (fun h => h1 (by rw [h]))]

theorem SrvInv.step {svc : Services} {s : SrvSt} (h : SrvInv s) (ev : SrvEv) : SrvInv (srvStep svc s ev) := by
  cases ev with
  | accept =>
    unfold srvStep
    dsimp only
    split
    · refine h.same (fun x => ?_) rfl rfl rfl
      unfold SrvSt.futSt
      dsimp only
      by_cases hx : x.1 < s.conns.length
      · rw [List.getElem?_append_left hx]
      · rw [List.getElem?_append_right (by omega), List.getElem?_eq_none (l := s.conns) (by omega)]
        cases x.1 - s.conns.length <;> rfl
    · exact h
  | conn c e =>
    unfold srvStep
    dsimp only
    split
    · next he =>
      split
      · exact h
      · next l hl => exact h.conn e he hl
    · exact h
  | take =>
    unfold srvStep
    dsimp only
    split
    · exact h
    · next x q hq =>
      obtain ⟨pre, hsub, hpre⟩ := h.queue
      split
      · next hlt =>
        split
        · next hst =>
          have hf := fun y => futSt_set_one (svc := svc) s x (.futStart x.2) .running
            (fun l hl => by
              have : l.futSt x.2 = some .queued := by unfold SrvSt.futSt at hst; rw [hl] at hst; exact hst
              show (if _ then _ else _) = _
              rw [if_pos this]) (by rw [hst]; rfl) y
          have hf' : ∀ y, ({ s with queue := q, running := s.running ++ [x], conns := s.conns.modify x.1 fun l => lstep svc l (.futStart x.2) } : SrvSt).futSt y = if y = x then some .running else s.futSt y := hf
          have hnd := h.nodup
          rw [hsub, hq] at hnd
          refine ⟨fun y => ?_, h.nodup, ⟨pre ++ [x], by dsimp only; rw [hsub, hq]; simp, fun y hy => ?_⟩, fun y hy => ?_, fun y => ?_, ?_, ?_⟩
          · rw [hf', h.subs]
            by_cases hy : y = x
            · rw [if_pos hy, hy, hst]; simp
            · rw [if_neg hy]
          · rw [hf']
            split
            · simp
            · next hne =>
              rcases List.mem_append.1 hy with hy | hy
              · exact hpre y hy
              · exact absurd (List.mem_singleton.1 hy) hne
          · rw [hf', if_neg]
            · exact h.waiting y (by rw [hq]; exact List.mem_cons_of_mem _ hy)
            · intro e
              subst e
              rw [List.nodup_append] at hnd
              exact (List.nodup_cons.1 hnd.2.1).1 hy
          · rw [hf', List.mem_append, List.mem_singleton, h.running]
            by_cases hy : y = x
            · simp [hy]
            · simp [hy]
          · dsimp only
            rw [List.nodup_append]
            refine ⟨h.runNodup, by simp, ?_⟩
            intro a ha b hb e
            rw [List.mem_singleton] at hb
            subst hb
            subst e
            rw [h.running, hst] at ha
            cases ha
          · dsimp only
            rw [List.length_append, List.length_singleton]
            omega
        · next hst =>
          refine ⟨h.subs, h.nodup, ⟨pre ++ [x], by dsimp only; rw [hsub, hq]; simp, fun y hy => ?_⟩, fun y hy => ?_, h.running, h.runNodup, h.cap⟩
          · rcases List.mem_append.1 hy with hy | hy
            · exact hpre y hy
            · rw [List.mem_singleton.1 hy]; exact hst
          · exact h.waiting y (by rw [hq]; exact List.mem_cons_of_mem _ hy)
      · exact h
  | finish c k o =>
    unfold srvStep
    dsimp only
    split
    · next hm =>
      have hst := (h.running (c, k)).1 hm
      have hf : ∀ y, ({ s with running := s.running.erase (c, k), conns := s.conns.modify c fun l => lstep svc l (.futFinish k o) } : SrvSt).futSt y = if y = (c, k) then some (.finished o) else s.futSt y :=
        fun y => futSt_set_one (svc := svc) s (c, k) (.futFinish k o) (.finished o)
          (fun l hl => by
            have hl : s.conns[c]? = some l := hl
            have : l.futSt k = some .running := by unfold SrvSt.futSt at hst; dsimp only at hst; rw [hl] at hst; exact hst
            show (if _ then _ else _) = _
            rw [if_pos this]) (by rw [hst]; rfl) y
      refine ⟨fun y => ?_, h.nodup, ?_, fun y hy => ?_, fun y => ?_, h.runNodup.erase _, ?_⟩
      · rw [hf, h.subs]
        by_cases hy : y = (c, k)
        · rw [if_pos hy, hy, hst]; simp
        · rw [if_neg hy]
      · obtain ⟨pre, h1, h2⟩ := h.queue
        refine ⟨pre, h1, fun y hy => ?_⟩
        rw [hf]
        split
        · simp
        · exact h2 y hy
      · have := h.waiting y hy
        rw [hf, if_neg]
        · exact this
        · intro e
          rw [e, hst] at this
          rcases this with h1 | h1 <;> cases h1
      · rw [hf]
        dsimp only
        by_cases hy : y = (c, k)
        · subst hy
          rw [if_pos rfl]
          constructor
          · intro hh; exact absurd hh (h.runNodup.not_mem_erase)
          · intro hh; cases hh
        · rw [if_neg hy, List.mem_erase_of_ne hy]
          exact h.running y
      · dsimp only
        have := List.length_erase_le (a := (c, k)) (l := s.running)
        have := h.cap
        omega
    · exact h
  | tick d => exact h.same (futSt_map s _ (fun l => rfl)) rfl rfl rfl
  | register r => exact h.same (futSt_map s _ (fun l => rfl)) rfl rfl rfl
  | shutdown => exact h.same (fun _ => rfl) rfl rfl rfl

theorem SrvInv.run (svc : Services) (reg : Registry) (evs : List SrvEv) : SrvInv (srvRun svc reg evs) := by
  unfold srvRun
  have h0 := SrvInv.init reg
  generalize ({ reg := reg } : SrvSt) = s at h0
  induction evs generalizing s with
  | nil => exact h0
  | cons e evs ih => exact ih _ (h0.step e)

end Bolt
