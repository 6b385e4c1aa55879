import Verif.Model.AioExit
import Verif.Props.StopIteration
/-!
# C171: services that raise SystemExit
-/
namespace Bolt
open Spec

namespace Spec

/-- the events of the listener in a schedule -/
def plain (evs : List ExEv) : List SrvEv := evs.filterMap fun e => match e with | .ev e => some e | _ => none

/-- no service raises SystemExit -/
def NoExit (evs : List ExEv) : Prop := ∀ e ∈ evs, ∃ e', e = .ev e'

/-- what the loop does for the clients is at a standstill: the same connections, and on each the same bytes received, the same
tasks in the same state, the same messages written -/
def Frozen (s s' : SrvSt) : Prop :=
  s'.conns.length = s.conns.length ∧
  ∀ (c : Nat) (l : LSt), s.conns[c]? = some l → ∃ l', s'.conns[c]? = some l' ∧ l'.recvd = l.recvd ∧ l'.tasks = l.tasks ∧
    l'.out = l.out ∧ l'.rd = l.rd

end Spec

/-- C171 as listed: whatever services do, the loop of the listener goes on. -/
def C171_full : Prop := ∀ (svc : Services) (reg : Registry) (evs : List ExEv), (exRun svc reg evs).stopped = false

theorem exRun_snoc (svc : Services) (reg : Registry) (evs : List ExEv) (e : ExEv) :
    exRun svc reg (evs ++ [e]) = exStep svc (exRun svc reg evs) e := by
  unfold exRun; rw [List.foldl_append]; rfl

/-- the listener is that of the model without SystemExit, after some events -/
structure ExInv (svc : Services) (reg : Registry) (s : ExSt) : Prop where
  real : ∃ evs, s.srv = srvRun svc reg evs
  exited : ∀ x ∈ s.exited, s.srv.futSt x = some (.finished (.raised .stopIteration))

theorem futSt_finished {svc : Services} {reg : Registry} {s : SrvSt} (hr : ∃ evs, s = srvRun svc reg evs) (e : SrvEv)
    {x : Nat × Nat} {o : Outcome} (h : s.futSt x = some (.finished o)) : (srvStep svc s e).futSt x = some (.finished o) := by
  obtain ⟨evs, rfl⟩ := hr
  rcases srv_futSt_step (svc := svc) (SrvInv.run svc reg evs) e x _ h with h3 | ⟨h3, -⟩ | ⟨h3, -⟩ | ⟨h3, -⟩
  · exact h3
  all_goals cases h3

theorem ExInv.run (svc : Services) (reg : Registry) (evs : List ExEv) : ExInv svc reg (exRun svc reg evs) := by
  induction evs using snoc_induct with
  | nil => exact ⟨⟨[], rfl⟩, (by intro x h; cases h)⟩
  | snoc evs e ih =>
    rw [exRun_snoc]
    generalize exRun svc reg evs = s at ih
    have step : ∀ e : SrvEv, ∃ evs, srvStep svc s.srv e = srvRun svc reg evs := by
      intro e
      obtain ⟨evs', h⟩ := ih.real
      exact ⟨evs' ++ [e], by rw [srvRun_snoc, h]⟩
    cases e with
    | ev e =>
      unfold exStep
      dsimp only
      split
      · exact ih
      · split
        · exact ⟨ih.real, ih.exited⟩
        · exact ⟨step e, fun x hx => futSt_finished ih.real e (ih.exited x hx)⟩
    | exits c k =>
      unfold exStep
      dsimp only
      split
      · next hrun =>
        refine ⟨step (.finish c k (.raised .stopIteration)), fun x hx => ?_⟩
        rcases List.mem_append.1 hx with hx | hx
        · exact futSt_finished ih.real _ (ih.exited x hx)
        · have hx := List.mem_singleton.1 hx
          subst hx
          have hi : SrvInv s.srv := by obtain ⟨evs', h⟩ := ih.real; rw [h]; exact SrvInv.run svc reg evs'
          have h0 := (hi.running (c, k)).1 hrun
          show (srvStep svc s.srv (.finish c k (.raised .stopIteration))).futSt (c, k) = _
          have hs : srvStep svc s.srv (.finish c k (.raised .stopIteration)) =
              { s.srv with running := s.srv.running.erase (c, k),
                           conns := s.srv.conns.modify c fun l => lstep svc l (.futFinish k (.raised .stopIteration)) } := by
            show (if _ then _ else _) = _
            rw [if_pos hrun]
          rw [hs]
          have h1 := futSt_set_one (svc := svc) s.srv (c, k) (.futFinish k (.raised .stopIteration))
            (.finished (.raised .stopIteration)) (fun l hl => by
              have hl : s.srv.conns[c]? = some l := hl
              have : l.futSt k = some .running := by unfold SrvSt.futSt at h0; dsimp only at h0; rw [hl] at h0; exact h0
              show (if _ then _ else _) = _
              rw [if_pos this]) (by rw [h0]; rfl) (c, k)
          rw [if_pos rfl] at h1
          exact h1
      · exact ih
    | exitsMaking c i =>
      unfold exStep
      dsimp only
      split
      · exact ⟨ih.real, ih.exited⟩
      · exact ih

/-- C171, what holds: as long as no service raises SystemExit, the listener is that of the other properties, and its loop
does not stop. Missing for C171: services that do. -/
theorem C171_same_partial (svc : Services) (reg : Registry) (evs : List ExEv) (h : NoExit evs) :
    exRun svc reg evs = { srv := srvRun svc reg (plain evs) } := by
  induction evs using snoc_induct with
  | nil => rfl
  | snoc evs e ih =>
    have h1 : NoExit evs := fun e' he' => h e' (by simp [he'])
    obtain ⟨e', he⟩ := h e (by simp)
    subst he
    rw [exRun_snoc, ih h1]
    have hp : plain (evs ++ [.ev e']) = plain evs ++ [e'] := by unfold plain; rw [List.filterMap_append]; rfl
    rw [hp, srvRun_snoc]
    unfold exStep
    dsimp only
    rw [if_neg (by simp)]
    have hd : ({ srv := srvRun svc reg (plain evs) } : ExSt).delivers e' = false := by
      unfold ExSt.delivers
      dsimp only
      repeat' split
      all_goals rfl
    rw [hd]
    rfl

/-- how the loop can have come to stop: a two-way request waits for a call that has ended in SystemExit, or a service class has
raised it -/
def Spec.StopCause (evs : List ExEv) (s : ExSt) : Prop :=
  (∃ c i, .exitsMaking c i ∈ evs) ∨
  ∃ (c i k : Nat) (l : LSt) (t : Task) (r : Req), .exits c k ∈ evs ∧ s.srv.conns[c]? = some l ∧ l.tasks[i]? = some t ∧
    t.kind = .dispatch r ∧ r.callType ≠ 2 ∧ t.fut = some k ∧ t.fate = none

/-- once the loop has stopped, only threads of the pool, the clock and the registry change anything -/
theorem srvStep_frozen (svc : Services) (s : SrvSt) (e : SrvEv) (he : e.inLoop = false) : Frozen s (srvStep svc s e) := by
  have same : ∀ s' : SrvSt, s'.conns = s.conns → Frozen s s' := fun s' h =>
    ⟨by rw [h], fun c l hl => ⟨l, by rw [h]; exact hl, rfl, rfl, rfl, rfl⟩⟩
  have all : ∀ e' : LEv, (∀ l, (lstep svc l e').recvd = l.recvd ∧ (lstep svc l e').tasks = l.tasks ∧ (lstep svc l e').out = l.out ∧
      (lstep svc l e').rd = l.rd) → ∀ s' : SrvSt, s'.conns = s.conns.map (fun l => lstep svc l e') → Frozen s s' := by
    intro e' h s' hs
    refine ⟨by rw [hs, List.length_map], fun c l hl => ⟨lstep svc l e', ?_, h l⟩⟩
    rw [hs, List.getElem?_map, hl]
    rfl
  have one : ∀ (c' : Nat) (e' : LEv), (∀ l, (lstep svc l e').recvd = l.recvd ∧ (lstep svc l e').tasks = l.tasks ∧
      (lstep svc l e').out = l.out ∧ (lstep svc l e').rd = l.rd) → ∀ s' : SrvSt,
      s'.conns = s.conns.modify c' (fun l => lstep svc l e') → Frozen s s' := by
    intro c' e' h s' hs
    refine ⟨by rw [hs, List.length_modify], fun c l hl => ?_⟩
    rw [hs, List.getElem?_modify, hl]
    by_cases hc : c' = c
    · exact ⟨lstep svc l e', by simp [hc], h l⟩
    · exact ⟨l, by simp [hc], rfl, rfl, rfl, rfl⟩
  cases e with
  | accept => cases he
  | conn c e => cases he
  | take =>
    unfold srvStep
    dsimp only
    split
    · exact same _ rfl
    · split
      · split
        · next x q _ _ _ =>
          exact one x.1 (.futStart x.2) (fun l => by unfold lstep LSt.setFut; dsimp only; split <;> exact ⟨rfl, rfl, rfl, rfl⟩) _ rfl
        · exact same _ rfl
      · exact same _ rfl
  | finish c k o =>
    unfold srvStep
    dsimp only
    split
    · exact one c (.futFinish k o) (fun l => by unfold lstep LSt.setFut; dsimp only; split <;> exact ⟨rfl, rfl, rfl, rfl⟩) _ rfl
    · exact same _ rfl
  | tick d => exact all (.tick d) (fun l => ⟨rfl, rfl, rfl, rfl⟩) _ rfl
  | register r => exact all (.register r) (fun l => ⟨rfl, rfl, rfl, rfl⟩) _ rfl
  | shutdown => exact same _ rfl

theorem Spec.Frozen.trans {a b c : SrvSt} (h : Frozen a b) (h' : Frozen b c) : Frozen a c := by
  refine ⟨h'.1.trans h.1, fun i l hl => ?_⟩
  obtain ⟨l1, a1, a2, a3, a4, a5⟩ := h.2 i l hl
  obtain ⟨l2, b1, b2, b3, b4, b5⟩ := h'.2 i l1 a1
  exact ⟨l2, b1, b2.trans a2, b3.trans a3, b4.trans a4, b5.trans a5⟩

theorem Spec.Frozen.rfl' (s : SrvSt) : Frozen s s := ⟨rfl, fun _ l hl => ⟨l, hl, rfl, rfl, rfl, rfl⟩⟩

theorem exStep_frozen (svc : Services) (s : ExSt) (e : ExEv) (h : s.stopped = true) :
    (exStep svc s e).stopped = true ∧ Frozen s.srv (exStep svc s e).srv := by
  cases e with
  | ev e =>
    unfold exStep
    dsimp only
    split
    · exact ⟨h, Spec.Frozen.rfl' _⟩
    · next hn =>
      split
      · exact ⟨rfl, Spec.Frozen.rfl' _⟩
      · refine ⟨h, srvStep_frozen svc s.srv e ?_⟩
        cases hl : e.inLoop with
        | false => rfl
        | true => rw [h, hl] at hn; exact absurd rfl hn
  | exits c k =>
    unfold exStep
    dsimp only
    split
    · exact ⟨h, srvStep_frozen svc s.srv _ rfl⟩
    · exact ⟨h, Spec.Frozen.rfl' _⟩
  | exitsMaking c i =>
    unfold exStep
    dsimp only
    split
    · exact ⟨rfl, Spec.Frozen.rfl' _⟩
    · exact ⟨h, Spec.Frozen.rfl' _⟩

/-- C171, what happens otherwise: once the loop has stopped, it stays so, no connection is accepted, nothing is read, no
request is answered, on any connection. -/
theorem C171_frozen (svc : Services) (reg : Registry) (evs evs' : List ExEv) (h : (exRun svc reg evs).stopped = true) :
    (exRun svc reg (evs ++ evs')).stopped = true ∧ Frozen (exRun svc reg evs).srv (exRun svc reg (evs ++ evs')).srv := by
  induction evs' using snoc_induct with
  | nil => rw [List.append_nil]; exact ⟨h, Spec.Frozen.rfl' _⟩
  | snoc evs' e ih =>
    rw [← List.append_assoc, exRun_snoc]
    have := exStep_frozen svc _ e ih.1
    exact ⟨this.1, Spec.Frozen.trans ih.2 this.2⟩

theorem exited_mem (svc : Services) (reg : Registry) (evs : List ExEv) {c k : Nat}
    (h : (c, k) ∈ (exRun svc reg evs).exited) : .exits c k ∈ evs := by
  induction evs using snoc_induct with
  | nil => cases h
  | snoc evs e ih =>
    rw [exRun_snoc] at h
    rw [List.mem_append]
    cases e with
    | ev e =>
      unfold exStep at h
      dsimp only at h
      split at h
      · exact .inl (ih h)
      · split at h <;> exact .inl (ih h)
    | exits c' k' =>
      unfold exStep at h
      dsimp only at h
      split at h
      · rcases List.mem_append.1 h with h | h
        · exact .inl (ih h)
        · have := List.mem_singleton.1 h
          injection this with h1 h2
          subst h1 h2
          exact .inr (by simp)
      · exact .inl (ih h)
    | exitsMaking c' i =>
      unfold exStep at h
      dsimp only at h
      split at h <;> exact .inl (ih h)

/-- C171: only two-way requests stop the loop this way. If no service class raises SystemExit, and the loop has stopped, a
two-way request is waiting for a call that has. (The method of a one-way request may raise it: nobody looks at its future.) -/
theorem C171_cause (svc : Services) (reg : Registry) (evs : List ExEv) (h : (exRun svc reg evs).stopped = true) :
    StopCause evs (exRun svc reg evs) := by
  induction evs using snoc_induct with
  | nil => cases h
  | snoc evs e ih =>
    by_cases hb : (exRun svc reg evs).stopped = true
    · have hfz := (C171_frozen svc reg evs [e] hb).2
      rcases ih hb with ⟨c, i, h1⟩ | ⟨c, i, k, l, t, r, h1, h2, h3, h4⟩
      · exact .inl ⟨c, i, by simp [h1]⟩
      · obtain ⟨l', g1, -, g2, -⟩ := hfz.2 c l h2
        exact .inr ⟨c, i, k, l', t, r, by simp [h1], g1, by rw [g2]; exact h3, h4⟩
    · rw [exRun_snoc] at h ⊢
      cases e with
      | ev e =>
        unfold exStep at h ⊢
        dsimp only at h ⊢
        split at h
        · exact absurd h hb
        · next hn =>
          rw [if_neg hn]
          split at h
          · next hd =>
            rw [if_pos hd]
            right
            unfold ExSt.delivers at hd
            split at hd
            · next c i =>
              split at hd
              · next l hl =>
                split at hd
                · next t ht =>
                  split at hd
                  · next d k hst hk =>
                    have hx : (c, k) ∈ (exRun svc reg evs).exited := by simpa using hd
                    obtain ⟨evs', hreal⟩ := (ExInv.run svc reg evs).real
                    have hinv : LInv svc l := by
                      have hl' := hl
                      rw [hreal] at hl'
                      obtain ⟨evs2, h5, -⟩ := C104_alone svc reg evs' c l hl'
                      rw [h5]
                      exact LInv.run svc _ evs2
                    have h0 := hinv.task i t ht
                    unfold TaskOk at h0
                    split at h0
                    · rw [h0.1] at hk; cases hk
                    · next r hkind =>
                      rw [hst] at h0
                      exact ⟨c, i, k, l, t, r, by simp [exited_mem svc reg evs hx], hl, ht, hkind, h0.1.2.1, hk, h0.1.1⟩
                  · cases hd
                · cases hd
              · cases hd
            · cases hd
          · exact absurd h hb
      | exits c k =>
        unfold exStep at h
        dsimp only at h
        split at h <;> exact absurd h hb
      | exitsMaking c i => exact .inl ⟨c, i, by simp⟩

/-- C171: a request whose method raised SystemExit is not answered but by TIMEOUT, and that not before its time is up. -/
theorem C171_unanswered (svc : Services) (reg : Registry) (evs : List ExEv) (c j k : Nat) (l : LSt) (t : Task) (r : Req)
    (hx : (c, k) ∈ (exRun svc reg evs).exited) (hl : (exRun svc reg evs).srv.conns[c]? = some l) (ht : l.tasks[j]? = some t)
    (hk : t.kind = .dispatch r) (hf : t.fut = some k) (m : Bytes) (hm : (Origin.task j, m) ∈ l.out) :
    r.timeout > 0 ∧ m = reply r.id 0x07 [] ∧ ∃ t0, t.started = some t0 ∧ t0 + r.timeout ≤ l.now := by
  have hi := ExInv.run svc reg evs
  obtain ⟨evs', hreal⟩ := hi.real
  have h0 := hi.exited _ hx
  have hl' := hl
  rw [hreal] at hl'
  obtain ⟨evs2, h5, -⟩ := C104_alone svc reg evs' c l hl'
  have hfs : l.futSt k = some (.finished (.raised .stopIteration)) := by
    unfold SrvSt.futSt at h0; dsimp only at h0; rw [hl] at h0; exact h0
  unfold LSt.futSt at hfs
  obtain ⟨f, g1, g2⟩ := Option.map_eq_some_iff.1 hfs
  rw [h5] at ht g1 hm ⊢
  have := C170_stop_iteration svc _ evs2 [] j t r ht hk ⟨k, f, hf, g1, g2⟩ m (by rw [List.append_nil]; exact hm)
  rw [List.append_nil] at this
  exact this

/-- two connections; a request on each; the method called for the first one calls `sys.exit` -/
def exExitEvs : List ExEv :=
  [.ev .accept, .ev .accept, .ev (.conn 0 (.data (exReq 3 [1]).bytes)), .ev (.conn 0 .reader), .ev (.conn 0 .reader),
    .ev (.conn 0 .reader), .ev (.conn 0 .reader), .ev (.conn 0 (.run 0 (py "t"))), .ev .take, .exits 0 0,
    .ev (.conn 0 (.result 0))]

/-- what the second client then asks for -/
def exAfterEvs : List ExEv :=
  [.ev (.conn 1 (.data (exReq 4 [1]).bytes)), .ev (.conn 1 .reader), .ev (.conn 1 .reader), .ev (.conn 1 .reader),
    .ev (.conn 1 .reader), .ev (.conn 1 (.run 0 (py "t"))), .ev .take, .ev (.finish 1 0 (.ret (.bytes [7]))),
    .ev (.conn 1 (.result 0)), .ev (.conn 1 (.write 0)), .ev .accept]

set_option maxRecDepth 20000 in
/-- One request stops the listener. -/
theorem C171_violated : ¬ C171_full := by
  intro h
  have := h exServices exReg exExitEvs
  revert this
  decide +kernel

set_option maxRecDepth 20000 in
/-- The other client gets no answer; it would have got one without the first. -/
example : (exRun exServices exReg (exExitEvs ++ exAfterEvs)).stopped = true ∧
    (exRun exServices exReg (exExitEvs ++ exAfterEvs)).srv.conns.map LSt.wire = [[], []] ∧
    (exRun exServices exReg (.ev .accept :: .ev .accept :: exAfterEvs)).srv.conns.map LSt.wire = [[], reply 4 0 [7], []] ∧
    NoExit (.ev .accept :: .ev .accept :: exAfterEvs) := by
  refine ⟨by decide +kernel, by decide +kernel, by decide +kernel, ?_⟩
  intro e he
  cases e with
  | ev e => exact ⟨e, rfl⟩
  | exits c k => simp [exAfterEvs] at he
  | exitsMaking c i => simp [exAfterEvs] at he

end Bolt
