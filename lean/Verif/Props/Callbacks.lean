import Verif.Model.Callbacks
import Verif.Props.AioCallers
/-!
# C179: callbacks may use the client
-/
namespace Bolt
open Spec

/-- C179 as listed: when a callback has called `invoke_sync`, the call can still return the content of a response -/
def C179_full : Prop :=
  ∀ (v : PyVer) (evs : List CbEv) (j : Nat), (cbRun v evs).busy = some j →
    ∃ more c x, (cbRun v (evs ++ more)).base.callers[j]? = some c ∧ c.out = some (.ok (some x))

namespace Spec

/-- what an event is without the thread of the loop -/
def CbEv.plain : CbEv → Option CallersEv
  | .invoke k a => some (.invoke k a)
  | .cancel j => some (.cancel j)
  | .give j => some (.give j)
  | .timeout j => some (.timeout j)
  | .loop e => some (.loop e)
  | .settle j _ => some (.settle j)
  | .cbCall k a => some (.invoke k a)
  | .cbEnd => none

/-- the request of the call could not be built, for this reason -/
def Unbuilt (a : CallArgs) (e : PyExc) : Prop :=
  aioRequest a .sync = .error e ∨ (e = .assertionError ∧ isNumber a.timeout = false)

end Spec

theorem cbRun_snoc (v : PyVer) (evs : List CbEv) (e : CbEv) : cbRun v (evs ++ [e]) = cbStep v (cbRun v evs) e := by
  simp [cbRun, List.foldl_append]

/-- something that a thread does, not the loop -/
def CallersEv.ofThread : CallersEv → Bool
  | .loop _ | .settle _ => false
  | _ => true

def CallersEv.isTimeout : CallersEv → Bool
  | .timeout _ => true
  | _ => false

/-- a call of `invoke_sync` in `fut.result`, nothing having come -/
structure Blocked (s : CallersSt) (j : Nat) (c : Caller) : Prop where
  at_ : s.callers[j]? = some c
  kind : c.kind = .sync
  out : c.out = none
  fut : c.fut = .pending
  call : c.call.isSome = true

/-- what threads can do to it -/
theorem Blocked.step {v : PyVer} {s : CallersSt} {j : Nat} {c : Caller} (h : Blocked s j c) (e : CallersEv)
    (h1 : e.ofThread = true) :
    Blocked (callersStep v s e) j c ∨ (e.isTimeout = true ∧
      (callersStep v s e).callers[j]? = some { c with out := some (.error .timeoutError) }) := by
  have app : ∀ x, (s.callers ++ [x])[j]? = some c := by
    intro x
    rw [List.getElem?_append_left (List.getElem?_eq_some_iff.1 h.at_).1]
    exact h.at_
  have upd : ∀ (m : Nat) (f : Caller → Caller), f c = c → (s.callers.modify m f)[j]? = some c := by
    intro m f hf
    by_cases e : m = j
    · subst e
      rw [modify_self h.at_, hf]
    · rw [modify_other e]; exact h.at_
  cases e with
  | loop x => cases h1
  | settle x => cases h1
  | invoke k a =>
    refine .inl ⟨?_, h.kind, h.out, h.fut, h.call⟩
    show (s.invoke v k a).callers[j]? = some c
    unfold CallersSt.invoke
    split
    · exact app _
    · split <;> exact app _
  | cancel m =>
    refine .inl ⟨upd m _ ?_, h.kind, h.out, h.fut, h.call⟩
    unfold Caller.cancel
    rw [h.kind]
  | give m =>
    refine .inl ⟨upd m _ ?_, h.kind, h.out, h.fut, h.call⟩
    unfold Caller.give
    rw [if_pos ⟨h.kind, by rw [h.out]; rfl⟩, h.fut]
    rfl
  | timeout m =>
    by_cases e : m = j
    · subst e
      refine .inr ⟨rfl, ?_⟩
      show (s.callers.modify m _)[m]? = _
      rw [modify_self h.at_]
      unfold Caller.giveUp
      rw [if_pos ⟨h.kind, by rw [h.out]; rfl, h.fut, h.call⟩]
    · exact .inl ⟨by show (s.callers.modify m _)[j]? = _; rw [modify_other e]; exact h.at_, h.kind, h.out, h.fut, h.call⟩

/-- how a call made by a callback stands -/
def Stands (s : CallersSt) (busy : Option Nat) (j : Nat) : Prop :=
  busy = some j ∨ ∃ c, s.callers[j]? = some c ∧ ((c.kind ≠ .sync ∧ c.out.isSome = true) ∨
    (c.kind = .sync ∧ ∃ e, c.out = some (.error e) ∧ (e = .timeoutError ∨ Unbuilt c.args e)))

structure CbInv (s : CbSt) : Prop where
  blocked : ∀ j, s.busy = some j → s.inCb = true ∧ ∃ c, Blocked s.base j c
  stands : ∀ j ∈ s.inside, Stands s.base s.busy j

theorem Stands.step {v : PyVer} {s : CallersSt} {busy : Option Nat} {j : Nat} (h : Stands s busy j) (e : CallersEv)
    (hb : busy = some j → Stands (callersStep v s e) busy j) : Stands (callersStep v s e) busy j := by
  rcases h with h | ⟨c, h1, h2⟩
  · exact hb h
  · obtain ⟨o, ho⟩ : ∃ o, c.out = some o := by
      rcases h2 with ⟨-, h2⟩ | ⟨-, e, h2, -⟩
      · exact Option.isSome_iff_exists.1 h2
      · exact ⟨_, h2⟩
    obtain ⟨c', g1, g2, g3, g4⟩ := out_step v s e j c o h1 ho
    refine .inr ⟨c', g1, ?_⟩
    rw [g2, g3, g4, ← ho]
    exact h2

theorem release_some {s : CbSt} {j : Nat} (h : s.release.busy = some j) : s.busy = some j ∧ s.base.inResult j = true :=
  Option.filter_eq_some_iff.1 h

/-- after an event of a thread -/
theorem CbInv.thread {v : PyVer} {s : CbSt} (h : CbInv s) (e : CallersEv) (h1 : e.ofThread = true) :
    CbInv (CbSt.release { s with base := callersStep v s.base e }) := by
  refine ⟨fun j hj => ?_, fun j hj => ?_⟩
  · obtain ⟨g1, g2⟩ := release_some hj
    obtain ⟨k1, c, k2⟩ := h.blocked j g1
    refine ⟨k1, ?_⟩
    rcases k2.step (v := v) e h1 with k3 | ⟨-, k3⟩
    · exact ⟨c, k3⟩
    · exfalso
      unfold CallersSt.inResult at g2
      dsimp only at g2
      rw [k3] at g2
      cases g2
  · by_cases hb : s.busy = some j
    · obtain ⟨k1, c, k2⟩ := h.blocked j hb
      rcases k2.step (v := v) e h1 with k3 | ⟨-, k3⟩
      · refine .inl ?_
        refine Option.filter_eq_some_iff.2 ⟨hb, ?_⟩
        unfold CallersSt.inResult
        dsimp only
        rw [k3.at_]
        show c.out.isNone = true
        rw [k3.out]
        rfl
      · exact .inr ⟨_, k3, .inr ⟨k2.kind, _, rfl, .inl rfl⟩⟩
    · rcases h.stands j hj with h3 | h3
      · exact absurd h3 hb
      · have := Stands.step (v := v) (busy := none) (.inr h3) e nofun
        rcases this with h4 | h4
        · cases h4
        · exact .inr h4

/-- if nobody waits, any event of the client -/
theorem CbInv.free {v : PyVer} {s : CbSt} (h : CbInv s) (hb : s.busy = none) (e : CallersEv) (b : Bool) :
    CbInv { s with base := callersStep v s.base e, inCb := b } := by
  refine ⟨fun j hj => ?_, fun j hj => ?_⟩
  · exact absurd (hj.symm.trans hb) nofun
  · exact (h.stands j hj).step e fun hc => absurd (hc.symm.trans hb) nofun

theorem release_keep {s : CbSt} (h : ∀ j, s.busy = some j → s.base.inResult j = true) : s.release = s := by
  unfold CbSt.release
  have : (s.busy.filter fun j => s.base.inResult j) = s.busy := by
    cases hb : s.busy with
    | none => rfl
    | some j => rw [Option.filter_some, if_pos (h j hb)]
  rw [this]

theorem CbInv.step {v : PyVer} {s : CbSt} (h : CbInv s) (e : CbEv) : CbInv (cbStep v s e) := by
  have idle : s.inCb = false → s.busy = none := by
    intro hi
    cases hb : s.busy with
    | none => rfl
    | some j => rw [(h.blocked j hb).1] at hi; cases hi
  have keep : ∀ e : CallersEv, e.ofThread = true → e.isTimeout = false →
      CbInv { s with base := callersStep v s.base e } := by
    intro e h1 h3
    have := h.thread (v := v) e h1
    rwa [release_keep] at this
    intro j hj
    obtain ⟨-, c, k2⟩ := h.blocked j hj
    rcases k2.step (v := v) e h1 with k3 | ⟨k3, -⟩
    · unfold CallersSt.inResult
      rw [k3.at_]
      show c.out.isNone = true
      rw [k3.out]
      rfl
    · rw [h3] at k3; cases k3
  cases e with
  | invoke k a => exact keep (.invoke k a) rfl rfl
  | cancel j => exact keep (.cancel j) rfl rfl
  | give j => exact h.thread (.give j) rfl
  | timeout j => exact h.thread (.timeout j) rfl
  | loop e =>
    unfold cbStep
    dsimp only
    split
    · exact h
    · next hi =>
      have := h.free (v := v) (idle (by simpa using hi)) (.loop e) s.inCb
      exact this
  | settle j late =>
    unfold cbStep
    dsimp only
    split
    · exact h
    · next hi => exact h.free (v := v) (idle (by simpa using hi)) (.settle j) _
  | cbEnd =>
    unfold cbStep
    dsimp only
    split
    · next hb =>
      have hb : s.busy = none := Option.isNone_iff_eq_none.1 hb
      exact ⟨fun j hj => absurd (hj.symm.trans hb) nofun, h.stands⟩
    · exact h
  | cbCall k a =>
    unfold cbStep
    dsimp only
    split
    · next hb =>
      rw [Bool.and_eq_true] at hb
      have hn : s.busy = none := Option.isNone_iff_eq_none.1 hb.2
      have new : ∃ c, (callersStep v s.base (.invoke k a)).callers[s.base.callers.length]? = some c ∧
          ((c.out = none ∧ c.kind = .sync ∧ c.fut = .pending ∧ c.call.isSome = true) ∨
           (c.kind ≠ .sync ∧ c.out.isSome = true) ∨ (c.kind = .sync ∧ ∃ e, c.out = some (.error e) ∧ Unbuilt c.args e)) := by
        show ∃ c, (s.base.invoke v k a).callers[s.base.callers.length]? = some c ∧ _
        unfold CallersSt.invoke
        split
        · next hc =>
          refine ⟨_, List.getElem?_concat_length, .inr (.inr ⟨hc.1, _, rfl, .inr ⟨rfl, hc.2⟩⟩)⟩
        · split
          · next e he =>
            refine ⟨_, List.getElem?_concat_length, .inr ?_⟩
            by_cases hk : k = .sync
            · refine .inr ⟨hk, _, rfl, .inl ?_⟩
              subst hk
              exact he
            · exact .inl ⟨hk, rfl⟩
          · refine ⟨_, List.getElem?_concat_length, ?_⟩
            by_cases hk : k = .sync
            · exact .inl ⟨by dsimp only; rw [if_pos hk], hk, rfl, rfl⟩
            · refine .inr (.inl ⟨hk, ?_⟩)
              dsimp only
              rw [if_neg hk]
              split <;> rfl
      obtain ⟨c, g1, g2⟩ := new
      refine ⟨fun j hj => ?_, fun j hj => ?_⟩
      · obtain ⟨k1, k2⟩ := release_some hj
        cases k1
        refine ⟨hb.1, c, ?_⟩
        unfold CallersSt.inResult at k2
        dsimp only at k2
        rw [g1] at k2
        have k2 : c.out.isNone = true := k2
        rcases g2 with ⟨q1, q2, q3, q4⟩ | ⟨q1, q2⟩ | ⟨q1, e, q2, -⟩
        · exact ⟨g1, q2, q1, q3, q4⟩
        · rw [Option.isNone_iff_eq_none] at k2; rw [k2] at q2; cases q2
        · rw [q2] at k2; cases k2
      · rcases List.mem_append.1 hj with hj | hj
        · have := Stands.step (v := v) (busy := none) (by have := h.stands j hj; rwa [hn] at this) (.invoke k a) nofun
          rcases this with h4 | h4
          · cases h4
          · exact .inr h4
        · rw [List.mem_singleton] at hj
          subst hj
          rcases g2 with ⟨q1, q2, q3, q4⟩ | g2 | ⟨q1, e, q2, q3⟩
          · refine .inl (Option.filter_eq_some_iff.2 ⟨rfl, ?_⟩)
            unfold CallersSt.inResult
            dsimp only
            rw [g1]
            show c.out.isNone = true
            rw [q1]
            rfl
          · exact .inr ⟨c, g1, .inl g2⟩
          · exact .inr ⟨c, g1, .inr ⟨q1, e, q2, .inr q3⟩⟩
    · exact h

theorem CbInv.run (v : PyVer) (evs : List CbEv) : CbInv (cbRun v evs) := by
  induction evs using snoc_induct with
  | nil => exact ⟨nofun, fun _ h => absurd h List.not_mem_nil⟩
  | snoc evs e ih => rw [cbRun_snoc]; exact ih.step e

theorem inside_busy (v : PyVer) (evs : List CbEv) (j : Nat) (h : (cbRun v evs).busy = some j) : j ∈ (cbRun v evs).inside := by
  induction evs using snoc_induct generalizing j with
  | nil => cases h
  | snoc evs e ih =>
    rw [cbRun_snoc] at h ⊢
    cases e with
    | invoke k a => exact ih j h
    | cancel i => exact ih j h
    | give i => exact ih j (release_some h).1
    | timeout i => exact ih j (release_some h).1
    | loop e =>
      unfold cbStep at h ⊢
      dsimp only at h ⊢
      split at h
      · next hi => rw [if_pos hi]; exact ih j h
      · next hi => rw [if_neg hi]; exact ih j h
    | settle i late =>
      unfold cbStep at h ⊢
      dsimp only at h ⊢
      split at h
      · next hi => rw [if_pos hi]; exact ih j h
      · next hi => rw [if_neg hi]; exact ih j h
    | cbCall k a =>
      unfold cbStep at h ⊢
      dsimp only at h ⊢
      split at h
      · next hi =>
        rw [if_pos hi]
        have := (release_some h).1
        cases this
        exact List.mem_append_right _ (List.mem_singleton.2 rfl)
      · next hi => rw [if_neg hi]; exact ih j h
    | cbEnd =>
      unfold cbStep at h ⊢
      dsimp only at h ⊢
      split at h
      · next hi => rw [if_pos hi]; exact ih j h
      · next hi => rw [if_neg hi]; exact ih j h

theorem inside_mono (v : PyVer) (evs more : List CbEv) (j : Nat) (h : j ∈ (cbRun v evs).inside) : j ∈ (cbRun v (evs ++ more)).inside := by
  induction more using snoc_induct with
  | nil => rwa [List.append_nil]
  | snoc more e ih =>
    rw [← List.append_assoc, cbRun_snoc]
    unfold cbStep CbSt.release
    cases e with
    | cbCall k a => dsimp only; split <;> first | exact List.mem_append_left _ ih | exact ih
    | loop | settle | cbEnd => dsimp only; split <;> exact ih
    | _ => exact ih

/-- C179: in a callback that runs on the loop's thread, every call of `invoke_sync` whose request can be built ends with
TimeoutError, whatever the server answers and when: it waits in the thread that would have to send the request and read the
response. -/
theorem C179_times_out (v : PyVer) (evs : List CbEv) (j : Nat) (c : Caller) (hj : j ∈ (cbRun v evs).inside)
    (hc : (cbRun v evs).base.callers[j]? = some c) (hk : c.kind = .sync) :
    (c.out = none ∧ c.fut = .pending ∧ (cbRun v evs).busy = some j) ∨
    ∃ e, c.out = some (.error e) ∧ (e = .timeoutError ∨ Unbuilt c.args e) := by
  have h := CbInv.run v evs
  rcases h.stands j hj with h1 | ⟨c', h1, h2⟩
  · obtain ⟨-, c', h2⟩ := h.blocked j h1
    have : c' = c := Option.some.inj (h2.at_.symm.trans hc)
    subst this
    exact .inl ⟨h2.out, h2.fut, h1⟩
  · have : c' = c := Option.some.inj (h1.symm.trans hc)
    subst this
    rcases h2 with ⟨h2, -⟩ | ⟨-, h2⟩
    · exact absurd hk h2
    · exact .inr h2

/-- C179, what holds: apart from when things happen, callbacks that call the client change nothing. The client and all its
callers are as after a history without the thread of the loop, made of a part of the same events; so everything that has
been proved of such histories (C127 to C129, C134) holds here. Missing: that calls of `invoke_sync` in callbacks return. -/
theorem C179_refines_partial (v : PyVer) (evs : List CbEv) :
    ∃ evs', evs'.Sublist (evs.filterMap CbEv.plain) ∧ (cbRun v evs).base = callersRun v evs' := by
  induction evs using snoc_induct with
  | nil => exact ⟨[], List.Sublist.refl _, rfl⟩
  | snoc evs e ih =>
    obtain ⟨evs', h1, h2⟩ := ih
    have skip : ∀ s : CbSt, s.base = (cbRun v evs).base → ∃ evs', evs'.Sublist ((evs ++ [e]).filterMap CbEv.plain) ∧
        s.base = callersRun v evs' := by
      intro s hs
      refine ⟨evs', ?_, hs.trans h2⟩
      rw [List.filterMap_append]
      exact h1.trans (List.sublist_append_left _ _)
    have take : ∀ (s : CbSt) (x : CallersEv), CbEv.plain e = some x → s.base = callersStep v (cbRun v evs).base x →
        ∃ evs', evs'.Sublist ((evs ++ [e]).filterMap CbEv.plain) ∧ s.base = callersRun v evs' := by
      intro s x hx hs
      refine ⟨evs' ++ [x], ?_, by rw [callersRun_snoc, hs, h2]⟩
      rw [List.filterMap_append]
      have : [e].filterMap CbEv.plain = [x] := by rw [List.filterMap_cons, hx]; rfl
      rw [this]
      exact h1.append (List.Sublist.refl _)
    rw [cbRun_snoc]
    cases e with
    | invoke k a => exact take _ _ rfl rfl
    | cancel j => exact take _ _ rfl rfl
    | give j => exact take _ _ rfl rfl
    | timeout j => exact take _ _ rfl rfl
    | loop x =>
      unfold cbStep
      dsimp only
      split
      · exact skip _ rfl
      · exact take _ _ rfl rfl
    | settle j late =>
      unfold cbStep
      dsimp only
      split
      · exact skip _ rfl
      · exact take _ _ rfl rfl
    | cbCall k a =>
      unfold cbStep
      dsimp only
      split
      · exact take _ _ rfl rfl
      · exact skip _ rfl
    | cbEnd =>
      unfold cbStep
      dsimp only
      split <;> exact skip _ rfl

/-- C179: while a callback runs, nothing happens on the loop. No coroutine, whoever submitted it, gets further, nothing is
read, and no future is completed (the user may cancel one), until the callback has returned. -/
theorem C179_stalls (v : PyVer) (evs more : List CbEv) (h : (cbRun v evs).inCb = true) (hm : CbEv.cbEnd ∉ more) :
    (cbRun v (evs ++ more)).inCb = true ∧
    (∃ new, (cbRun v (evs ++ more)).base.cli = { (cbRun v evs).base.cli with calls := (cbRun v evs).base.cli.calls ++ new }) ∧
    ∀ (j : Nat) (c : Caller), (cbRun v evs).base.callers[j]? = some c → ∃ c' : Caller, (cbRun v (evs ++ more)).base.callers[j]? = some c' ∧
      (c'.fut = c.fut ∨ c'.fut = .cancelled) ∧ c'.cbs = c.cbs := by
  induction more using snoc_induct with
  | nil =>
    rw [List.append_nil]
    exact ⟨h, ⟨[], by rw [List.append_nil]⟩, fun j c hc => ⟨c, hc, .inl rfl, rfl⟩⟩
  | snoc more e ih =>
    obtain ⟨i1, ⟨new, i2⟩, i3⟩ := ih fun hc => hm (List.mem_append_left _ hc)
    rw [← List.append_assoc, cbRun_snoc]
    generalize cbRun v (evs ++ more) = s at *
    have same : ∀ s' : CbSt, s'.inCb = s.inCb → s'.base = s.base → s'.inCb = true ∧
        (∃ new, s'.base.cli = { (cbRun v evs).base.cli with calls := (cbRun v evs).base.cli.calls ++ new }) ∧
        ∀ (j : Nat) (c : Caller), (cbRun v evs).base.callers[j]? = some c → ∃ c' : Caller, s'.base.callers[j]? = some c' ∧
          (c'.fut = c.fut ∨ c'.fut = .cancelled) ∧ c'.cbs = c.cbs := by
      intro s' e1 e2
      rw [e1, e2]
      exact ⟨i1, ⟨new, i2⟩, i3⟩
    have inv : ∀ (s' : CbSt) (k : CallerKind) (a : CallArgs), s'.inCb = s.inCb → s'.base = callersStep v s.base (.invoke k a) →
        s'.inCb = true ∧
        (∃ new, s'.base.cli = { (cbRun v evs).base.cli with calls := (cbRun v evs).base.cli.calls ++ new }) ∧
        ∀ (j : Nat) (c : Caller), (cbRun v evs).base.callers[j]? = some c → ∃ c' : Caller, s'.base.callers[j]? = some c' ∧
          (c'.fut = c.fut ∨ c'.fut = .cancelled) ∧ c'.cbs = c.cbs := by
      intro s' k a e1 e2
      have app : ∀ (x : Caller) (j : Nat) (c : Caller), (cbRun v evs).base.callers[j]? = some c → ∃ c' : Caller, (s.base.callers ++ [x])[j]? = some c' ∧
          (c'.fut = c.fut ∨ c'.fut = .cancelled) ∧ c'.cbs = c.cbs := by
        intro x j c hc
        obtain ⟨c', g1, g2, g3⟩ := i3 j c hc
        exact ⟨c', by rw [List.getElem?_append_left (List.getElem?_eq_some_iff.1 g1).1]; exact g1, g2, g3⟩
      rw [e1, e2]
      refine ⟨i1, ?_, ?_⟩
      · show ∃ new, (s.base.invoke v k a).cli = _
        unfold CallersSt.invoke
        split
        · exact ⟨new, i2⟩
        · split
          · exact ⟨new, i2⟩
          · next q _ =>
            refine ⟨new ++ [{ req := q }], ?_⟩
            show ({ s.base.cli with calls := s.base.cli.calls ++ [{ req := q }] } : ASt) = _
            rw [i2]
            dsimp only
            rw [List.append_assoc]
      · show ∀ (j : Nat) (c : Caller), _ → ∃ c' : Caller, (s.base.invoke v k a).callers[j]? = some c' ∧ _
        unfold CallersSt.invoke
        split
        · exact app _
        · split <;> exact app _
    have upd : ∀ (s' : CbSt) (m : Nat) (f : Caller → Caller), s'.inCb = s.inCb → s'.base.cli = s.base.cli →
        s'.base.callers = s.base.callers.modify m f →
        (∀ c, ((f c).fut = c.fut ∨ (f c).fut = .cancelled) ∧ (f c).cbs = c.cbs) → s'.inCb = true ∧
        (∃ new, s'.base.cli = { (cbRun v evs).base.cli with calls := (cbRun v evs).base.cli.calls ++ new }) ∧
        ∀ (j : Nat) (c : Caller), (cbRun v evs).base.callers[j]? = some c → ∃ c' : Caller, s'.base.callers[j]? = some c' ∧
          (c'.fut = c.fut ∨ c'.fut = .cancelled) ∧ c'.cbs = c.cbs := by
      intro s' m f e1 e2 e3 hf
      rw [e1, e2, e3]
      refine ⟨i1, ⟨new, i2⟩, fun j c hc => ?_⟩
      obtain ⟨c', g1, g2, g3⟩ := i3 j c hc
      by_cases e : m = j
      · subst e
        refine ⟨f c', modify_self g1, ?_, (hf c').2.trans g3⟩
        rcases (hf c').1 with h5 | h5
        · rw [h5]; exact g2
        · exact .inr h5
      · exact ⟨c', by rw [modify_other e]; exact g1, g2, g3⟩
    cases e with
    | invoke k a => exact inv _ k a rfl rfl
    | cancel j =>
      refine upd _ j Caller.cancel rfl rfl rfl fun c => ?_
      unfold Caller.cancel Caller.runCallback
      split
      · split
        · split
          · exact ⟨.inr rfl, rfl⟩
          · exact ⟨.inr rfl, rfl⟩
        · exact ⟨.inl rfl, rfl⟩
      · exact ⟨.inl rfl, rfl⟩
    | give j =>
      refine upd _ j Caller.give rfl rfl rfl fun c => ?_
      unfold Caller.give
      split
      · split <;> exact ⟨.inl rfl, rfl⟩
      · exact ⟨.inl rfl, rfl⟩
    | timeout j =>
      refine upd _ j Caller.giveUp rfl rfl rfl fun c => ?_
      unfold Caller.giveUp
      split <;> exact ⟨.inl rfl, rfl⟩
    | loop x => exact same _ (by unfold cbStep; dsimp only; rw [if_pos i1]) (by unfold cbStep; dsimp only; rw [if_pos i1])
    | settle j late => exact same _ (by unfold cbStep; dsimp only; rw [if_pos i1]) (by unfold cbStep; dsimp only; rw [if_pos i1])
    | cbCall k a =>
      by_cases hb : (s.inCb && s.busy.isNone) = true
      · exact inv _ k a (by unfold cbStep; dsimp only; rw [if_pos hb]; rfl) (by unfold cbStep; dsimp only; rw [if_pos hb]; rfl)
      · exact same _ (by unfold cbStep; dsimp only; rw [if_neg hb]) (by unfold cbStep; dsimp only; rw [if_neg hb])
    | cbEnd => exact absurd (List.mem_append_right _ (List.mem_singleton.2 rfl)) hm

/-- C179: calls of `invoke_async` and `invoke_oneway` in a callback do not hold the loop up. -/
theorem C179_others_go_on (v : PyVer) (evs : List CbEv) (k : CallerKind) (a : CallArgs) (hk : k ≠ .sync)
    (hb : (cbRun v evs).busy = none) :
    (cbRun v (evs ++ [.cbCall k a])).busy = none ∧ (cbRun v (evs ++ [.cbCall k a, .cbEnd])).inCb = false := by
  have h1 : (cbRun v (evs ++ [.cbCall k a])).busy = none := by
    cases hs : (cbRun v (evs ++ [.cbCall k a])).busy with
    | none => rfl
    | some j =>
      obtain ⟨-, c, h1⟩ := (CbInv.run v _).blocked j hs
      exfalso
      rw [cbRun_snoc] at h1 hs
      unfold cbStep at h1 hs
      dsimp only at h1 hs
      split at hs
      · next hi =>
        rw [if_pos hi] at h1
        have := (release_some hs).1
        cases this
        have h2 := h1.at_
        have h3 : (callersStep v (cbRun v evs).base (.invoke k a)).callers[(cbRun v evs).base.callers.length]? = some c := h2
        have h4 : ((cbRun v evs).base.invoke v k a).callers[(cbRun v evs).base.callers.length]? = some c := h3
        unfold CallersSt.invoke at h4
        split at h4
        · next hc => exact hk hc.1
        · split at h4
          · have h4 := (List.getElem?_concat_length (l := (cbRun v evs).base.callers)).symm.trans h4
            cases h4
            exact hk h1.kind
          · have h4 := (List.getElem?_concat_length (l := (cbRun v evs).base.callers)).symm.trans h4
            cases h4
            exact hk h1.kind
      · rw [hb] at hs; cases hs
  refine ⟨h1, ?_⟩
  have : evs ++ [.cbCall k a, .cbEnd] = (evs ++ [.cbCall k a]) ++ [.cbEnd] := by simp
  rw [this, cbRun_snoc]
  unfold cbStep
  dsimp only
  rw [h1]
  rfl

/-- a call with a callback is answered; the callback calls `invoke_sync` -/
def exCallback : List CbEv :=
  [.invoke (.async true) exCall, .loop (.start 0 exAddr), .loop (.dialed 0 true), .loop (.drained 0 true),
   .loop (.drained 0 true), .loop (.recv 0), .loop (.data 0 (reply 7 0 [33])), .loop (.recv 0), .loop (.recv 0),
   .loop (.wake 0), .settle 0 false, .cbCall .sync { exCall with id := 8 }]

set_option maxRecDepth 40000 in
theorem exCallback_busy : (cbRun .from38 exCallback).busy = some 1 ∧
    (cbRun .from38 exCallback).base.callers.map (fun c => (c.out, c.cbs)) = [(some (.ok none), [.bytes [33]]), (none, [])] := by
  decide +kernel

/-- C179 is violated -/
theorem C179_violated : ¬ C179_full := by
  intro h
  obtain ⟨more, c, x, h1, h2⟩ := h .from38 exCallback 1 exCallback_busy.1
  have hi := inside_mono .from38 exCallback more 1 (inside_busy _ _ _ exCallback_busy.1)
  obtain ⟨evs', -, hr⟩ := C179_refines_partial .from38 (exCallback ++ more)
  have hk : c.kind = .sync := by
    rw [hr] at h1
    exact (((CallersInv.run .from38 evs').ok 1 c h1).out x h2).1
  rcases C179_times_out .from38 (exCallback ++ more) 1 c hi h1 hk with ⟨h3, -⟩ | ⟨e, h3, -⟩
  · rw [h2] at h3; cases h3
  · rw [h2] at h3; cases h3

set_option maxRecDepth 40000 in
/-- another thread's response arrives meanwhile and is read only after the callback has given up and returned -/
example :
    let evs := exCallback ++ [.invoke .sync { exCall with id := 9 }, .loop (.start 1 exAddr), .loop (.start 2 exAddr)]
    (cbRun .from38 evs).inCb = true ∧ (cbRun .from38 (evs ++ [.timeout 1])).busy = none ∧
    (cbRun .from38 (evs ++ [.timeout 1, .cbEnd])).inCb = false ∧
    (cbRun .from38 (evs ++ [.timeout 1, .cbEnd])).base.callers.map (fun c => c.out) =
      [some (.ok none), some (.error .timeoutError), none] := by
  decide +kernel

end Bolt
