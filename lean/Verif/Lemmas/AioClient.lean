import Verif.Model.AioClient
import Verif.Props.SyncClient
import Verif.Lemmas.Dict
/-!
# The bookkeeping of the asyncio client, as a small transition system

`BStep` describes what one event can do to the request and response dictionaries and to the calls; `astep_bk` shows
that `astep` does nothing else.
-/
namespace Bolt
open Bolt.Spec

/-- the part of the state that matters for the matching of responses -/
structure Bk where
  reqs : PyDict PyObj Nat
  resps : PyDict PyObj Pkg
  calls : List ACall

def ASt.bk (s : ASt) : Bk := ⟨s.reqs, s.resps, s.calls⟩

/-- in `_send` -/
def CallPc.sending : CallPc → Bool
  | .locking .. | .dialing .. | .drain1 .. | .drain2 .. => true
  | _ => false

def CallPc.isDone : CallPc → Bool
  | .done _ => true
  | _ => false

/-- an answer that carries a result -/
def Pkg.good (p : Pkg) : Prop := p.cmdcode = .response ∧ p.respstatus = .success

instance (p : Pkg) : Decidable p.good := by unfold Pkg.good; infer_instance

def Bk.setPc (b : Bk) (i : Nat) (pc : CallPc) : Bk :=
  { b with calls := b.calls.modify i fun c => { c with pc := pc } }

/-- What can happen; `mk` tells which calls can be made, `ok` tells which packages are being received. -/
inductive BStep (mk : Pkg → Prop) (ok : Bk → Pkg → Prop) : Bk → Bk → Prop
  | call (b : Bk) (req : Pkg) (hm : mk req) : BStep mk ok b { b with calls := b.calls ++ [({ req := req } : ACall)] }
  | start (b : Bk) (i : Nat) (c : ACall) (pc : CallPc) (hc : b.calls[i]? = some c) (h : c.pc = .new)
      (hp : pc.sending = true) : BStep mk ok b ({ b with reqs := PyDict.set b.reqs c.req.requestId i }.setPc i pc)
  | move (b : Bk) (i : Nat) (c : ACall) (pc : CallPc) (hc : b.calls[i]? = some c) (h : c.pc.sending = true)
      (hp : pc.sending = true) : BStep mk ok b (b.setPc i pc)
  | fail (b : Bk) (i : Nat) (c : ACall) (hc : b.calls[i]? = some c) (h : c.pc.sending = true)
      (hr : PyDict.contains b.reqs c.req.requestId = true) :
      BStep mk ok b ({ b with reqs := PyDict.erase b.reqs c.req.requestId }.setPc i (.done .none))
  | gone (b : Bk) (i : Nat) (c : ACall) (hc : b.calls[i]? = some c) (h : c.pc.sending = true)
      (hr : PyDict.get? b.reqs c.req.requestId = none) : BStep mk ok b (b.setPc i (.done (.raised .keyError)))
  | wait (b : Bk) (i : Nat) (c : ACall) (ev : Nat) (hc : b.calls[i]? = some c) (h : c.pc.sending = true)
      (hr : PyDict.get? b.reqs c.req.requestId = some ev) : BStep mk ok b (b.setPc i (.waiting ev))
  | deliver (b : Bk) (i : Nat) (c : ACall) (ev : Nat) (p : Pkg) (hc : b.calls[i]? = some c) (h : c.pc = .waiting ev)
      (hs : b.calls[ev]?.map ACall.set = some true) (hr : PyDict.get? b.resps c.req.requestId = some p) :
      BStep mk ok b ({ b with resps := PyDict.erase b.resps c.req.requestId }.setPc i (.done (.resp p)))
  | missing (b : Bk) (i : Nat) (c : ACall) (ev : Nat) (hc : b.calls[i]? = some c) (h : c.pc = .waiting ev)
      (hs : b.calls[ev]?.map ACall.set = some true) (hr : PyDict.get? b.resps c.req.requestId = none) :
      BStep mk ok b (b.setPc i (.done (.raised .keyError)))
  | cancel (b : Bk) (i : Nat) (c : ACall) (hc : b.calls[i]? = some c) (h : c.pc.isDone = false) :
      BStep mk ok b (b.setPc i (.done (.raised .cancelledError)))
  | notify (b : Bk) (p : Pkg) (ev : Nat) (hp : ok b p) (hr : PyDict.get? b.reqs p.requestId = some ev) :
      BStep mk ok b ⟨PyDict.erase b.reqs p.requestId, if p.good then PyDict.set b.resps p.requestId p else b.resps,
        b.calls.modify ev fun c => { c with set := true }⟩

/-- any number of steps -/
inductive BSteps (mk : Pkg → Prop) (ok : Bk → Pkg → Prop) : Bk → Bk → Prop
  | refl (b : Bk) : BSteps mk ok b b
  | snoc {a b c : Bk} (h : BSteps mk ok a b) (h' : BStep mk ok b c) : BSteps mk ok a c

theorem BSteps.one {mk : Pkg → Prop} {ok : Bk → Pkg → Prop} {a b : Bk} (h : BStep mk ok a b) : BSteps mk ok a b := .snoc (.refl a) h

theorem BSteps.trans {mk : Pkg → Prop} {ok : Bk → Pkg → Prop} {a b c : Bk} (h : BSteps mk ok a b) (h' : BSteps mk ok b c) : BSteps mk ok a c := by
  induction h' with
  | refl => exact h
  | snoc _ h2 ih => exact .snoc ih h2

theorem BSteps.induct {mk : Pkg → Prop} {ok : Bk → Pkg → Prop} {P : Bk → Prop} (step : ∀ a b, BStep mk ok a b → P a → P b) {a b : Bk}
    (h : BSteps mk ok a b) (ha : P a) : P b := by
  induction h with
  | refl => exact ha
  | snoc _ h2 ih => exact step _ _ h2 ih

@[simp] theorem bk_setPc (s : ASt) (i : Nat) (pc : CallPc) : (s.setPc i pc).bk = s.bk.setPc i pc := rfl
@[simp] theorem bk_setLock (s : ASt) (l : Nat) (b : Bool) : (s.setLock l b).bk = s.bk := rfl
@[simp] theorem bk_setConn (s : ASt) (n : Nat) (k : AConn) : (s.setConn n k).bk = s.bk := rfl

theorem sendFailed_bk {mk : Pkg → Prop} {ok : Bk → Pkg → Prop} (s : ASt) (i : Nat) (c : ACall) (hc : s.calls[i]? = some c)
    (h : c.pc.sending = true) : BSteps mk ok s.bk (s.sendFailed i c).bk := by
  unfold ASt.sendFailed
  split
  · next hr => exact .one (.fail s.bk i c hc h hr)
  · next hr =>
    refine .one (.gone s.bk i c hc h ?_)
    have : (PyDict.get? s.reqs c.req.requestId).isSome ≠ true := hr
    cases hg : PyDict.get? s.reqs c.req.requestId with
    | none => exact hg
    | some x => rw [hg] at this; exact absurd rfl this

theorem send_bk {mk : Pkg → Prop} {ok : Bk → Pkg → Prop} (s : ASt) (i : Nat) (c : ACall) (hc : s.calls[i]? = some c)
    (h : c.pc.sending = true) (r : Nat) (addr : Addr) : BSteps mk ok s.bk (s.send i c r addr).bk := by
  unfold ASt.send
  split
  · exact sendFailed_bk s i c hc h
  · split
    · exact .one (.move s.bk i c _ hc h rfl)
    · split
      · split
        · exact .one (.move s.bk i c _ hc h rfl)
        · exact .one (.move s.bk i c _ hc h rfl)
      · exact .one (.move s.bk i c _ hc h rfl)

theorem start_bk {mk : Pkg → Prop} {ok : Bk → Pkg → Prop} (s : ASt) (i : Nat) (addr : Addr) : BSteps mk ok s.bk (s.start i addr).bk := by
  unfold ASt.start
  split
  · next c hc =>
    split
    · next hp =>
      unfold ASt.send
      rw [if_neg (by decide)]
      dsimp only
      split
      · exact .one (.start s.bk i c _ hc hp rfl)
      · split
        · split
          · exact .one (.start s.bk i c _ hc hp rfl)
          · exact .one (.start s.bk i c _ hc hp rfl)
        · exact .one (.start s.bk i c _ hc hp rfl)
    · exact .refl _
  · exact .refl _

theorem broken_bk {mk : Pkg → Prop} {ok : Bk → Pkg → Prop} (s : ASt) (i : Nat) (c : ACall) (hc : s.calls[i]? = some c)
    (h : c.pc.sending = true) (r : Nat) (addr : Addr) (n : Nat) : BSteps mk ok s.bk (s.broken i c r addr n).bk := by
  unfold ASt.broken
  dsimp only
  split
  · split
    · exact send_bk (mk := mk) (ok := ok) { s with
        conns := s.conns.modify n fun k => { k with cancelled := true }
        connMap := PyDict.erase s.connMap addr, dialMap := PyDict.erase s.dialMap addr } i c hc h (r - 1) addr
    · exact sendFailed_bk (mk := mk) (ok := ok) { s with
        conns := s.conns.modify n fun k => { k with cancelled := true }
        connMap := PyDict.erase s.connMap addr } i c hc h
  · exact sendFailed_bk (mk := mk) (ok := ok) { s with
        conns := s.conns.modify n fun k => { k with cancelled := true } } i c hc h

theorem lockTurn_bk {mk : Pkg → Prop} {ok : Bk → Pkg → Prop} (s : ASt) (i : Nat) : BSteps mk ok s.bk (s.lockTurn i).bk := by
  unfold ASt.lockTurn
  split
  · next c hc =>
    split
    · next r addr l hp =>
      have h : c.pc.sending = true := by rw [hp]; rfl
      split
      · split
        · exact .one (.move s.bk i c _ hc h rfl)
        · exact .one (.move s.bk i c _ hc h rfl)
      · exact .refl _
    · exact .refl _
  · exact .refl _

theorem dialed_bk {mk : Pkg → Prop} {ok : Bk → Pkg → Prop} (s : ASt) (i : Nat) (b : Bool) : BSteps mk ok s.bk (s.dialed i b).bk := by
  unfold ASt.dialed
  split
  · next c hc =>
    split
    · next r addr l hp =>
      have h : c.pc.sending = true := by rw [hp]; rfl
      dsimp only
      split
      · split
        · exact .one (.move s.bk i c _ hc h rfl)
        · exact .one (.move s.bk i c _ hc h rfl)
      · exact sendFailed_bk (mk := mk) (ok := ok) (s.setLock l false) i c hc h
    · exact .refl _
  · exact .refl _

theorem drained_bk {mk : Pkg → Prop} {ok : Bk → Pkg → Prop} (s : ASt) (i : Nat) (b : Bool) : BSteps mk ok s.bk (s.drained i b).bk := by
  unfold ASt.drained
  split
  · next c hc =>
    split
    · next r addr l hp =>
      have h : c.pc.sending = true := by rw [hp]; rfl
      split
      · split
        · exact broken_bk s i c hc h _ _ _
        · exact .one (.move s.bk i c _ hc h rfl)
      · exact broken_bk s i c hc h _ _ _
    · next r addr l hp =>
      have h : c.pc.sending = true := by rw [hp]; rfl
      split
      · split
        · next hr => exact .one (.gone s.bk i c hc h hr)
        · next ev hr =>
          split
          · exact .one (.fail s.bk i c hc h (by
              show (PyDict.get? s.reqs c.req.requestId).isSome = true
              rw [hr]; rfl))
          · exact .one (.wait s.bk i c ev hc h hr)
      · exact broken_bk s i c hc h _ _ _
    · exact .refl _
  · exact .refl _

theorem wake_bk {mk : Pkg → Prop} {ok : Bk → Pkg → Prop} (s : ASt) (i : Nat) : BSteps mk ok s.bk (s.wake i).bk := by
  unfold ASt.wake
  split
  · next c hc =>
    split
    · next ev hp =>
      split
      · next hs =>
        split
        · next p hr => exact .one (.deliver s.bk i c ev p hc hp hs hr)
        · next hr => exact .one (.missing s.bk i c ev hc hp hs hr)
      · exact .refl _
    · exact .refl _
  · exact .refl _

theorem cancel_bk {mk : Pkg → Prop} {ok : Bk → Pkg → Prop} (v : PyVer) (s : ASt) (i : Nat) : BSteps mk ok s.bk (s.cancel v i).bk := by
  unfold ASt.cancel
  split
  · next c hc =>
    split
    · next hp => exact .one (.cancel s.bk i c hc (by rw [hp]; rfl))
    · next hp =>
      split
      · exact sendFailed_bk s i c hc (by rw [hp]; rfl)
      · exact .one (.cancel s.bk i c hc (by rw [hp]; rfl))
    · next l hp =>
      dsimp only
      split
      · exact sendFailed_bk (mk := mk) (ok := ok) (s.setLock l false) i c hc (by rw [hp]; rfl)
      · exact .one (.cancel s.bk i c hc (by rw [hp]; rfl))
    · next hp =>
      split
      · exact broken_bk s i c hc (by rw [hp]; rfl) _ _ _
      · exact .one (.cancel s.bk i c hc (by rw [hp]; rfl))
    · next hp =>
      split
      · exact broken_bk s i c hc (by rw [hp]; rfl) _ _ _
      · exact .one (.cancel s.bk i c hc (by rw [hp]; rfl))
    · next hp => exact .one (.cancel s.bk i c hc (by rw [hp]; rfl))
    · exact .refl _
  · exact .refl _

/-! ### the reading task -/

theorem notify_some (s : ASt) (id : PyObj) (ev : Nat) (h : PyDict.get? s.reqs id = some ev) :
    s.notify id = { s with reqs := PyDict.erase s.reqs id, calls := s.calls.modify ev fun c => { c with set := true } } := by
  unfold ASt.notify
  rw [h]

theorem notify_none (s : ASt) (id : PyObj) (h : PyDict.get? s.reqs id = none) : s.notify id = s := by
  unfold ASt.notify
  rw [h]

/-- what a package does, by whether somebody waits for it -/
theorem onPkg_none (s : ASt) (p : Pkg) (h : PyDict.get? s.reqs p.requestId = none) : s.onPkg p = s := by
  have hc : PyDict.contains s.reqs p.requestId = false := by
    show (PyDict.get? s.reqs p.requestId).isSome = false
    rw [h]; rfl
  unfold ASt.onPkg
  simp only [hc, notify_none s _ h, Bool.not_false, if_true, ite_self]

theorem onPkg_some (s : ASt) (p : Pkg) (hcls : p.cls = .boltResponse) (ev : Nat)
    (h : PyDict.get? s.reqs p.requestId = some ev) :
    s.onPkg p = { s with
      reqs := PyDict.erase s.reqs p.requestId
      resps := if p.good then PyDict.set s.resps p.requestId p else s.resps
      calls := s.calls.modify ev fun c => { c with set := true } } := by
  have hc : PyDict.contains s.reqs p.requestId = true := by
    show (PyDict.get? s.reqs p.requestId).isSome = true
    rw [h]; rfl
  have e := notify_some s p.requestId ev h
  unfold ASt.onPkg
  rw [if_neg (by rw [hcls]; simp)]
  by_cases hg : p.good
  · rw [if_neg (by rw [hg.1]; simp), if_neg (by rw [hg.1]; simp), if_neg (by rw [hg.2]; simp), if_neg (by simp [hc])]
    simp only [if_pos hg]
    exact notify_some { s with resps := PyDict.set s.resps p.requestId p } p.requestId ev h
  · simp only [if_neg hg]
    rw [e]
    by_cases h1 : p.cmdcode = .heartbeat
    · rw [if_pos h1]
    · rw [if_neg h1]
      by_cases h2 : p.cmdcode = .request
      · rw [if_pos h2]
      · rw [if_neg h2]
        have h3 : p.cmdcode = .response := by
          cases hx : p.cmdcode
          · exact absurd hx h1
          · exact absurd hx h2
          · rfl
        rw [if_pos (fun h4 => hg ⟨h3, h4⟩)]

/-! ### connections: where in its stream the reading task is -/

/-- a piece of a stream as long as its own first bytes say -/
def Spec.RespUnit (u : Bytes) : Prop := 20 ≤ u.length ∧ u.length = Spec.declaredLength false u

/-- The reading task has cut what was received into units, up to the one at which it is. -/
def AConn.Aligned (k : AConn) : Prop :=
  match k.pc with
  | .new | .hdr => ∃ us : List Bytes, (∀ u ∈ us, Spec.RespUnit u) ∧ k.recvd = us.flatten ++ k.buf
  | .body h => ∃ (us : List Bytes) (hb : Bytes), (∀ u ∈ us, Spec.RespUnit u) ∧ hb.length = 20 ∧
      boltHeaderFromStream .boltResponse hb = .ok h ∧ k.recvd = us.flatten ++ hb ++ k.buf
  | .ended => True

/-- `p` is what the unit after `us` in the stream `recvd` decodes to -/
def Spec.NextFrame (recvd : Bytes) (p : Pkg) : Prop :=
  ∃ (us : List Bytes) (f : Fields) (cn hb ct : Bytes) (d : PyDict PyStr PyStr) (rest : Bytes),
    (∀ u ∈ us, Spec.RespUnit u) ∧ recvd = us.flatten ++ frame false f cn hb ct ++ rest ∧ Fields.Fit false f ∧
    BodyFit cn hb ct ∧ headerFromBytes hb = .ok d ∧ DecodesTo .boltResponse f d ct p


theorem respUnit_prefix (a b : Bytes) (h : 20 ≤ a.length) : Spec.declaredLength false (a ++ b) = Spec.declaredLength false a := by
  obtain ⟨h1, n1, e1, b1, d1, -⟩ := header_declares .boltResponse a h
  obtain ⟨h2, n2, e2, b2, d2, -⟩ := header_declares .boltResponse (a ++ b) (by rw [headerSize_resp]; simp; omega)
  have : boltHeaderFromStream .boltResponse (a ++ b) = boltHeaderFromStream .boltResponse a := by
    unfold boltHeaderFromStream
    rw [List.take_append_of_le_length (by rw [headerSize_resp]; exact h)]
  rw [this, e1] at e2
  cases e2
  rw [b1] at b2
  have b2 := Except.ok.inj b2
  have : n1 = n2 := Int.ofNat.inj b2
  rw [show PkgClass.boltResponse.isRequest = false from rfl] at d1 d2
  rw [d1, d2, this]

/-- one run of the reading task: nothing happens outside the connection, or the package of the next frame is
processed -/
theorem recv_cases (s : ASt) (n : Nat) (hal : ∀ k ∈ s.conns, k.Aligned) :
    (∃ cs, s.recv n = { s with conns := cs } ∧ (∀ k ∈ cs, k.Aligned)) ∨
    (∃ k p cs, s.conns[n]? = some k ∧ NextFrame k.recvd p ∧ (∀ k ∈ cs, k.Aligned) ∧
      s.recv n = { s with conns := cs }.onPkg p) := by
  unfold ASt.recv
  have set_al : ∀ k', k'.Aligned → ∀ k ∈ s.conns.set n k', k.Aligned := by
    intro k' hk' k hk
    rcases List.mem_or_eq_of_mem_set hk with h | h
    · exact hal k h
    · rw [h]; exact hk'
  split
  · exact .inl ⟨s.conns, rfl, hal⟩
  · next k hk =>
    have hka := hal k (List.mem_of_getElem? hk)
    split
    · exact .inl ⟨s.conns, rfl, hal⟩
    · next hp =>
      unfold AConn.Aligned at hka
      rw [hp] at hka
      split
      · exact .inl ⟨_, rfl, set_al _ trivial⟩
      · exact .inl ⟨_, rfl, set_al _ hka⟩
    · next hp =>
      unfold AConn.Aligned at hka
      rw [hp] at hka
      obtain ⟨us, hus, hr⟩ := hka
      split
      · exact .inl ⟨_, rfl, set_al _ trivial⟩
      · dsimp only
        split
        · next hl =>
          have hl20 : 20 ≤ k.buf.length := hl
          have hlen : (k.buf.take 20).length = 20 := by rw [List.length_take]; omega
          obtain ⟨h, hh⟩ := boltHeaderFromStream_total .boltResponse (k.buf.take 20) (by rw [hlen]; exact Nat.le_refl _)
          rw [show PkgClass.boltResponse.headerSize = 20 from rfl, hh]
          dsimp only
          refine .inl ⟨_, rfl, set_al _ ?_⟩
          refine ⟨us, k.buf.take 20, hus, hlen, hh, ?_⟩
          show k.recvd = _ ++ _ ++ k.buf.drop 20
          rw [List.append_assoc, List.take_append_drop]
          exact hr
        · split
          · exact .inl ⟨_, rfl, set_al _ trivial⟩
          · exact .inl ⟨s.conns, rfl, hal⟩
    · next h hp =>
      unfold AConn.Aligned at hka
      rw [hp] at hka
      obtain ⟨us, hb, hus, hlen, hh, hr⟩ := hka
      split
      · exact .inl ⟨_, rfl, set_al _ trivial⟩
      · obtain ⟨h', m, e1, b1, d1, -⟩ := header_declares .boltResponse hb (by rw [hlen]; exact Nat.le_refl _)
        rw [hh] at e1
        cases e1
        rw [b1]
        dsimp only
        rw [Int.toNat_natCast]
        rw [show PkgClass.boltResponse.isRequest = false from rfl, headerSize_resp] at d1
        split
        · next hl =>
          have hul : (hb ++ k.buf.take m).length = 20 + m := by
            rw [List.length_append, hlen, List.length_take]; omega
          have hu : RespUnit (hb ++ k.buf.take m) := by
            refine ⟨by omega, ?_⟩
            rw [respUnit_prefix _ _ (by omega), d1, hul]
          have hal' : ∀ k' ∈ s.conns.set n { k with buf := k.buf.drop m, pc := .hdr }, k'.Aligned := by
            apply set_al
            refine ⟨us ++ [hb ++ k.buf.take m], ?_, ?_⟩
            · intro u hu'
              rcases List.mem_append.1 hu' with h1 | h1
              · exact hus u h1
              · rw [List.mem_singleton.1 h1]; exact hu
            · show k.recvd = _
              rw [hr]
              simp
          cases hd : boltContentFromStream .boltResponse (k.buf.take m) h with
          | error e => exact .inl ⟨_, rfl, hal'⟩
          | ok p =>
            refine .inr ⟨k, p, _, hk, ?_, hal', rfl⟩
            have hfs : fromStream .boltResponse (hb ++ k.buf.take m) = .ok p := by
              have e : boltHeaderFromStream .boltResponse (hb ++ k.buf.take m) = .ok h := by
                rw [← hh]
                unfold boltHeaderFromStream
                rw [List.take_append_of_le_length (by rw [headerSize_resp]; omega)]
              unfold fromStream
              rw [e]
              simp only [bind, Except.bind]
              rw [headerSize_resp, ← hlen, List.drop_left]
              exact hd
            obtain ⟨f, cn, hb', ct, d, e, hf, hbf, hdd, hdec⟩ := (fromStream_ok_iff _ _ _).1 hfs
            refine ⟨us, f, cn, hb', ct, d, k.buf.drop m, hus, ?_, hf, hbf, hdd, hdec⟩
            rw [← show PkgClass.boltResponse.isRequest = false from rfl, ← e, hr]
            simp
        · split
          · exact .inl ⟨_, rfl, set_al _ trivial⟩
          · exact .inl ⟨s.conns, rfl, hal⟩


/-! ### one event -/

theorem modify_forall {α : Type} {P : α → Prop} {l : List α} {n : Nat} {f : α → α} (hl : ∀ x ∈ l, P x)
    (hf : ∀ x, P x → P (f x)) : ∀ x ∈ l.modify n f, P x := by
  intro x hx
  obtain ⟨i, hi⟩ := List.mem_iff_getElem?.1 hx
  rw [List.getElem?_modify] at hi
  cases hli : l[i]? with
  | none => rw [hli] at hi; simp at hi
  | some y =>
    have hy := hl y (List.mem_of_getElem? hli)
    rw [hli] at hi
    simp only [Option.map_eq_map, Option.map_some, Option.some.injEq] at hi
    rw [← hi]
    split
    · exact hf y hy
    · exact hy

/-- the steps of the calls change connections only in ways that do not matter to the reading task -/
theorem sendFailed_conns (s : ASt) (i : Nat) (c : ACall) : (s.sendFailed i c).conns = s.conns := by
  unfold ASt.sendFailed
  split <;> rfl

theorem send_conns (s : ASt) (i : Nat) (c : ACall) (r : Nat) (addr : Addr) : (s.send i c r addr).conns = s.conns := by
  unfold ASt.send
  split
  · exact sendFailed_conns ..
  · split
    · rfl
    · split
      · split <;> rfl
      · rfl

theorem broken_conns (s : ASt) (i : Nat) (c : ACall) (r : Nat) (addr : Addr) (n : Nat) :
    (s.broken i c r addr n).conns = s.conns.modify n fun k => { k with cancelled := true } := by
  unfold ASt.broken
  dsimp only
  split
  · split
    · exact send_conns ..
    · exact sendFailed_conns ..
  · exact sendFailed_conns ..

theorem onPkg_conns (s : ASt) (p : Pkg) : (s.onPkg p).conns = s.conns := by
  have h : ∀ (s : ASt) (id : PyObj), (s.notify id).conns = s.conns := by
    intro s id
    unfold ASt.notify
    split <;> rfl
  unfold ASt.onPkg
  split
  · exact h ..
  · split
    · exact h ..
    · split
      · exact h ..
      · split
        · exact h ..
        · split
          · exact h ..
          · exact h ..

theorem broken_aligned (s : ASt) (i : Nat) (c : ACall) (r : Nat) (addr : Addr) (n : Nat)
    (hal : ∀ k ∈ s.conns, k.Aligned) : ∀ k ∈ (s.broken i c r addr n).conns, k.Aligned := by
  rw [broken_conns]
  exact modify_forall hal fun _ h => h

theorem astep_aligned (v : PyVer) (s : ASt) (e : AEv) (hal : ∀ k ∈ s.conns, k.Aligned) :
    ∀ k ∈ (astep v s e).conns, k.Aligned := by
  cases e with
  | call req => exact hal
  | start i addr =>
    simp only [astep, ASt.start]
    split
    · split
      · rw [send_conns]; exact hal
      · exact hal
    · exact hal
  | lock i =>
    simp only [astep, ASt.lockTurn]
    split
    · split
      · split
        · split
          · exact hal
          · exact hal
        · exact hal
      · exact hal
    · exact hal
  | dialed i ok =>
    simp only [astep, ASt.dialed]
    split
    · split
      · next addr l hp =>
        split
        · have hnew : ∀ k ∈ s.conns ++ [({ addr := addr } : AConn)], k.Aligned := by
            intro k hk
            rcases List.mem_append.1 hk with h | h
            · exact hal k h
            · rw [List.mem_singleton.1 h]
              exact ⟨[], (fun _ h => absurd h List.not_mem_nil), rfl⟩
          split
          · exact hnew
          · exact hnew
        · rw [sendFailed_conns]; exact hal
      · exact hal
    · exact hal
  | drained i ok =>
    simp only [astep, ASt.drained]
    split
    · split
      · split
        · split
          · exact broken_aligned _ _ _ _ _ _ hal
          · refine modify_forall (P := AConn.Aligned) hal ?_
            exact fun k hk => hk
        · exact broken_aligned _ _ _ _ _ _ hal
      · split
        · split
          · exact hal
          · split
            · exact hal
            · exact hal
        · exact broken_aligned _ _ _ _ _ _ hal
      · exact hal
    · exact hal
  | wake i =>
    simp only [astep, ASt.wake]
    split
    · split
      · split
        · split
          · exact hal
          · exact hal
        · exact hal
      · exact hal
    · exact hal
  | cancel i =>
    simp only [astep, ASt.cancel]
    split
    · split
      · exact hal
      · split
        · rw [sendFailed_conns]; exact hal
        · exact hal
      · split
        · rw [sendFailed_conns]; exact hal
        · exact hal
      · split
        · exact broken_aligned _ _ _ _ _ _ hal
        · exact hal
      · split
        · exact broken_aligned _ _ _ _ _ _ hal
        · exact hal
      · exact hal
      · exact hal
    · exact hal
  | recv n =>
    rcases recv_cases s n hal with ⟨cs, e, h⟩ | ⟨k, p, cs, -, -, h, e⟩
    · show ∀ k ∈ (s.recv n).conns, _
      rw [e]; exact h
    · show ∀ k ∈ (s.recv n).conns, _
      rw [e, onPkg_conns]; exact h
  | data n bs =>
    refine modify_forall (P := AConn.Aligned) hal ?_
    intro k hk
    split
    · exact hk
    · unfold AConn.Aligned at hk ⊢
      dsimp only
      split at hk
      · next hp =>
        obtain ⟨us, h1, h2⟩ := hk
        exact ⟨us, h1, by rw [h2]; simp⟩
      · next hp =>
        obtain ⟨us, h1, h2⟩ := hk
        exact ⟨us, h1, by rw [h2]; simp⟩
      · next hp =>
        obtain ⟨us, hb, h1, h2, h3, h4⟩ := hk
        exact ⟨us, hb, h1, h2, h3, by rw [h4]; simp⟩
      · trivial
  | eof n => exact modify_forall (P := AConn.Aligned) hal fun _ h => h
  | reset n => exact modify_forall (P := AConn.Aligned) hal fun _ h => h

/-- the event is the processing of the package `p`, which is the next frame of a connection -/
def Receives (s : ASt) (e : AEv) (b : Bk) (p : Pkg) : Prop :=
  b = s.bk ∧ ∃ n k, e = .recv n ∧ s.conns[n]? = some k ∧ NextFrame k.recvd p

theorem nextFrame_cls {r : Bytes} {p : Pkg} (h : NextFrame r p) : p.cls = .boltResponse := by
  obtain ⟨_, _, _, _, _, _, _, -, -, -, -, -, h⟩ := h
  exact h.cls

theorem astep_bk (v : PyVer) (s : ASt) (e : AEv) (hal : ∀ k ∈ s.conns, k.Aligned) :
    BSteps (fun r => e = .call r) (Receives s e) s.bk (astep v s e).bk := by
  cases e with
  | call req => exact .one (.call s.bk req rfl)
  | start i addr => exact start_bk s i addr
  | lock i => exact lockTurn_bk s i
  | dialed i ok => exact dialed_bk s i ok
  | drained i ok => exact drained_bk s i ok
  | wake i => exact wake_bk s i
  | cancel i => exact cancel_bk v s i
  | recv n =>
    show BSteps _ _ s.bk (s.recv n).bk
    rcases recv_cases s n hal with ⟨cs, e, h⟩ | ⟨k, p, cs, hk, hn, h, e⟩
    · rw [e]; exact .refl _
    · rw [e]
      cases hr : PyDict.get? s.reqs p.requestId with
      | none => rw [onPkg_none { s with conns := cs } _ hr]; exact .refl _
      | some ev =>
        rw [onPkg_some { s with conns := cs } _ (nextFrame_cls hn) ev hr]
        exact .one (.notify s.bk p ev ⟨rfl, n, k, rfl, hk, hn⟩ hr)
  | data n bs => exact .refl _
  | eof n => exact .refl _
  | reset n => exact .refl _

theorem arun_append (v : PyVer) (evs : List AEv) (evs' : List AEv) :
    arun v (evs ++ evs') = evs'.foldl (astep v) (arun v evs) := by
  simp [arun, List.foldl_append]

theorem arun_snoc (v : PyVer) (evs : List AEv) (e : AEv) : arun v (evs ++ [e]) = astep v (arun v evs) e := by
  rw [arun_append]; rfl

/-- induction along a schedule -/
theorem snoc_induct {α : Type} {P : List α → Prop} (nil : P []) (snoc : ∀ l a, P l → P (l ++ [a])) (l : List α) : P l := by
  have : ∀ r : List α, P r.reverse := by
    intro r
    induction r with
    | nil => exact nil
    | cons a r ih => rw [List.reverse_cons]; exact snoc _ _ ih
  rw [← l.reverse_reverse]
  exact this _

theorem arun_aligned (v : PyVer) (evs : List AEv) : ∀ k ∈ (arun v evs).conns, k.Aligned := by
  induction evs using snoc_induct with
  | nil => exact fun _ h => absurd h List.not_mem_nil
  | snoc evs e ih => rw [arun_snoc]; exact astep_aligned v _ e ih

theorem arun_bk (v : PyVer) (evs : List AEv) (e : AEv) :
    BSteps (fun r => e = .call r) (Receives (arun v evs) e) (arun v evs).bk (arun v (evs ++ [e])).bk := by
  rw [arun_snoc]
  exact astep_bk v _ e (arun_aligned v evs)


/-! ### the invariant of the bookkeeping -/

/-- The calls have different ids. -/
def Bk.Distinct (b : Bk) : Prop := (b.calls.map fun c => c.req.requestId).Nodup

theorem Bk.Distinct.eq {b : Bk} (h : b.Distinct) {i j : Nat} {c d : ACall} (hi : b.calls[i]? = some c)
    (hj : b.calls[j]? = some d) (he : c.req.requestId = d.req.requestId) : i = j := by
  have hi' : (b.calls.map fun c => c.req.requestId)[i]? = some c.req.requestId := by simp [hi]
  have hj' : (b.calls.map fun c => c.req.requestId)[j]? = some d.req.requestId := by simp [hj]
  have hlt : i < (b.calls.map fun c => c.req.requestId).length := (List.getElem?_eq_some_iff.1 hi').1
  exact (List.getElem?_inj hlt h).1 (by rw [hi', hj', he])

/-- what holds of a call -/
structure CallOk (D : Nat → Pkg → Prop) (b : Bk) (i : Nat) (c : ACall) : Prop where
  new : c.pc = .new → c.set = false ∧ PyDict.get? b.reqs c.req.requestId = none
  pending : c.pc.sending = true ∨ c.pc = .waiting i → c.set = false → PyDict.get? b.reqs c.req.requestId = some i
  own : ∀ ev, c.pc = .waiting ev → ev = i
  delivered : ∀ p, c.pc = .done (.resp p) → D i p ∧ p.requestId = c.req.requestId ∧ c.set = true
  quiet : c.pc = .done .none → c.set = false

structure BInv (D : Nat → Pkg → Prop) (b : Bk) : Prop where
  nodupReqs : PyDict.NodupKeys b.reqs
  nodupResps : PyDict.NodupKeys b.resps
  reqs : ∀ id ev, PyDict.get? b.reqs id = some ev → ∃ c, b.calls[ev]? = some c ∧ c.req.requestId = id ∧ c.set = false ∧
    c.pc ≠ .new ∧ ∀ r, c.pc = .done r → r = .raised .cancelledError
  resps : ∀ id p, PyDict.get? b.resps id = some p → ∃ i c, b.calls[i]? = some c ∧ c.req.requestId = id ∧ c.set = true ∧
    c.pc ≠ .new ∧ p.requestId = id ∧ D i p ∧ ∀ r, c.pc = .done r → r = .raised .cancelledError ∨ r = .raised .keyError
  calls : ∀ i c, b.calls[i]? = some c → CallOk D b i c


theorem modify_get {α : Type} (l : List α) (i j : Nat) (f : α → α) (y : α) (h : (l.modify i f)[j]? = some y) :
    (i = j ∧ ∃ x, l[j]? = some x ∧ y = f x) ∨ (i ≠ j ∧ l[j]? = some y) := by
  rw [List.getElem?_modify] at h
  cases hl : l[j]? with
  | none => rw [hl] at h; simp at h
  | some x =>
    rw [hl] at h
    simp only [Option.map_eq_map, Option.map_some, Option.some.injEq] at h
    by_cases e : i = j
    · rw [if_pos e] at h; exact .inl ⟨e, x, rfl, h.symm⟩
    · rw [if_neg e] at h; exact .inr ⟨e, by rw [h]⟩

theorem modify_self {α : Type} {l : List α} {i : Nat} {f : α → α} {x : α} (h : l[i]? = some x) :
    (l.modify i f)[i]? = some (f x) := by
  rw [List.getElem?_modify, h]; simp

theorem modify_other {α : Type} {l : List α} {i j : Nat} {f : α → α} (h : i ≠ j) :
    (l.modify i f)[j]? = l[j]? := by
  rw [List.getElem?_modify]; simp [h]

/-- a step of one call -/
theorem BInv.upd {D : Nat → Pkg → Prop} {b : Bk} (h : BInv D b) (hd : b.Distinct) (i : Nat) (c : ACall)
    (hc : b.calls[i]? = some c) (pc : CallPc) (reqs' : PyDict PyObj Nat) (resps' : PyDict PyObj Pkg)
    (n1 : PyDict.NodupKeys reqs') (n2 : PyDict.NodupKeys resps')
    (off : ∀ id, id ≠ c.req.requestId → PyDict.get? reqs' id = PyDict.get? b.reqs id)
    (on : ∀ ev, PyDict.get? reqs' c.req.requestId = some ev → ev = i ∧ c.set = false ∧ pc ≠ .new ∧
      ∀ r, pc = .done r → r = .raised .cancelledError)
    (roff : ∀ id, id ≠ c.req.requestId → PyDict.get? resps' id = PyDict.get? b.resps id)
    (ron : ∀ p, PyDict.get? resps' c.req.requestId = some p → PyDict.get? b.resps c.req.requestId = some p ∧ pc ≠ .new ∧
      ∀ r, pc = .done r → r = .raised .cancelledError ∨ r = .raised .keyError)
    (own : CallOk D ⟨reqs', resps', b.calls.modify i fun c => { c with pc := pc }⟩ i { c with pc := pc }) :
    BInv D ⟨reqs', resps', b.calls.modify i fun c => { c with pc := pc }⟩ := by
  refine ⟨n1, n2, ?_, ?_, ?_⟩
  · intro id ev hg
    by_cases e : id = c.req.requestId
    · subst e
      obtain ⟨rfl, h1, h2, h3⟩ := on ev hg
      exact ⟨_, modify_self hc, rfl, h1, h2, h3⟩
    · have hg' : PyDict.get? reqs' id = some ev := hg
      rw [off id e] at hg'
      obtain ⟨d, h1, h2, h3⟩ := h.reqs id ev hg'
      have : i ≠ ev := by
        rintro rfl
        rw [hc] at h1
        cases h1
        exact e h2.symm
      exact ⟨d, by rw [modify_other this]; exact h1, h2, h3⟩
  · intro id p hg
    by_cases e : id = c.req.requestId
    · subst e
      obtain ⟨h1, h2, h3⟩ := ron p hg
      obtain ⟨j, d, k1, k2, k3, k4, k5, k6, k7⟩ := h.resps _ _ h1
      have := hd.eq k1 hc k2
      subst this
      rw [hc] at k1
      cases k1
      exact ⟨j, _, modify_self hc, rfl, k3, h2, k5, k6, h3⟩
    · have hg' : PyDict.get? resps' id = some p := hg
      rw [roff id e] at hg'
      obtain ⟨j, d, k1, k2, k3⟩ := h.resps id p hg'
      have : i ≠ j := by
        rintro rfl
        rw [hc] at k1
        cases k1
        exact e k2.symm
      exact ⟨j, d, by rw [modify_other this]; exact k1, k2, k3⟩
  · intro j d hj
    rcases modify_get _ _ _ _ _ hj with ⟨rfl, x, hx, rfl⟩ | ⟨hne, hj⟩
    · rw [hc] at hx
      cases hx
      exact own
    · have hne' : d.req.requestId ≠ c.req.requestId := fun e => hne (hd.eq hc hj e.symm)
      have hk := h.calls j d hj
      refine ⟨?_, ?_, hk.own, hk.delivered, hk.quiet⟩
      · intro e
        exact ⟨(hk.new e).1, by show PyDict.get? reqs' _ = none; rw [off _ hne']; exact (hk.new e).2⟩
      · intro e e'
        show PyDict.get? reqs' _ = some j
        rw [off _ hne']
        exact hk.pending e e'

theorem sending_cases {pc : CallPc} (h : pc.sending = true) :
    pc ≠ .new ∧ (∀ r, pc ≠ .done r) ∧ ∀ ev, pc ≠ .waiting ev := by
  cases pc <;> simp_all [CallPc.sending]

/-- the calls are never replaced -/
theorem BStep.distinct {mk : Pkg → Prop} {ok : Bk → Pkg → Prop} {a b : Bk} (h : BStep mk ok a b) (hd : b.Distinct) : a.Distinct := by
  have key : ∀ (l : List ACall) (i : Nat) (f : ACall → ACall), (∀ c, (f c).req = c.req) →
      (l.modify i f).map (fun c => c.req.requestId) = l.map fun c => c.req.requestId := by
    intro l i f hf
    apply List.ext_getElem?
    intro j
    rw [List.getElem?_map, List.getElem?_map, List.getElem?_modify]
    cases l[j]? with
    | none => rfl
    | some x =>
      simp only [Option.map_eq_map, Option.map_some, Option.some.injEq]
      split
      · rw [hf]
      · rfl
  unfold Bk.Distinct at *
  cases h with
  | call req hm =>
    dsimp only at hd
    rw [List.map_append] at hd
    exact (List.nodup_append.1 hd).1
  | notify p ev hp hr =>
    dsimp only at hd
    rw [key _ _ _ (by intro c; rfl)] at hd
    exact hd
  | _ =>
    simp only [Bk.setPc] at hd
    rw [key _ _ _ (by intro c; rfl)] at hd
    exact hd

theorem contains_get {K V : Type} [DecidableEq K] {d : PyDict K V} {k : K} (h : PyDict.contains d k = true) :
    ∃ v, PyDict.get? d k = some v := Option.isSome_iff_exists.1 h

theorem BInv.step {D : Nat → Pkg → Prop} {mk : Pkg → Prop} {ok : Bk → Pkg → Prop} {a b : Bk} (hs : BStep mk ok a b) (hd : b.Distinct)
    (hok : ∀ p ev c, ok a p → p.good → a.calls[ev]? = some c → c.req.requestId = p.requestId → c.pc ≠ .new →
      c.set = false → D ev p)
    (h : BInv D a) : BInv D b := by
  have hda := hs.distinct hd
  -- an entry for a call that is sending is its own
  have mine : ∀ i c ev, a.calls[i]? = some c → PyDict.get? a.reqs c.req.requestId = some ev → ev = i ∧ c.set = false := by
    intro i c ev hc hg
    obtain ⟨d, h1, h2, h3, -⟩ := h.reqs _ _ hg
    have := hda.eq h1 hc h2
    subst this
    rw [hc] at h1
    cases h1
    exact ⟨rfl, h3⟩
  -- a response for a call means that its event is set
  have isset : ∀ i c p, a.calls[i]? = some c → PyDict.get? a.resps c.req.requestId = some p → c.set = true ∧ D i p ∧
      p.requestId = c.req.requestId ∧ c.pc ≠ .new := by
    intro i c p hc hg
    obtain ⟨j, d, h1, h2, h3, h4, h5, h6, -⟩ := h.resps _ _ hg
    have := hda.eq h1 hc h2
    subst this
    rw [hc] at h1
    cases h1
    exact ⟨h3, h6, h5, h4⟩
  cases hs with
  | call req hm =>
    refine ⟨h.nodupReqs, h.nodupResps, ?_, ?_, ?_⟩
    · intro id ev hg
      obtain ⟨c, h1, h2⟩ := h.reqs id ev hg
      exact ⟨c, by rw [List.getElem?_append_left (List.getElem?_eq_some_iff.1 h1).1]; exact h1, h2⟩
    · intro id p hg
      obtain ⟨i, c, h1, h2⟩ := h.resps id p hg
      exact ⟨i, c, by rw [List.getElem?_append_left (List.getElem?_eq_some_iff.1 h1).1]; exact h1, h2⟩
    · intro i c hi
      by_cases hlt : i < a.calls.length
      · have hi' : a.calls[i]? = some c := by
          rw [← List.getElem?_append_left (l₂ := [({ req := req } : ACall)]) hlt]; exact hi
        have hk := h.calls i c hi'
        exact ⟨hk.new, hk.pending, hk.own, hk.delivered, hk.quiet⟩
      · have hlt : a.calls.length ≤ i := by omega
        have hi' : [({ req := req } : ACall)][i - a.calls.length]? = some c := by
          rw [← List.getElem?_append_right hlt]; exact hi
        obtain ⟨e1, e2⟩ := List.getElem?_eq_some_iff.1 hi'
        have e3 : i - a.calls.length = 0 := by simpa using e1
        simp only [e3, List.getElem_cons_zero] at e2
        subst e2
        refine ⟨?_, ?_, ?_, ?_, ?_⟩
        · intro _
          refine ⟨rfl, ?_⟩
          show PyDict.get? a.reqs req.requestId = none
          cases hg : PyDict.get? a.reqs req.requestId with
          | none => rfl
          | some ev =>
            obtain ⟨d, h1, h2, -⟩ := h.reqs _ _ hg
            have hev : ev < a.calls.length := (List.getElem?_eq_some_iff.1 h1).1
            have := hd.eq (i := ev) (j := i) (c := d) (d := { req := req })
              (by rw [List.getElem?_append_left hev]; exact h1) hi h2
            omega
        · rintro (e | e)
          · cases e
          · cases e
        · intro ev e; cases e
        · intro p e; cases e
        · intro e; cases e
  | start i c pc hc hn hp =>
    have ⟨p1, p2, p3⟩ := sending_cases hp
    have hk := h.calls i c hc
    refine h.upd hda i c hc pc _ _ (PyDict.nodup_set h.nodupReqs _ _) h.nodupResps ?_ ?_ ?_ ?_ ?_
    · intro id hne
      rw [PyDict.get?_set, if_neg (fun e => hne e.symm)]
    · intro ev hg
      rw [PyDict.get?_set, if_pos rfl] at hg
      exact ⟨(Option.some.inj hg).symm, (hk.new hn).1, p1, fun r e => absurd e (p2 r)⟩
    · intro id _; rfl
    · intro p hg
      exact absurd hn (isset i c p hc hg).2.2.2
    · refine ⟨fun e => absurd e p1, ?_, fun ev e => absurd e (p3 ev), fun p e => absurd e (p2 _), fun e => absurd e (p2 _)⟩
      intro _ _
      show PyDict.get? (PyDict.set _ _ _) c.req.requestId = some i
      rw [PyDict.get?_set, if_pos rfl]
  | move i c pc hc hn hp =>
    have ⟨p1, p2, p3⟩ := sending_cases hp
    have hk := h.calls i c hc
    refine h.upd hda i c hc pc _ _ h.nodupReqs h.nodupResps (fun _ _ => rfl) ?_ (fun _ _ => rfl) ?_ ?_
    · intro ev hg
      obtain ⟨rfl, h2⟩ := mine i c ev hc hg
      exact ⟨rfl, h2, p1, fun r e => absurd e (p2 r)⟩
    · intro p hg
      exact ⟨hg, p1, fun r e => absurd e (p2 r)⟩
    · refine ⟨fun e => absurd e p1, ?_, fun ev e => absurd e (p3 ev), fun p e => absurd e (p2 _), fun e => absurd e (p2 _)⟩
      intro _ hs
      exact hk.pending (.inl hn) hs
  | fail i c hc hn hr =>
    have hk := h.calls i c hc
    obtain ⟨ev, hg⟩ := contains_get hr
    obtain ⟨rfl, hset⟩ := mine i c ev hc hg
    refine h.upd hda ev c hc _ _ _ (PyDict.nodup_erase h.nodupReqs _) h.nodupResps ?_ ?_ (fun _ _ => rfl) ?_ ?_
    · intro id hne
      rw [PyDict.get?_erase h.nodupReqs, if_neg (fun e => hne e.symm)]
    · intro ev hg
      rw [PyDict.get?_erase h.nodupReqs, if_pos rfl] at hg
      cases hg
    · intro p hg
      have := (isset ev c p hc hg).1
      rw [hset] at this
      cases this
    · refine ⟨(by intro e; cases e), ?_, (by intro ev e; cases e), (by intro p e; cases e), fun _ => hset⟩
      rintro (e | e)
      · cases e
      · cases e
  | gone i c hc hn hr =>
    refine h.upd hda i c hc _ _ _ h.nodupReqs h.nodupResps (fun _ _ => rfl) ?_ (fun _ _ => rfl) ?_ ?_
    · intro ev hg
      rw [hr] at hg
      cases hg
    · intro p hg
      exact ⟨hg, (by intro e; cases e), fun r e => by cases e; exact .inr rfl⟩
    · refine ⟨(by intro e; cases e), ?_, (by intro ev e; cases e), (by intro p e; cases e), (by intro e; cases e)⟩
      rintro (e | e)
      · cases e
      · cases e
  | wait i c ev hc hn hr =>
    obtain ⟨rfl, hset⟩ := mine i c ev hc hr
    refine h.upd hda ev c hc _ _ _ h.nodupReqs h.nodupResps (fun _ _ => rfl) ?_ (fun _ _ => rfl) ?_ ?_
    · intro ev' hg
      rw [hr] at hg
      cases hg
      exact ⟨rfl, hset, (by intro e; cases e), fun r e => by cases e⟩
    · intro p hg
      exact ⟨hg, (by intro e; cases e), fun r e => by cases e⟩
    · refine ⟨(by intro e; cases e), fun _ _ => hr, ?_, (by intro p e; cases e), (by intro e; cases e)⟩
      intro ev' e
      cases e
      rfl
  | deliver i c ev p hc hn hs hr =>
    have hk := h.calls i c hc
    obtain ⟨k1, k2, k3, k4⟩ := isset i c p hc hr
    refine h.upd hda i c hc _ _ _ h.nodupReqs (PyDict.nodup_erase h.nodupResps _) (fun _ _ => rfl) ?_ ?_ ?_ ?_
    · intro ev' hg
      have := (mine i c ev' hc hg).2
      rw [k1] at this
      cases this
    · intro id hne
      rw [PyDict.get?_erase h.nodupResps, if_neg (fun e => hne e.symm)]
    · intro p' hg
      rw [PyDict.get?_erase h.nodupResps, if_pos rfl] at hg
      cases hg
    · refine ⟨(by intro e; cases e), ?_, (by intro ev e; cases e), ?_, (by intro e; cases e)⟩
      · rintro (e | e)
        · cases e
        · cases e
      · intro p' e
        cases e
        exact ⟨k2, k3, k1⟩
  | missing i c ev hc hn hs hr =>
    have hk := h.calls i c hc
    have := hk.own ev hn
    subst this
    rw [hc] at hs
    have hset : c.set = true := by simpa using hs
    refine h.upd hda ev c hc _ _ _ h.nodupReqs h.nodupResps (fun _ _ => rfl) ?_ (fun _ _ => rfl) ?_ ?_
    · intro ev' hg
      have := (mine ev c ev' hc hg).2
      rw [hset] at this
      cases this
    · intro p hg
      rw [hr] at hg
      cases hg
    · refine ⟨(by intro e; cases e), ?_, (by intro ev e; cases e), (by intro p e; cases e), (by intro e; cases e)⟩
      rintro (e | e)
      · cases e
      · cases e
  | cancel i c hc hn =>
    have hk := h.calls i c hc
    refine h.upd hda i c hc _ _ _ h.nodupReqs h.nodupResps (fun _ _ => rfl) ?_ (fun _ _ => rfl) ?_ ?_
    · intro ev hg
      obtain ⟨rfl, h2⟩ := mine i c ev hc hg
      exact ⟨rfl, h2, (by intro e; cases e), fun r e => by cases e; rfl⟩
    · intro p hg
      exact ⟨hg, (by intro e; cases e), fun r e => by cases e; exact .inl rfl⟩
    · refine ⟨(by intro e; cases e), ?_, (by intro ev e; cases e), (by intro p e; cases e), (by intro e; cases e)⟩
      rintro (e | e)
      · cases e
      · cases e
  | notify p ev hp hr =>
    obtain ⟨c, hc, hid, hset, hnew, hdone⟩ := h.reqs _ _ hr
    -- nothing is stored for it yet
    have hnone : PyDict.get? a.resps p.requestId = none := by
      cases hg : PyDict.get? a.resps p.requestId with
      | none => rfl
      | some p' =>
        rw [← hid] at hg
        have := (isset ev c p' hc hg).1
        rw [hset] at this
        cases this
    have roff : ∀ id, id ≠ p.requestId →
        PyDict.get? (if p.good then PyDict.set a.resps p.requestId p else a.resps) id = PyDict.get? a.resps id := by
      intro id hne
      split
      · rw [PyDict.get?_set, if_neg (fun e => hne e.symm)]
      · rfl
    refine ⟨PyDict.nodup_erase h.nodupReqs _, ?_, ?_, ?_, ?_⟩
    · dsimp only
      split
      · exact PyDict.nodup_set h.nodupResps _ _
      · exact h.nodupResps
    · intro id ev' hg
      dsimp only at hg
      rw [PyDict.get?_erase h.nodupReqs] at hg
      split at hg
      · cases hg
      · next hne =>
        obtain ⟨d, h1, h2, h3⟩ := h.reqs id ev' hg
        have : ev ≠ ev' := by
          rintro rfl
          rw [hc] at h1
          cases h1
          exact hne (hid.symm.trans h2)
        exact ⟨d, by rw [modify_other this]; exact h1, h2, h3⟩
    · intro id p' hg
      dsimp only at hg
      by_cases hne : id = p.requestId
      · subst hne
        split at hg
        · next hgood =>
          rw [PyDict.get?_set, if_pos rfl] at hg
          cases hg
          refine ⟨ev, _, modify_self hc, hid, rfl, hnew, rfl, hok p ev c hp hgood hc hid hnew hset, ?_⟩
          intro r e
          exact .inl (hdone r e)
        · rw [hnone] at hg
          cases hg
      · rw [roff id hne] at hg
        obtain ⟨j, d, h1, h2, h3⟩ := h.resps id p' hg
        have : ev ≠ j := by
          rintro rfl
          rw [hc] at h1
          cases h1
          exact hne (h2.symm.trans hid)
        exact ⟨j, d, by rw [modify_other this]; exact h1, h2, h3⟩
    · intro j d hj
      rcases modify_get _ _ _ _ _ hj with ⟨rfl, x, hx, rfl⟩ | ⟨hne, hj⟩
      · rw [hc] at hx
        cases hx
        have hk := h.calls ev c hc
        refine ⟨fun e => absurd e hnew, (by intro _ e; cases e), hk.own, ?_, ?_⟩
        · intro p' e
          exact absurd (hdone _ e) (by intro e; cases e)
        · intro e
          exact absurd (hdone _ e) (by intro e; cases e)
      · have hk := h.calls j d hj
        have hne' : p.requestId ≠ d.req.requestId := fun e => hne (hda.eq hc hj (hid.trans e))
        refine ⟨?_, ?_, hk.own, hk.delivered, hk.quiet⟩
        · intro e
          refine ⟨(hk.new e).1, ?_⟩
          dsimp only
          rw [PyDict.get?_erase h.nodupReqs, if_neg hne']
          exact (hk.new e).2
        · intro e e'
          dsimp only
          rw [PyDict.get?_erase h.nodupReqs, if_neg hne']
          exact hk.pending e e'

theorem BSteps.distinct {mk : Pkg → Prop} {ok : Bk → Pkg → Prop} {a b : Bk} (h : BSteps mk ok a b) (hd : b.Distinct) : a.Distinct := by
  induction h with
  | refl => exact hd
  | snoc _ h2 ih => exact ih (h2.distinct hd)

theorem BInv.steps {D : Nat → Pkg → Prop} {mk : Pkg → Prop} {ok : Bk → Pkg → Prop} {a b : Bk} (hs : BSteps mk ok a b) (hd : b.Distinct)
    (hok : ∀ x p ev c, ok x p → p.good → x.calls[ev]? = some c → c.req.requestId = p.requestId → c.pc ≠ .new →
      c.set = false → D ev p)
    (h : BInv D a) : BInv D b := by
  induction hs with
  | refl => exact h
  | snoc h1 h2 ih => exact (ih (h2.distinct hd)).step h2 hd (hok _)

theorem BInv.mono {D D' : Nat → Pkg → Prop} (hD : ∀ i p, D i p → D' i p) {b : Bk} (h : BInv D b) : BInv D' b := by
  refine ⟨h.nodupReqs, h.nodupResps, h.reqs, ?_, ?_⟩
  · intro id p hg
    obtain ⟨i, c, h1, h2, h3, h4, h5, h6, h7⟩ := h.resps id p hg
    exact ⟨i, c, h1, h2, h3, h4, h5, hD _ _ h6, h7⟩
  · intro i c hc
    have hk := h.calls i c hc
    exact ⟨hk.new, hk.pending, hk.own, fun p e => ⟨hD _ _ (hk.delivered p e).1, (hk.delivered p e).2⟩, hk.quiet⟩

/-! ### the requests of a schedule -/

/-- the requests of the calls made, in order -/
def Spec.requests : List AEv → List Pkg
  | [] => []
  | .call req :: evs => req :: Spec.requests evs
  | _ :: evs => Spec.requests evs

theorem Spec.requests_append (a b : List AEv) : requests (a ++ b) = requests a ++ requests b := by
  induction a with
  | nil => rfl
  | cons e a ih => cases e <;> simp [requests, ih]


theorem BStep.reqs_eq {mk : Pkg → Prop} {ok : Bk → Pkg → Prop} {a b : Bk} (h : BStep mk ok a b) (hm : ∀ r, ¬ mk r) :
    b.calls.map ACall.req = a.calls.map ACall.req := by
  have key : ∀ (l : List ACall) (i : Nat) (f : ACall → ACall), (∀ c, (f c).req = c.req) →
      (l.modify i f).map ACall.req = l.map ACall.req := by
    intro l i f hf
    apply List.ext_getElem?
    intro j
    rw [List.getElem?_map, List.getElem?_map, List.getElem?_modify]
    cases l[j]? with
    | none => rfl
    | some x =>
      simp only [Option.map_eq_map, Option.map_some, Option.some.injEq]
      split
      · rw [hf]
      · rfl
  cases h with
  | call req h => exact absurd h (hm _)
  | notify p ev hp hr => exact key _ _ _ (by intro c; rfl)
  | _ =>
    simp only [Bk.setPc]
    exact key _ _ _ (by intro c; rfl)

theorem BSteps.reqs_eq {mk : Pkg → Prop} {ok : Bk → Pkg → Prop} {a b : Bk} (h : BSteps mk ok a b) (hm : ∀ r, ¬ mk r) :
    b.calls.map ACall.req = a.calls.map ACall.req := by
  induction h with
  | refl => rfl
  | snoc _ h2 ih => rw [h2.reqs_eq hm, ih]

theorem arun_requests (v : PyVer) (evs : List AEv) : (arun v evs).calls.map ACall.req = requests evs := by
  induction evs using snoc_induct with
  | nil => rfl
  | snoc evs e ih =>
    rw [requests_append]
    by_cases he : ∃ r, e = .call r
    · obtain ⟨r, rfl⟩ := he
      rw [arun_snoc]
      simp [astep, ih, requests]
    · have : requests [e] = [] := by
        cases e with
        | call r => exact absurd ⟨r, rfl⟩ he
        | _ => rfl
      rw [this, List.append_nil, ← ih]
      exact (arun_bk v evs e).reqs_eq fun r hr => he ⟨r, hr⟩

/-- the ids of the requests of a schedule are different -/
def Spec.DistinctIds (evs : List AEv) : Prop := ((requests evs).map Pkg.requestId).Nodup

instance (evs : List AEv) : Decidable (DistinctIds evs) := by unfold DistinctIds; infer_instance

theorem distinct_of {v : PyVer} {evs : List AEv} (h : DistinctIds evs) : (arun v evs).bk.Distinct := by
  unfold Bk.Distinct
  have : ((arun v evs).calls.map fun c => c.req.requestId) = ((arun v evs).calls.map ACall.req).map Pkg.requestId := by
    rw [List.map_map]; rfl
  show ((arun v evs).calls.map fun c => c.req.requestId).Nodup
  rw [this, arun_requests]
  exact h

theorem Spec.DistinctIds.prefix {a b : List AEv} (h : DistinctIds (a ++ b)) : DistinctIds a := by
  unfold DistinctIds at *
  rw [requests_append, List.map_append] at h
  exact (List.nodup_append.1 h).1

/-- `p` is a successful answer, received when the call `i` had started and its event was not yet set -/
def Answered (v : PyVer) (evs : List AEv) (i : Nat) (p : Pkg) : Prop :=
  ∃ (pre post : List AEv) (n : Nat) (k : AConn) (c : ACall), evs = pre ++ .recv n :: post ∧
    (arun v pre).conns[n]? = some k ∧ NextFrame k.recvd p ∧ p.good ∧ (arun v pre).calls[i]? = some c ∧
    c.req.requestId = p.requestId ∧ c.pc ≠ .new ∧ c.set = false

theorem arun_inv (v : PyVer) (evs : List AEv) (h : DistinctIds evs) : BInv (Answered v evs) (arun v evs).bk := by
  induction evs using snoc_induct with
  | nil =>
    refine ⟨List.nodup_nil, List.nodup_nil, ?_, ?_, ?_⟩
    · intro id ev e; cases e
    · intro id p e; cases e
    · intro i c e; cases e
  | snoc evs e ih =>
    refine BInv.steps (arun_bk v evs e) (distinct_of h) ?_ ((ih h.prefix).mono ?_)
    · rintro x p ev c ⟨rfl, n, k, rfl, hk, hn⟩ hg hc hid hnew hset
      exact ⟨evs, [], n, k, c, rfl, hk, hn, hg, hc, hid, hnew, hset⟩
    · rintro i p ⟨pre, post, n, k, c, rfl, rest⟩
      exact ⟨pre, post ++ [e], n, k, c, by simp, rest⟩

end Bolt
