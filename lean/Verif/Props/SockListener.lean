import Verif.Props.ListenerCalls
import Verif.Model.SockListener
/-!
# C83–C85: the threaded listener
-/
namespace Bolt
open Spec

namespace Spec

/-- the bytes a schedule delivers -/
def sreceived : List SEv → Bytes
  | [] => []
  | .data bs :: evs => bs ++ sreceived evs
  | .eof :: _ => []
  | _ :: evs => sreceived evs

/-- the registrations in a schedule -/
def sregistrations (evs : List SEv) : List Registration :=
  evs.filterMap fun
    | .register r => some r
    | _ => none

/-- A call that this request asks for, given what has been registered by some moment of the schedule. -/
structure CallFor (svc : Services) (reg : Registry) (evs : List SEv) (q : AnyFrame) (c : SCall) : Prop where
  body : c.body = q.content
  context : ∃ h0 fresh, extract h0 fresh q.header = .ok (c.heap, c.ctx)
  method : ∃ (s m : PyStr) (pre : List SEv), pre <+: evs ∧ serviceName q.header = some s ∧ methodName q.header = some m ∧
    c.reg = (sregistrations pre).foldl registerInterface reg ∧ lookup svc c.reg c.heap c.ctx s m = .found c.func

/-- the message for a result -/
def resultReply (id : Int) : Outcome → List Bytes
  | .ret (.bytes c) => if c.length < 4294967296 then [reply id 0 c] else []
  | _ => []

/-- What `handle` has done with a complete frame when it ends: -/
inductive Handled (svc : Services) (reg : Registry) (evs : List SEv) (q : AnyFrame) :
    List SCall → Option Outcome → List Bytes → Prop
  | heartbeat (h : q.f.cmdcode = 0) : Handled svc reg evs q [] none [heartbeatAck q.f.requestId]
  | rejected (h : q.Refused) : Handled svc reg evs q [] none []
  | noName (h : ¬ q.Refused) (hc : q.f.cmdcode ≠ 0) (hn : serviceName q.header = none ∨ methodName q.header = none) :
      Handled svc reg evs q [] none [reply q.f.requestId 8 []]
  | badContext (h : ¬ q.Refused) (hc : q.f.cmdcode ≠ 0) (e : PyExc) (h0 : Heap) (fresh : PyStr)
      (he : extract h0 fresh q.header = .error e) : Handled svc reg evs q [] none []
  | notFound (h : ¬ q.Refused) (hc : q.f.cmdcode ≠ 0) (s m : PyStr) (pre : List SEv) (h0 h1 : Heap) (fresh : PyStr)
      (ctx : Baggage) (st : RespStatus) (hs : serviceName q.header = some s) (hm : methodName q.header = some m)
      (hp : pre <+: evs) (he : extract h0 fresh q.header = .ok (h1, ctx))
      (hl : lookup svc ((sregistrations pre).foldl registerInterface reg) h1 ctx s m = .refused st) :
      Handled svc reg evs q [] none []
  | called (h : ¬ q.Refused) (hc : q.f.cmdcode ≠ 0) (c : SCall) (o : Outcome) (hcall : CallFor svc reg evs q c) :
      Handled svc reg evs q [c] (some o) (resultReply q.f.requestId o)

end Spec

/-! ### preliminaries -/

theorem srun_append (svc : Services) (reg : Registry) (evs evs' : List SEv) :
    srun svc reg (evs ++ evs') = evs'.foldl (sstep svc) (srun svc reg evs) := by
  unfold srun; rw [List.foldl_append]

theorem srun_induct (svc : Services) (reg : Registry) (P : List SEv → SSt → Prop) (h0 : P [] { reg := reg })
    (hs : ∀ pre e, P pre (srun svc reg pre) → P (pre ++ [e]) (sstep svc (srun svc reg pre) e)) (evs : List SEv) :
    P evs (srun svc reg evs) := by
  suffices ∀ evs pre, P pre (srun svc reg pre) → P (pre ++ evs) (srun svc reg (pre ++ evs)) by
    simpa using this evs [] h0
  intro evs
  induction evs with
  | nil => intro pre h; simpa using h
  | cons e evs ih =>
    intro pre h
    have h1 := hs pre e h
    have e1 : sstep svc (srun svc reg pre) e = srun svc reg (pre ++ [e]) := by rw [srun_append]; rfl
    rw [e1] at h1
    simpa [List.append_assoc] using ih _ h1

theorem sregistrations_append (a b : List SEv) : sregistrations (a ++ b) = sregistrations a ++ sregistrations b :=
  List.filterMap_append ..

/-- what neither the handler nor the end of the call changes -/
structure SameEnv (s s' : SSt) : Prop where
  recvd : s'.recvd = s.recvd
  eof : s'.eof = s.eof
  reset : s'.reset = s.reset
  reg : s'.reg = s.reg

theorem send_env (s : SSt) (m : Except PyExc Bytes) : SameEnv s (s.send m) := by
  unfold SSt.send
  split
  · split <;> exact ⟨rfl, rfl, rfl, rfl⟩
  · exact ⟨rfl, rfl, rfl, rfl⟩

theorem serve_env (svc : Services) (s : SSt) (fresh : PyStr) (h : ReqHdr) (cn : Bytes) (d : PyDict PyStr PyStr)
    (b : Bytes) : SameEnv s (s.serve svc fresh h cn d b) := by
  unfold SSt.serve
  split
  · exact send_env _ _
  · split
    · exact ⟨rfl, rfl, rfl, rfl⟩
    · split
      · exact ⟨rfl, rfl, rfl, rfl⟩
      · split
        · exact send_env _ _
        · split
          · exact send_env _ _
          · split
            · exact ⟨rfl, rfl, rfl, rfl⟩
            · dsimp only
              split <;> exact ⟨rfl, rfl, rfl, rfl⟩

theorem readexactly_env (s : SSt) (n : Nat) (k : SSt → Bytes → SSt) (hk : ∀ t b, SameEnv t (k t b)) :
    SameEnv s (s.readexactly n k) := by
  unfold SSt.readexactly
  split
  · split
    · exact ⟨rfl, rfl, rfl, rfl⟩
    · dsimp only
      split
      · split
        · exact ⟨rfl, rfl, rfl, rfl⟩
        · obtain ⟨h1, h2, h3, h4⟩ := hk { s with acc := [], buf := s.buf.drop (n - s.acc.length) }
            (s.acc ++ s.buf.take (n - s.acc.length))
          exact ⟨h1, h2, h3, h4⟩
      · exact ⟨rfl, rfl, rfl, rfl⟩
  · obtain ⟨h1, h2, h3, h4⟩ := hk { s with acc := [] } s.acc
    exact ⟨h1, h2, h3, h4⟩

theorem handler_env (svc : Services) (s : SSt) (fresh : PyStr) : SameEnv s (s.handler svc fresh) := by
  unfold SSt.handler
  split
  · apply readexactly_env
    intro t b
    split <;> exact ⟨rfl, rfl, rfl, rfl⟩
  · apply readexactly_env
    intro t b
    exact ⟨rfl, rfl, rfl, rfl⟩
  · apply readexactly_env
    intro t b
    split <;> exact ⟨rfl, rfl, rfl, rfl⟩
  · apply readexactly_env
    intro t b
    exact serve_env ..
  · exact ⟨rfl, rfl, rfl, rfl⟩
  · exact ⟨rfl, rfl, rfl, rfl⟩

theorem finishEv_env (svc : Services) (s : SSt) (o : Outcome) : SameEnv s (sstep svc s (.finish o)) := by
  simp only [sstep]
  split
  · split
    · exact ⟨rfl, rfl, rfl, rfl⟩
    · obtain ⟨h1, h2, h3, h4⟩ := send_env { s with result := some _ } (resultMsg _ _)
      exact ⟨h1, h2, h3, h4⟩
  · exact ⟨rfl, rfl, rfl, rfl⟩

/-- bytes, resets and registrations are the schedule's -/
theorem srun_env (svc : Services) (reg : Registry) (evs : List SEv) :
    (srun svc reg evs).recvd = sreceived evs ∧ (srun svc reg evs).eof = evs.contains .eof ∧
    (srun svc reg evs).reset = evs.contains .reset ∧
    (srun svc reg evs).reg = (sregistrations evs).foldl registerInterface reg := by
  unfold srun
  suffices ∀ s : SSt, (evs.foldl (sstep svc) s).recvd = s.recvd ++ (if s.eof then [] else sreceived evs) ∧
      (evs.foldl (sstep svc) s).eof = (s.eof || evs.contains .eof) ∧
      (evs.foldl (sstep svc) s).reset = (s.reset || evs.contains .reset) ∧
      (evs.foldl (sstep svc) s).reg = (sregistrations evs).foldl registerInterface s.reg by
    simpa using this { reg := reg }
  induction evs with
  | nil => intro s; simp [sreceived, sregistrations]
  | cons e evs ih =>
    intro s
    rw [List.foldl_cons]
    obtain ⟨h1, h2, h3, h4⟩ := ih (sstep svc s e)
    rw [h1, h2, h3, h4]
    clear h1 h2 h3 h4 ih
    cases e with
    | data bs =>
      have er : sregistrations (.data bs :: evs) = sregistrations evs := rfl
      rw [er]
      by_cases he : s.eof = true
      · have : sstep svc s (.data bs) = s := by simp [sstep, he]
        rw [this]; simp [he]
      · simp [sstep, he, sreceived]
    | eof => simp [sstep, sreceived]; rfl
    | reset => exact ⟨rfl, by simp [sstep], by simp [sstep], rfl⟩
    | handler fresh =>
      obtain ⟨f1, f2, f3, f4⟩ := handler_env svc s fresh
      have er : sreceived (.handler fresh :: evs) = sreceived evs := rfl
      have er2 : sregistrations (.handler fresh :: evs) = sregistrations evs := rfl
      simp only [sstep, f1, f2, f3, f4, er, er2]
      simp
    | finish o =>
      obtain ⟨f1, f2, f3, f4⟩ := finishEv_env svc s o
      have er : sreceived (.finish o :: evs) = sreceived evs := rfl
      have er2 : sregistrations (.finish o :: evs) = sregistrations evs := rfl
      simp only [f1, f2, f3, f4, er, er2]
      simp
    | register r => exact ⟨rfl, by simp [sstep], by simp [sstep], rfl⟩

/-! ### the invariant -/

/-- the header of a frame -/
def hdrOfFrame (q : AnyFrame) : ReqHdr :=
  ⟨q.f.ptype, q.f.cmdcode, q.f.requestId, q.f.seventh, q.cls.length, q.hdr.length, q.content.length⟩

/-- the fixed part of a frame -/
def fixOf (q : AnyFrame) : Bytes := fixedPart true q.f q.cls.length q.hdr.length q.content.length

/-- how many bytes the current `_readexactly` is for -/
def SPhase.want : SPhase → Nat
  | .hdr => 22
  | .cls h => h.classLen.toNat
  | .shdr h _ => h.headerLen.toNat
  | .body h _ _ => h.contentLen.toNat
  | _ => 0

/-- the phase fits what has been consumed of the frame -/
def PhaseAt (q : AnyFrame) (consumed : Bytes) : SPhase → Prop
  | .hdr => consumed = []
  | .cls h => h = hdrOfFrame q ∧ consumed = fixOf q
  | .shdr h cn => h = hdrOfFrame q ∧ cn = q.cls ∧ consumed = fixOf q ++ q.cls
  | .body h cn d => h = hdrOfFrame q ∧ cn = q.cls ∧ d = q.header ∧ consumed = fixOf q ++ q.cls ++ q.hdr
  | _ => False

/-- The state of a connection that has received part of `q.bytes ++ rest`. -/
inductive SInv (svc : Services) (reg : Registry) (q : AnyFrame) (evs : List SEv) (s : SSt) : Prop
  | reading (consumed : Bytes) (hp : PhaseAt q consumed s.phase) (hr : s.recvd = consumed ++ s.acc ++ s.buf)
      (ha : s.eof = true ∨ s.acc = []) (hw : s.acc.length ≤ s.phase.want) (ho : s.out = []) (hc : s.calls = [])
      (hres : s.result = none)
  | calling (c : SCall) (hp : s.phase = .calling q.f.requestId) (hr : q.bytes <+: s.recvd)
      (hn : ¬ q.Refused ∧ q.f.cmdcode ≠ 0) (hc : CallFor svc reg evs q c) (ho : s.out = []) (hcs : s.calls = [c])
      (hres : s.result = none)
  | done (hp : s.phase = .done) (hr : q.bytes <+: s.recvd) (hh : Handled svc reg evs q s.calls s.result s.out)

theorem Spec.CallFor.mono {svc : Services} {reg : Registry} {evs evs' : List SEv} {q : AnyFrame} {c : SCall}
    (h : CallFor svc reg evs q c) (he : evs <+: evs') : CallFor svc reg evs' q c := by
  obtain ⟨h1, h2, s, m, pre, hp, h3⟩ := h
  exact ⟨h1, h2, s, m, pre, hp.trans he, h3⟩

theorem Spec.Handled.mono {svc : Services} {reg : Registry} {evs evs' : List SEv} {q : AnyFrame} {cs : List SCall}
    {o : Option Outcome} {out : List Bytes} (h : Handled svc reg evs q cs o out) (he : evs <+: evs') :
    Handled svc reg evs' q cs o out := by
  cases h with
  | heartbeat h => exact .heartbeat h
  | rejected h => exact .rejected h
  | noName h hc hn => exact .noName h hc hn
  | badContext h hc e h0 fresh hx => exact .badContext h hc e h0 fresh hx
  | notFound h hc s m pre h0 h1 fresh ctx st hs hm hp hx hl =>
    exact .notFound h hc s m pre h0 h1 fresh ctx st hs hm (hp.trans he) hx hl
  | called h hc c o hcall => exact .called h hc c o (hcall.mono he)

/-- `_readexactly`, in terms of the bytes that are there -/
theorem readexactly_spec (s : SSt) (n : Nat) (k : SSt → Bytes → SSt) (hres : s.reset = false)
    (hw : s.acc.length ≤ n) :
    s.readexactly n k =
      if n ≤ (s.acc ++ s.buf).length then
        k { s with acc := [], buf := (s.acc ++ s.buf).drop n } ((s.acc ++ s.buf).take n)
      else if s.eof = true then { s with acc := s.acc ++ s.buf, buf := [] }
      else s := by
  unfold SSt.readexactly
  rw [hres]
  simp only [List.length_append]
  by_cases h1 : s.acc.length < n
  · rw [if_pos h1, if_neg (by simp)]
    by_cases h2 : n ≤ s.acc.length + s.buf.length
    · rw [if_pos h2, if_pos (.inl (by omega)), if_neg (by simp; omega)]
      have e1 : (s.acc ++ s.buf).drop n = s.buf.drop (n - s.acc.length) := by
        rw [List.drop_append, List.drop_eq_nil_of_le (by omega), List.nil_append]
      have e2 : (s.acc ++ s.buf).take n = s.acc ++ s.buf.take (n - s.acc.length) := by
        rw [List.take_append, List.take_of_length_le (by omega)]
      rw [e1, e2]
    · rw [if_neg h2]
      by_cases h3 : s.eof = true
      · rw [if_pos (.inr h3), if_pos h3, if_pos (by simp; omega)]
        have e1 : s.buf.take (n - s.acc.length) = s.buf := List.take_of_length_le (by omega)
        have e2 : s.buf.drop (n - s.acc.length) = [] := List.drop_eq_nil_of_le (by omega)
        rw [e1, e2]
      · rw [if_neg (by rintro (h | h); omega; exact h3 h), if_neg h3]
  · have e : n = s.acc.length := by omega
    rw [if_neg h1, if_pos (by omega)]
    subst e
    simp

theorem prefix_take {a b p r : Bytes} (h : p ++ r = a ++ b) (hl : a.length ≤ p.length) : p.take a.length = a ∧
    ∃ p', p = a ++ p' := by
  have h1 : p.take a.length = a := by
    have := congrArg (List.take a.length) h
    rw [List.take_append_of_le_length hl, List.take_append_of_le_length (Nat.le_refl _), List.take_length] at this
    exact this
  exact ⟨h1, p.drop a.length, by rw [← h1, List.length_take, Nat.min_eq_left hl, List.take_append_drop]⟩

/-- the thread gets hold of the whole of the next part of the frame, or waits -/
theorem read_part {s : SSt} {part rest' more : Bytes} {k : SSt → Bytes → SSt} {P : SSt → Prop} (hres : s.reset = false)
    (hw : s.acc.length ≤ part.length) (hb : s.acc ++ s.buf ++ more = part ++ rest')
    (hstay : P s) (hspin : s.eof = true → (s.acc ++ s.buf).length < part.length →
      P { s with acc := s.acc ++ s.buf, buf := [] })
    (hgo : ∀ b', s.acc ++ s.buf = part ++ b' → P (k { s with acc := [], buf := b' } part)) :
    P (s.readexactly part.length k) := by
  rw [readexactly_spec s _ k hres hw]
  split
  · next h =>
    obtain ⟨h1, b', h2⟩ := prefix_take hb h
    have := hgo b' h2
    rw [h1, h2, List.drop_left]
    exact this
  · split
    · next h3 h4 => exact hspin h4 (by omega)
    · exact hstay

/-- what `handle` does with the complete frame -/
theorem serve_spec {svc : Services} {reg : Registry} {q : AnyFrame} {evs : List SEv} (hq : q.Ok) (s : SSt)
    (fresh : PyStr) (hres : s.reset = false) (hr : q.bytes <+: s.recvd)
    (hreg : s.reg = (sregistrations evs).foldl registerInterface reg) (ho : s.out = []) (hc : s.calls = [])
    (hrs : s.result = none) : SInv svc reg q evs (s.serve svc fresh (hdrOfFrame q) q.cls q.header q.content) := by
  have hid := hq.fit.requestId
  unfold SSt.serve
  by_cases h0 : q.f.cmdcode = 0
  · rw [if_pos (show (hdrOfFrame q).cmdcode = CmdCode.heartbeat.code from h0)]
    rw [show (hdrOfFrame q).requestId = q.f.requestId from rfl, heartbeatMsg_ok _ hid]
    unfold SSt.send
    dsimp only
    rw [hres]
    refine .done rfl hr ?_
    have := Handled.heartbeat (svc := svc) (reg := reg) (evs := evs) h0
    simpa [SSt.finish, ho, hc, hrs] using this
  · rw [if_neg (show ¬ (hdrOfFrame q).cmdcode = CmdCode.heartbeat.code from h0)]
    by_cases h2 : q.f.cmdcode = 2
    · rw [if_pos (show (hdrOfFrame q).cmdcode = CmdCode.response.code from h2)]
      refine .done rfl hr ?_
      have := Handled.rejected (svc := svc) (reg := reg) (evs := evs) (q := q) ⟨h0, .inl h2⟩
      simpa [SSt.finish, ho, hc, hrs] using this
    · rw [if_neg (show ¬ (hdrOfFrame q).cmdcode = CmdCode.response.code from h2)]
      by_cases hcl : q.cls = reqClass
      · rw [if_neg (by simpa [reqClass] using hcl)]
        have hnr : ¬ q.Refused := by
          rintro ⟨-, h | h⟩
          · exact h2 h
          · exact h hcl
        rw [serviceOf_eq, methodOf_eq]
        have noname : (serviceName q.header = none ∨ methodName q.header = none) →
            SInv svc reg q evs (s.send (failMsg (hdrOfFrame q).requestId .clientSendError)) := by
          intro hn
          rw [show (hdrOfFrame q).requestId = q.f.requestId from rfl, failMsg_ok _ hid]
          unfold SSt.send
          dsimp only
          rw [hres]
          refine .done rfl hr ?_
          have := Handled.noName (svc := svc) (reg := reg) (evs := evs) hnr h0 hn
          simpa [SSt.finish, ho, hc, hrs, RespStatus.code] using this
        cases hs : serviceName q.header with
        | none => exact noname (.inl hs)
        | some sn =>
          cases hm : methodName q.header with
          | none => exact noname (.inr hm)
          | some mn =>
            dsimp only
            cases he : extract s.heap fresh q.header with
            | error e =>
              refine .done rfl hr ?_
              have := Handled.badContext (svc := svc) (reg := reg) (evs := evs) hnr h0 e s.heap fresh he
              simpa [SSt.finish, ho, hc, hrs] using this
            | ok x =>
              obtain ⟨heap, ctx⟩ := x
              dsimp only
              cases hf : findMethod svc s.reg heap ctx sn mn with
              | error e =>
                refine .done rfl hr ?_
                have hl : ∃ st, lookup svc s.reg heap ctx sn mn = .refused st := by
                  by_cases h : e = .noProcessor
                  · subst h; exact ⟨_, (findMethod_lookup svc s.reg heap ctx sn mn).2.1 hf⟩
                  · exact ⟨_, (findMethod_lookup svc s.reg heap ctx sn mn).2.2 e h hf⟩
                obtain ⟨st, hl⟩ := hl
                rw [hreg] at hl
                have := Handled.notFound (svc := svc) (reg := reg) (evs := evs) hnr h0 sn mn evs s.heap heap fresh ctx
                  st hs hm (List.prefix_refl _) he hl
                simpa [SSt.finish, ho, hc, hrs] using this
              | ok func =>
                refine .calling ⟨func, q.content, ctx, heap, s.reg⟩ rfl hr ⟨hnr, h0⟩ ?_ ho ?_ hrs
                · exact ⟨rfl, ⟨s.heap, fresh, he⟩, sn, mn, evs, List.prefix_refl _, hs, hm, hreg,
                    (findMethod_lookup svc s.reg heap ctx sn mn).1 _ hf⟩
                · simp [hc]
      · rw [if_pos (by simpa [reqClass] using hcl)]
        refine .done rfl hr ?_
        have := Handled.rejected (svc := svc) (reg := reg) (evs := evs) (q := q) ⟨h0, .inr hcl⟩
        simpa [SSt.finish, ho, hc, hrs] using this

theorem fixOf_length (q : AnyFrame) : (fixOf q).length = 22 := by unfold fixOf; rw [fixedPart_length]; rfl

theorem bytes_parts (q : AnyFrame) : q.bytes = fixOf q ++ q.cls ++ q.hdr ++ q.content := by
  simp [AnyFrame.bytes, frame, fixOf, List.append_assoc]

theorem SInv.handler {svc : Services} {reg : Registry} {q : AnyFrame} {evs : List SEv} {rest more : Bytes} (hq : q.Ok)
    {s : SSt} (h : SInv svc reg q evs s) (fresh : PyStr) (hres : s.reset = false)
    (hreg : s.reg = (sregistrations evs).foldl registerInterface reg) (hb : s.recvd ++ more = q.bytes ++ rest) :
    SInv svc reg q evs (s.handler svc fresh) := by
  cases h with
  | calling c hp hr hn hc ho hcs hrs =>
    unfold SSt.handler
    rw [hp]
    exact .calling c hp hr hn hc ho hcs hrs
  | done hp hr hh =>
    unfold SSt.handler
    rw [hp]
    exact .done hp hr hh
  | reading consumed hp hr ha hw ho hc hrs =>
    have hself : SInv svc reg q evs s := .reading consumed hp hr ha hw ho hc hrs
    rw [bytes_parts] at hb
    have spin : s.eof = true → (s.acc ++ s.buf).length ≤ s.phase.want →
        SInv svc reg q evs { s with acc := s.acc ++ s.buf, buf := [] } := by
      intro he hl
      exact .reading consumed hp (by simp [hr, List.append_assoc]) (.inl he) hl ho hc hrs
    unfold SSt.handler
    split
    · next hph =>
      rw [hph] at hp hw
      have hp : consumed = [] := hp
      subst hp
      rw [hr] at hb
      have hlen := fixOf_length q
      rw [boltRequest_headerSize, ← hlen]
      refine read_part (rest' := q.cls ++ q.hdr ++ q.content ++ rest) (more := more) hres (by rw [hlen]; exact hw)
        (by simpa [List.append_assoc] using hb) hself (fun he hl => spin he (by rw [hph]; rw [hlen] at hl; exact Nat.le_of_lt hl)) ?_
      intro b' hb'
      have hh : reqHdr (fixOf q) = .ok (hdrOfFrame q) :=
        reqHdr_fixed q.f _ _ _ hq.fit hq.body.1 hq.body.2.1 hq.body.2.2
      rw [hh]
      exact .reading (fixOf q) ⟨rfl, rfl⟩ (by dsimp only; rw [hr]; simp [hb']) (.inr rfl) (Nat.zero_le _) ho hc hrs
    · next h hph =>
      rw [hph] at hp hw
      obtain ⟨rfl, rfl⟩ := hp
      rw [hr] at hb
      have hlen : (hdrOfFrame q).classLen.toNat = q.cls.length := by simp [hdrOfFrame]
      have hlen' : (SPhase.cls (hdrOfFrame q)).want = q.cls.length := hlen
      rw [hlen'] at hw
      rw [hlen]
      have hb2 : s.acc ++ s.buf ++ more = q.cls ++ (q.hdr ++ q.content ++ rest) := by
        have : fixOf q ++ (s.acc ++ s.buf ++ more) = fixOf q ++ (q.cls ++ (q.hdr ++ q.content ++ rest)) := by
          simpa [List.append_assoc] using hb
        exact List.append_cancel_left this
      refine read_part (rest' := q.hdr ++ q.content ++ rest) (more := more) hres hw hb2 hself
        (fun he hl => spin he (by rw [hph, hlen']; exact Nat.le_of_lt hl)) ?_
      intro b' hb'
      exact .reading (fixOf q ++ q.cls) ⟨rfl, rfl, rfl⟩ (by dsimp only; rw [hr, List.append_assoc, hb']; simp)
        (.inr rfl) (Nat.zero_le _) ho hc hrs
    · next h cn hph =>
      rw [hph] at hp hw
      obtain ⟨rfl, rfl, rfl⟩ := hp
      rw [hr] at hb
      have hlen : (hdrOfFrame q).headerLen.toNat = q.hdr.length := by simp [hdrOfFrame]
      have hlen' : (SPhase.shdr (hdrOfFrame q) q.cls).want = q.hdr.length := hlen
      rw [hlen'] at hw
      rw [hlen]
      have hb2 : s.acc ++ s.buf ++ more = q.hdr ++ (q.content ++ rest) := by
        have : fixOf q ++ q.cls ++ (s.acc ++ s.buf ++ more) = fixOf q ++ q.cls ++ (q.hdr ++ (q.content ++ rest)) := by
          simpa [List.append_assoc] using hb
        exact List.append_cancel_left this
      refine read_part (rest' := q.content ++ rest) (more := more) hres hw hb2 hself
        (fun he hl => spin he (by rw [hph, hlen']; exact Nat.le_of_lt hl)) ?_
      intro b' hb'
      rw [hq.decodes]
      exact .reading (fixOf q ++ q.cls ++ q.hdr) ⟨rfl, rfl, rfl, rfl⟩
        (by dsimp only; rw [hr, List.append_assoc (fixOf q ++ q.cls), hb']; simp)
        (.inr rfl) (Nat.zero_le _) ho hc hrs
    · next h cn d hph =>
      rw [hph] at hp hw
      obtain ⟨rfl, rfl, rfl, rfl⟩ := hp
      rw [hr] at hb
      have hlen : (hdrOfFrame q).contentLen.toNat = q.content.length := by simp [hdrOfFrame]
      have hlen' : (SPhase.body (hdrOfFrame q) q.cls q.header).want = q.content.length := hlen
      rw [hlen'] at hw
      rw [hlen]
      have hb2 : s.acc ++ s.buf ++ more = q.content ++ rest := by
        have : fixOf q ++ q.cls ++ q.hdr ++ (s.acc ++ s.buf ++ more) =
            fixOf q ++ q.cls ++ q.hdr ++ (q.content ++ rest) := by
          simpa [List.append_assoc] using hb
        exact List.append_cancel_left this
      refine read_part (rest' := rest) (more := more) hres hw hb2 hself
        (fun he hl => spin he (by rw [hph, hlen']; exact Nat.le_of_lt hl)) ?_
      intro b' hb'
      refine serve_spec hq _ fresh hres ?_ hreg ho hc hrs
      refine ⟨b', ?_⟩
      dsimp only
      rw [hr, bytes_parts, List.append_assoc (fixOf q ++ q.cls ++ q.hdr) s.acc s.buf, hb', List.append_assoc]
    · next hph => rw [hph] at hp; exact hp.elim
    · next hph => rw [hph] at hp; exact hp.elim

theorem SInv.run (svc : Services) (reg : Registry) (q : AnyFrame) (hq : q.Ok) (rest : Bytes) (evs : List SEv)
    (hn : .reset ∉ evs) (more : Bytes) (hb : sreceived evs ++ more = q.bytes ++ rest) :
    SInv svc reg q evs (srun svc reg evs) := by
  obtain ⟨e1, -, -, -⟩ := srun_env svc reg evs
  rw [← e1] at hb
  revert hn more hb
  refine srun_induct svc reg (fun evs s => SEv.reset ∉ evs → ∀ more, s.recvd ++ more = q.bytes ++ rest →
    SInv svc reg q evs s) ?_ ?_ evs
  · intro _ more _
    exact .reading [] rfl rfl (.inr rfl) (Nat.zero_le _) rfl rfl rfl
  · intro pre e ih hn more hb
    obtain ⟨e1, e2, e3, e4⟩ := srun_env svc reg pre
    have hn' : SEv.reset ∉ pre := fun h => hn (by simp [h])
    have hres : (srun svc reg pre).reset = false := by rw [e3]; simpa using hn'
    have hpre : pre <+: pre ++ [e] := List.prefix_append _ _
    have keep : ∀ {s : SSt}, SInv svc reg q pre s → SInv svc reg q (pre ++ [e]) s := by
      intro s h
      cases h with
      | reading c hp hr ha hw ho hc hrs => exact .reading c hp hr ha hw ho hc hrs
      | calling c hp hr hnn hc ho hcs hrs => exact .calling c hp hr hnn (hc.mono hpre) ho hcs hrs
      | done hp hr hh => exact .done hp hr (hh.mono hpre)
    generalize srun svc reg pre = s at *
    cases e with
    | data bs =>
      simp only [sstep] at hb ⊢
      by_cases he : s.eof = true
      · rw [if_pos he] at hb ⊢
        exact keep (ih hn' more hb)
      · rw [if_neg he] at hb ⊢
        have h := ih hn' (bs ++ more) (by rw [← List.append_assoc]; exact hb)
        apply keep
        cases h with
        | reading c hp hr ha hw ho hc hrs =>
          exact .reading c hp (by dsimp only; rw [hr]; simp [List.append_assoc]) ha hw ho hc hrs
        | calling c hp hr hnn hc ho hcs hrs =>
          exact .calling c hp (hr.trans (List.prefix_append _ _)) hnn hc ho hcs hrs
        | done hp hr hh => exact .done hp (hr.trans (List.prefix_append _ _)) hh
    | eof =>
      apply keep
      have h := ih hn' more hb
      cases h with
      | reading c hp hr ha hw ho hc hrs => exact .reading c hp hr (.inl rfl) hw ho hc hrs
      | calling c hp hr hnn hc ho hcs hrs => exact .calling c hp hr hnn hc ho hcs hrs
      | done hp hr hh => exact .done hp hr hh
    | reset => exact absurd (by simp) hn
    | handler fresh =>
      have hb' := hb
      simp only [sstep, (handler_env svc s fresh).recvd] at hb'
      exact keep ((ih hn' more hb').handler hq fresh hres e4 hb')
    | finish o =>
      have hb' := hb
      rw [(finishEv_env svc s o).recvd] at hb'
      have h := ih hn' more hb'
      apply keep
      unfold sstep
      cases h with
      | reading c hp hr ha hw ho hc hrs =>
        cases hph : s.phase with
        | calling id => rw [hph] at hp; exact hp.elim
        | _ => exact .reading c hp hr ha hw ho hc hrs
      | done hp hr hh => rw [hp]; exact .done hp hr hh
      | calling c hp hr hnn hc ho hcs hrs =>
        have hid := hq.fit.requestId
        rw [hp]
        dsimp only
        have key := Handled.called (svc := svc) (reg := reg) (evs := pre) hnn.1 hnn.2 c o hc
        cases o with
        | raised x =>
          refine .done rfl hr ?_
          simpa [SSt.finish, hcs, ho, resultReply] using key
        | ret v =>
          dsimp only
          by_cases hv : ∃ b, v = .bytes b
          · obtain ⟨b, rfl⟩ := hv
            rw [resultMsg_bytes _ hid]
            unfold SSt.send
            simp only [resultReply] at key
            split
            · next bs hbs =>
              split at hbs
              · next hl =>
                cases hbs
                rw [if_pos hl] at key
                dsimp only
                rw [hres]
                refine .done rfl hr ?_
                simpa [SSt.finish, hcs, ho] using key
              · cases hbs
            · next hbs =>
              split at hbs
              · cases hbs
              · next hl =>
                rw [if_neg hl] at key
                refine .done rfl hr ?_
                simpa [SSt.finish, hcs, ho] using key
          · rw [resultMsg_other _ _ (fun c hc => hv ⟨c, hc⟩)]
            refine .done rfl hr ?_
            have : resultReply q.f.requestId (.ret v) = [] := by
              cases v <;> first | rfl | exact absurd ⟨_, rfl⟩ hv
            rw [this] at key
            simpa [SSt.send, SSt.finish, hcs, ho] using key
    | register r =>
      apply keep
      have h := ih hn' more hb
      cases h with
      | reading c hp hr ha hw ho hc hrs => exact .reading c hp hr ha hw ho hc hrs
      | calling c hp hr hnn hc ho hcs hrs => exact .calling c hp hr hnn hc ho hcs hrs
      | done hp hr hh => exact .done hp hr hh

/-! ### progress -/

/-- how many reads are still to be done -/
def SPhase.rank : SPhase → Nat
  | .hdr => 4
  | .cls _ => 3
  | .shdr _ _ => 2
  | .body _ _ _ => 1
  | _ => 0

theorem send_rank (s : SSt) (m : Except PyExc Bytes) : (s.send m).phase.rank = 0 := by
  unfold SSt.send
  split
  · split <;> rfl
  · rfl

theorem serve_rank (svc : Services) (s : SSt) (fresh : PyStr) (h : ReqHdr) (cn : Bytes) (d : PyDict PyStr PyStr)
    (b : Bytes) : (s.serve svc fresh h cn d b).phase.rank = 0 := by
  unfold SSt.serve
  split
  · exact send_rank _ _
  · split
    · rfl
    · split
      · rfl
      · split
        · exact send_rank _ _
        · split
          · exact send_rank _ _
          · split
            · rfl
            · dsimp only
              split <;> rfl

/-- if the bytes wanted are there, or the connection has been reset, the thread gets on -/
theorem handler_rank (svc : Services) (s : SSt) (fresh : PyStr)
    (h : s.reset = true ∨ (s.reset = false ∧ s.acc.length ≤ s.phase.want ∧ s.phase.want ≤ (s.acc ++ s.buf).length)) :
    (s.handler svc fresh).phase.rank ≤ s.phase.rank - 1 := by
  -- one `_readexactly`
  have key : ∀ (n r : Nat) (k : SSt → Bytes → SSt), n = s.phase.want → (∀ t b, (k t b).phase.rank ≤ r) →
      (s.readexactly n k).phase.rank ≤ r := by
    intro n r k hn hk
    rcases h with h | ⟨h1, h2, h3⟩
    · unfold SSt.readexactly
      rw [h]
      split
      · rw [if_pos rfl]; exact Nat.zero_le _
      · exact hk _ _
    · rw [← hn] at h2 h3
      rw [readexactly_spec s n k h1 h2, if_pos h3]
      exact hk _ _
  unfold SSt.handler
  split
  · next hp =>
    rw [hp]
    apply key _ 3 _ (by rw [hp]; rfl)
    intro t b
    split
    · exact Nat.zero_le _
    · exact Nat.le_refl _
  · next hp => rw [hp]; exact key _ 2 _ (by rw [hp]; rfl) fun t b => Nat.le_refl _
  · next hp =>
    rw [hp]
    apply key _ 1 _ (by rw [hp]; rfl)
    intro t b
    split
    · exact Nat.zero_le _
    · exact Nat.le_refl _
  · next hp => rw [hp]; exact key _ 0 _ (by rw [hp]; rfl) fun t b => Nat.le_of_eq (serve_rank ..)
  · next hp => rw [hp]; exact Nat.zero_le _
  · next hp => rw [hp]; exact Nat.zero_le _

theorem rank_done {svc : Services} {s : SSt} (h : s.phase.rank = 0) (o : Outcome) :
    (sstep svc s (.finish o)).phase = .done := by
  simp only [sstep]
  cases hp : s.phase with
  | calling id =>
    dsimp only
    split
    · rfl
    · unfold SSt.send
      split
      · split <;> rfl
      · rfl
  | done => exact hp
  | _ => rw [hp] at h; cases h

/-- with the whole frame there, every turn of the thread gets it on -/
theorem complete_rank (svc : Services) (reg : Registry) (q : AnyFrame) (hq : q.Ok) (rest : Bytes) (evs : List SEv)
    (hn : .reset ∉ evs) (hb : sreceived evs = q.bytes ++ rest) (fresh : PyStr) :
    ((srun svc reg evs).handler svc fresh).phase.rank ≤ (srun svc reg evs).phase.rank - 1 := by
  obtain ⟨e1, -, e3, -⟩ := srun_env svc reg evs
  have hres : (srun svc reg evs).reset = false := by rw [e3]; simpa using hn
  have hi := SInv.run svc reg q hq rest evs hn [] (by rw [List.append_nil]; exact hb)
  rw [hb, bytes_parts] at e1
  cases hi with
  | calling c hp => unfold SSt.handler; rw [hp]; dsimp only; rw [hp]; exact Nat.zero_le _
  | done hp => unfold SSt.handler; rw [hp]; dsimp only; rw [hp]; exact Nat.zero_le _
  | reading consumed hp hr ha hw ho hc hrs =>
    refine handler_rank svc _ fresh (.inr ⟨hres, hw, ?_⟩)
    rw [hr] at e1
    have e2 := congrArg List.length e1
    have hlen := fixOf_length q
    simp only [List.length_append] at e2 ⊢
    generalize srun svc reg evs = s at *
    cases hph : s.phase with
    | hdr =>
      rw [hph] at hp
      have hp : consumed = [] := hp
      subst hp
      simp only [List.length_nil] at e2
      show 22 ≤ _
      omega
    | cls h =>
      rw [hph] at hp
      obtain ⟨rfl, rfl⟩ := hp
      have : (SPhase.cls (hdrOfFrame q)).want = q.cls.length := by simp [SPhase.want, hdrOfFrame]
      omega
    | shdr h cn =>
      rw [hph] at hp
      obtain ⟨rfl, rfl, rfl⟩ := hp
      have : (SPhase.shdr (hdrOfFrame q) q.cls).want = q.hdr.length := by simp [SPhase.want, hdrOfFrame]
      simp only [List.length_append] at e2
      omega
    | body h cn d =>
      rw [hph] at hp
      obtain ⟨rfl, rfl, rfl, rfl⟩ := hp
      have : (SPhase.body (hdrOfFrame q) q.cls q.header).want = q.content.length := by simp [SPhase.want, hdrOfFrame]
      simp only [List.length_append] at e2
      omega
    | calling id => rw [hph] at hp; exact hp.elim
    | done => rw [hph] at hp; exact hp.elim

theorem sreceived_snoc_handler (evs : List SEv) (fresh : PyStr) : sreceived (evs ++ [.handler fresh]) = sreceived evs := by
  induction evs with
  | nil => rfl
  | cons e evs ih => cases e <;> simp [sreceived, ih]

/-! ## C83 -/

/-- C83. The handler of a connection that delivers a well-formed request, in any chunks, to a method that can be found
throughout, has, when it ends, called that method exactly once, with the body of the request and the context in its
header, and sent exactly one message with the bytes returned (see `Spec.resultReply`: one response with the request's
id, SUCCESS and these bytes). -/
theorem C83_answer (svc : Services) (reg : Registry) (evs : List SEv) (q : ReqFrame) (hq : q.Ok) (rest : Bytes)
    (hn : .reset ∉ evs) (more : Bytes) (hb : sreceived evs ++ more = q.bytes ++ rest) (s m : PyStr)
    (hs : serviceName q.header = some s) (hm : methodName q.header = some m)
    (hctx : ∀ h0 fresh, ∃ h1 ctx, extract h0 fresh q.header = .ok (h1, ctx))
    (hfound : ∀ pre h0 fresh h1 ctx, pre <+: evs → extract h0 fresh q.header = .ok (h1, ctx) →
      ∃ func, lookup svc ((sregistrations pre).foldl registerInterface reg) h1 ctx s m = .found func)
    (hdone : (srun svc reg evs).phase = .done) :
    ∃ c o, (srun svc reg evs).calls = [c] ∧ CallFor svc reg evs q.any c ∧ (srun svc reg evs).result = some o ∧
      (srun svc reg evs).out = resultReply q.f.requestId o := by
  have hq' : q.any.Ok := ⟨hq.fit, hq.body, hq.decodes⟩
  have hnr : ¬ q.any.Refused := by
    rintro ⟨-, h | h⟩
    · exact hq.cmd.2 h
    · exact h rfl
  have h0 : q.any.f.cmdcode ≠ 0 := hq.cmd.1
  have hi := SInv.run svc reg q.any hq' rest evs hn more hb
  cases hi with
  | reading c hp => rw [hdone] at hp; exact hp.elim
  | calling c hp => rw [hdone] at hp; cases hp
  | done hp hr hh =>
    generalize (srun svc reg evs).calls = cs at *
    generalize (srun svc reg evs).result = res at *
    generalize (srun svc reg evs).out = out at *
    cases hh with
    | heartbeat h => exact absurd h h0
    | rejected h => exact absurd h hnr
    | noName h hc hnn =>
      rcases hnn with e | e
      · rw [show q.any.header = q.header from rfl, hs] at e; cases e
      · rw [show q.any.header = q.header from rfl, hm] at e; cases e
    | badContext h hc e h0 fresh he =>
      obtain ⟨h1, ctx, hx⟩ := hctx h0 fresh
      rw [show q.any.header = q.header from rfl, hx] at he; cases he
    | notFound h hc s' m' pre h0 h1 fresh ctx st hs' hm' hp he hl =>
      rw [show q.any.header = q.header from rfl] at hs' hm' he
      rw [hs] at hs'
      rw [hm] at hm'
      cases hs'
      cases hm'
      obtain ⟨func, hf⟩ := hfound pre h0 fresh h1 ctx hp he
      rw [hf] at hl
      cases hl
    | called h hc c o hcall => exact ⟨c, o, rfl, hcall, rfl, rfl⟩

/-- C83. Once the whole request has arrived, four turns of the thread and the end of the method end the handler. -/
theorem C83_progress (svc : Services) (reg : Registry) (evs : List SEv) (q : AnyFrame) (hq : q.Ok) (rest : Bytes)
    (hn : .reset ∉ evs) (hb : sreceived evs = q.bytes ++ rest) (f1 f2 f3 f4 : PyStr) (o : Outcome) :
    (srun svc reg (evs ++ [.handler f1, .handler f2, .handler f3, .handler f4, .finish o])).phase = .done := by
  have step : ∀ (evs : List SEv) (f : PyStr), .reset ∉ evs → sreceived evs = q.bytes ++ rest →
      (srun svc reg (evs ++ [.handler f])).phase.rank ≤ (srun svc reg evs).phase.rank - 1 ∧
      .reset ∉ evs ++ [.handler f] ∧ sreceived (evs ++ [.handler f]) = q.bytes ++ rest := by
    intro evs f hn hb
    refine ⟨?_, by simpa using hn, by rw [sreceived_snoc_handler]; exact hb⟩
    rw [srun_append]
    exact complete_rank svc reg q hq rest evs hn hb f
  have r0 : (srun svc reg evs).phase.rank ≤ 4 := by
    cases (srun svc reg evs).phase <;> simp [SPhase.rank]
  obtain ⟨a1, a2, a3⟩ := step evs f1 hn hb
  obtain ⟨b1, b2, b3⟩ := step _ f2 a2 a3
  obtain ⟨c1, c2, c3⟩ := step _ f3 b2 b3
  obtain ⟨d1, d2, d3⟩ := step _ f4 c2 c3
  have e : evs ++ [.handler f1, .handler f2, .handler f3, .handler f4, .finish o] =
      evs ++ [.handler f1] ++ [.handler f2] ++ [.handler f3] ++ [.handler f4] ++ [.finish o] := by simp
  rw [e, srun_append]
  exact rank_done (svc := svc) (by omega) o

set_option maxRecDepth 20000 in
/-- a request in three chunks, followed by the end of the stream -/
example : let bs := (exReq 3 [1]).bytes
    let evs : List SEv := [.handler [], .data (bs.take 10), .handler [], .data ((bs.drop 10).take 40), .handler [],
      .handler [], .data (bs.drop 50), .eof, .handler [], .handler [], .handler (py "t"), .finish (.ret (.bytes [7, 8]))]
    let s := srun exServices exReg evs
    sreceived evs = bs ∧ s.phase = .done ∧ s.out = [reply 3 0 [7, 8]] ∧ s.calls.map SCall.body = [[1]] := by
  decide +kernel

set_option maxRecDepth 20000 in
/-- its context can always be extracted, and its method found -/
example : (∀ h0 fresh, ∃ h1 ctx, extract h0 fresh exReqHeader = .ok (h1, ctx)) ∧
    (∀ h0 fresh h1 ctx, extract h0 fresh exReqHeader = .ok (h1, ctx) →
      ∃ func, lookup exServices exReg h1 ctx (py "s") (py "m") = .found func) := by
  refine ⟨fun h0 fresh => ⟨_, _, rfl⟩, fun h0 fresh h1 ctx _ => ⟨0, rfl⟩⟩

/-! ## C84 -/

/-- C84 as listed: if the stream ends within a request, the handler ends. -/
def C84_full : Prop :=
  ∀ (svc : Services) (reg : Registry) (evs : List SEv) (q : AnyFrame) (more : Bytes), q.Ok → more ≠ [] →
    sreceived evs ++ more = q.bytes → .eof ∈ evs →
    ∃ more : List SEv, (∀ e ∈ more, e ≠ .reset) ∧ (srun svc reg (evs ++ more)).phase = .done

/-- The opposite holds for every truncated request: as long as there is no reset, the handler does not end, whatever
else happens; at the end of the stream it goes round in `_readexactly` for ever. -/
theorem C84_never_ends (svc : Services) (reg : Registry) (evs : List SEv) (q : AnyFrame) (hq : q.Ok) (more : Bytes)
    (hm : more ≠ []) (hb : sreceived evs ++ more = q.bytes) (hn : .reset ∉ evs) :
    (srun svc reg evs).phase ≠ .done ∧ (srun svc reg evs).out = [] := by
  have hi := SInv.run svc reg q hq [] evs hn more (by rw [List.append_nil]; exact hb)
  obtain ⟨e1, -, -, -⟩ := srun_env svc reg evs
  have short : ¬ q.bytes <+: (srun svc reg evs).recvd := by
    rw [e1, ← hb]
    intro h
    have := h.length_le
    rw [List.length_append] at this
    cases more with
    | nil => exact hm rfl
    | cons x xs => rw [List.length_cons] at this; omega
  cases hi with
  | reading c hp hr ha hw ho hc hrs =>
    refine ⟨?_, ho⟩
    intro h
    rw [h] at hp
    exact hp
  | calling c hp hr => exact absurd hr short
  | done hp hr => exact absurd hr short

theorem sreceived_eof (evs evs' : List SEv) (h : .eof ∈ evs) : sreceived (evs ++ evs') = sreceived evs := by
  induction evs with
  | nil => cases h
  | cons e evs ih =>
    cases e with
    | eof => rfl
    | data bs => simp only [List.cons_append, sreceived]; rw [ih (by simpa using h)]
    | _ => simp only [List.cons_append, sreceived]; exact ih (by simpa using h)

/-- a client that closes the connection without having sent anything -/
theorem C84_violated : ¬ C84_full := by
  intro h
  have hok : AnyFrame.Ok (exReq 3 [1]).any :=
    have := exReq_ok 3 [1] (by constructor <;> decide) (by decide)
    ⟨this.fit, this.body, this.decodes⟩
  have hne : (exReq 3 [1]).any.bytes ≠ [] := by
    intro e
    have := congrArg List.length e
    rw [bytes_parts] at this
    simp [fixOf_length] at this
  obtain ⟨more, h1, h2⟩ := h exServices exReg [.eof] _ _ hok hne rfl (by simp)
  refine (C84_never_ends exServices exReg ([.eof] ++ more) _ hok _ hne ?_ ?_).1 h2
  · rw [sreceived_eof _ _ (by simp)]; rfl
  · intro hm
    simp only [List.singleton_append, List.mem_cons] at hm
    rcases hm with hm | hm
    · cases hm
    · exact h1 _ hm rfl

/-- C84, what holds: a reset of the connection ends the handler, whatever was received: after four turns it has ended
or is in a service method, and when that ends it has ended. (And it ends after a complete request: `C83_progress`.)
Missing for C84: the orderly end of the stream. -/
theorem C84_reset_partial (svc : Services) (reg : Registry) (evs : List SEv) (hn : .reset ∈ evs)
    (f1 f2 f3 f4 : PyStr) (o : Outcome) :
    (srun svc reg (evs ++ [.handler f1, .handler f2, .handler f3, .handler f4, .finish o])).phase = .done := by
  have step : ∀ (evs : List SEv) (f : PyStr), .reset ∈ evs →
      (srun svc reg (evs ++ [.handler f])).phase.rank ≤ (srun svc reg evs).phase.rank - 1 ∧
      .reset ∈ evs ++ [.handler f] := by
    intro evs f hn
    refine ⟨?_, by simp [hn]⟩
    rw [srun_append]
    refine handler_rank svc _ f (.inl ?_)
    obtain ⟨-, -, e3, -⟩ := srun_env svc reg evs
    rw [e3]
    simpa using hn
  have r0 : (srun svc reg evs).phase.rank ≤ 4 := by
    cases (srun svc reg evs).phase <;> simp [SPhase.rank]
  obtain ⟨a1, a2⟩ := step evs f1 hn
  obtain ⟨b1, b2⟩ := step _ f2 a2
  obtain ⟨c1, c2⟩ := step _ f3 b2
  obtain ⟨d1, d2⟩ := step _ f4 c2
  have e : evs ++ [.handler f1, .handler f2, .handler f3, .handler f4, .finish o] =
      evs ++ [.handler f1] ++ [.handler f2] ++ [.handler f3] ++ [.handler f4] ++ [.finish o] := by simp
  rw [e, srun_append]
  exact rank_done (svc := svc) (by omega) o

/-! ## C85 -/

/-- C85 as listed: a request for a service or method that is not there is answered NO_PROCESSOR. -/
def C85_full : Prop :=
  ∀ (svc : Services) (reg : Registry) (evs : List SEv) (q : ReqFrame) (s m : PyStr), q.Ok → .reset ∉ evs →
    sreceived evs = q.bytes → serviceName q.header = some s → methodName q.header = some m →
    (∀ pre h ctx, pre <+: evs →
      lookup svc ((sregistrations pre).foldl registerInterface reg) h ctx s m = .refused .noProcessor) →
    (srun svc reg evs).phase = .done → (srun svc reg evs).out = [reply q.f.requestId RespStatus.noProcessor.code []]

/-- What happens instead, for every such request (or one whose service cannot be constructed): the connection is
closed without an answer. -/
theorem C85_silent (svc : Services) (reg : Registry) (evs : List SEv) (q : ReqFrame) (s m : PyStr) (hq : q.Ok)
    (hn : .reset ∉ evs) (rest more : Bytes) (hb : sreceived evs ++ more = q.bytes ++ rest)
    (hs : serviceName q.header = some s) (hm : methodName q.header = some m)
    (href : ∀ pre h ctx, pre <+: evs →
      ∃ st, lookup svc ((sregistrations pre).foldl registerInterface reg) h ctx s m = .refused st) :
    (srun svc reg evs).out = [] ∧ (srun svc reg evs).calls = [] := by
  have hq' : q.any.Ok := ⟨hq.fit, hq.body, hq.decodes⟩
  have h0 : q.any.f.cmdcode ≠ 0 := hq.cmd.1
  have nocall : ∀ c, ¬ CallFor svc reg evs q.any c := by
    rintro c ⟨-, -, s', m', pre, hp, hs', hm', hr, hl⟩
    rw [show q.any.header = q.header from rfl, hs] at hs'
    rw [show q.any.header = q.header from rfl, hm] at hm'
    cases hs'
    cases hm'
    obtain ⟨st, hf⟩ := href pre c.heap c.ctx hp
    rw [hr, hf] at hl
    cases hl
  have hi := SInv.run svc reg q.any hq' rest evs hn more hb
  cases hi with
  | reading c hp hr ha hw ho hc hrs => exact ⟨ho, hc⟩
  | calling c hp hr hnn hc => exact absurd hc (nocall c)
  | done hp hr hh =>
    generalize (srun svc reg evs).calls = cs at *
    generalize (srun svc reg evs).result = res at *
    generalize (srun svc reg evs).out = out at *
    cases hh with
    | heartbeat h => exact absurd h h0
    | noName h hc hnn =>
      rcases hnn with e | e
      · rw [show q.any.header = q.header from rfl, hs] at e; cases e
      · rw [show q.any.header = q.header from rfl, hm] at e; cases e
    | called h hc c o hcall => exact absurd hcall (nocall c)
    | _ => exact ⟨rfl, rfl⟩

set_option maxRecDepth 20000 in
theorem C85_violated : ¬ C85_full := by
  intro h
  have hok := exReq_ok 3 [1] (by constructor <;> decide) (by decide)
  have := h exServices [] [.data (exReq 3 [1]).bytes, .handler [], .handler [], .handler [], .handler (py "t")]
    (exReq 3 [1]) (py "s") (py "m") hok (by simp) (by decide +kernel) (by decide +kernel) (by decide +kernel)
    (by
      intro pre hh ctx hp
      have : sregistrations pre = [] := by
        obtain ⟨post, hp⟩ := hp
        have := congrArg sregistrations hp
        rw [sregistrations_append] at this
        exact (List.append_eq_nil_iff.1 (this.trans rfl)).1
      rw [this]
      rfl)
    (by decide +kernel)
  revert this
  decide +kernel

/-- C85, what holds: a request without a service or method name is answered CLIENT_SEND_ERROR, and a heartbeat is
acknowledged, each exactly once. Missing for C85: the answer to a request whose service or method is not there. -/
theorem C85_reported_partial (svc : Services) (reg : Registry) (evs : List SEv) (q : AnyFrame) (hq : q.Ok)
    (hn : .reset ∉ evs) (rest more : Bytes) (hb : sreceived evs ++ more = q.bytes ++ rest)
    (hdone : (srun svc reg evs).phase = .done) :
    (q.f.cmdcode = 0 → (srun svc reg evs).out = [heartbeatAck q.f.requestId] ∧ (srun svc reg evs).calls = []) ∧
    (q.f.cmdcode ≠ 0 → ¬ q.Refused → (serviceName q.header = none ∨ methodName q.header = none) →
      ((∀ h0 fresh, ∃ h1 ctx, extract h0 fresh q.header = .ok (h1, ctx)) →
      (srun svc reg evs).out = [reply q.f.requestId RespStatus.clientSendError.code []]) ∧
      (srun svc reg evs).calls = []) := by
  have hi := SInv.run svc reg q hq rest evs hn more hb
  cases hi with
  | reading c hp => rw [hdone] at hp; exact hp.elim
  | calling c hp => rw [hdone] at hp; cases hp
  | done hp hr hh =>
    generalize (srun svc reg evs).calls = cs at *
    generalize (srun svc reg evs).result = res at *
    generalize (srun svc reg evs).out = out at *
    constructor
    · intro h0
      cases hh with
      | heartbeat h => exact ⟨rfl, rfl⟩
      | rejected h => exact absurd h0 h.1
      | noName h hc => exact absurd h0 hc
      | badContext h hc => exact absurd h0 hc
      | notFound h hc => exact absurd h0 hc
      | called h hc => exact absurd h0 hc
    · intro h0 hnr hnn
      cases hh with
      | heartbeat h => exact absurd h h0
      | rejected h => exact absurd h hnr
      | noName h hc => exact ⟨fun _ => rfl, rfl⟩
      | badContext h hc e h0 fresh he =>
        refine ⟨?_, rfl⟩
        intro hctx
        obtain ⟨h1, ctx, hx⟩ := hctx h0 fresh
        rw [hx] at he
        cases he
      | notFound h hc s m pre h0 h1 fresh ctx st hs hm =>
        rcases hnn with e | e
        · rw [e] at hs; cases hs
        · rw [e] at hm; cases hm
      | called h hc c o hcall =>
        obtain ⟨-, -, s, m, pre, -, hs, hm, -⟩ := hcall
        rcases hnn with e | e
        · rw [e] at hs; cases hs
        · rw [e] at hm; cases hm

set_option maxRecDepth 20000 in
example : let evs : List SEv := [.data exNoMethod.bytes, .handler [], .handler [], .handler [], .handler []]
    (srun exServices exReg evs).phase = .done ∧ (srun exServices exReg evs).out = [reply 9 8 []] := by
  decide +kernel

end Bolt
