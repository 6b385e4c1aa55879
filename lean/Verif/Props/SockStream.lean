import Verif.Props.SockListener
import Verif.Props.ListenerStream
/-!
# C110, C111: what the socket listener makes of an arbitrary byte stream
-/
namespace Bolt
open Spec

/-! ## The specification -/

/-- the bytes are not a whole frame, and no reason to refuse one has been seen -/
def Spec.Incomplete (bs : Bytes) : Prop :=
  bs.length < 22 ∨ ∃ f cl hl nl x, Fields.Fit true f ∧ cl < 65536 ∧ hl < 65536 ∧ nl < 4294967296 ∧
    bs = fixedPart true f cl hl nl ++ x ∧
    (x.length < cl + hl ∨ x.length < cl + hl + nl ∧ ∃ d, headerFromBytes ((x.drop cl).take hl) = .ok d)

/-- the bytes begin with a frame whose header section cannot be decoded -/
def Spec.Unreadable (bs : Bytes) : Prop :=
  ∃ f cn hb nl x e, Fields.Fit true f ∧ cn.length < 65536 ∧ hb.length < 65536 ∧ nl < 4294967296 ∧
    bs = frameHead f cn hb nl ++ x ∧ headerFromBytes hb = .error e

/-- the bytes begin with this frame -/
def Spec.Complete (q : AnyFrame) (bs : Bytes) : Prop := q.Ok ∧ q.bytes <+: bs

/-! ## Every byte sequence is of exactly one of these kinds -/

theorem input_cases (bs : Bytes) : Incomplete bs ∨ Unreadable bs ∨ ∃ q, Complete q bs := by
  by_cases h22 : bs.length < 22
  · exact .inl (.inl h22)
  · obtain ⟨f, cl, hl, nl, hf, h1, h2, h3, e, -⟩ := reqHdr_total (bs.take 22) (by rw [List.length_take]; omega)
    have hbs : bs = fixedPart true f cl hl nl ++ bs.drop 22 := by rw [← e, List.take_append_drop]
    generalize bs.drop 22 = x at hbs
    by_cases hh : x.length < cl + hl
    · exact .inl (.inr ⟨f, cl, hl, nl, x, hf, h1, h2, h3, hbs, .inl hh⟩)
    · have hx : x = x.take cl ++ ((x.drop cl).take hl ++ (x.drop cl).drop hl) := by
        rw [List.take_append_drop, List.take_append_drop]
      have hcn : (x.take cl).length = cl := by rw [List.length_take]; omega
      have hhb : ((x.drop cl).take hl).length = hl := by rw [List.length_take, List.length_drop]; omega
      have hbs' : bs = frameHead f (x.take cl) ((x.drop cl).take hl) nl ++ (x.drop cl).drop hl := by
        unfold frameHead
        rw [hcn, hhb, hbs]
        simp only [List.append_assoc, List.append_cancel_left_eq]
        exact hx
      cases hd : headerFromBytes ((x.drop cl).take hl) with
      | error er =>
        exact .inr (.inl ⟨f, _, _, nl, _, er, hf, by rw [hcn]; exact h1, by rw [hhb]; exact h2, h3, hbs', hd⟩)
      | ok d =>
        by_cases hc : x.length < cl + hl + nl
        · exact .inl (.inr ⟨f, cl, hl, nl, x, hf, h1, h2, h3, hbs, .inr ⟨hc, d, hd⟩⟩)
        · have hct : (((x.drop cl).drop hl).take nl).length = nl := by
            rw [List.length_take, List.length_drop, List.length_drop]; omega
          refine .inr (.inr ⟨⟨f, x.take cl, (x.drop cl).take hl, d, ((x.drop cl).drop hl).take nl⟩,
            ⟨hf, ⟨by rw [hcn]; exact h1, by rw [hhb]; exact h2, by rw [hct]; exact h3⟩, hd⟩,
            ((x.drop cl).drop hl).drop nl, ?_⟩)
          unfold AnyFrame.bytes frame
          rw [hct, hbs']
          unfold frameHead
          simp only [List.append_assoc, List.take_append_drop]

/-- the fixed part determines the lengths -/
theorem head_inj {f f' : Fields} {cl hl nl cl' hl' nl' : Nat} {x x' : Bytes} (hf : Fields.Fit true f) (h1 : cl < 65536)
    (h2 : hl < 65536) (h3 : nl < 4294967296) (hf' : Fields.Fit true f') (h1' : cl' < 65536) (h2' : hl' < 65536)
    (h3' : nl' < 4294967296) (e : fixedPart true f cl hl nl ++ x = fixedPart true f' cl' hl' nl' ++ x') :
    cl = cl' ∧ hl = hl' ∧ nl = nl' ∧ x = x' ∧ fixedPart true f cl hl nl = fixedPart true f' cl' hl' nl' := by
  obtain ⟨e1, e2⟩ := List.append_inj e (by rw [fixedPart_length, fixedPart_length])
  have r := reqHdr_fixed f cl hl nl hf h1 h2 h3
  rw [e1, reqHdr_fixed f' cl' hl' nl' hf' h1' h2' h3'] at r
  simp only [Except.ok.injEq, ReqHdr.mk.injEq, Int.natCast_inj] at r
  obtain ⟨-, -, -, -, a, b, c⟩ := r
  exact ⟨a.symm, b.symm, c.symm, e2, e1⟩

theorem frameHead_append (f : Fields) (cn hb : Bytes) (nl : Nat) (x : Bytes) :
    frameHead f cn hb nl ++ x = fixedPart true f cn.length hb.length nl ++ (cn ++ (hb ++ x)) := by
  simp [frameHead, List.append_assoc]

theorem incomplete_not_unreadable {bs : Bytes} (h : Incomplete bs) : ¬ Unreadable bs := by
  rintro ⟨f', cn, hb, nl', x', er, hf', h1', h2', h3', e', hd'⟩
  rcases h with h | ⟨f, cl, hl, nl, x, hf, h1, h2, h3, e, hx⟩
  · have := congrArg List.length e'
    rw [frameHead_append, List.length_append, fixedPart_length] at this
    simp only [if_true] at this
    omega
  · rw [e, frameHead_append] at e'
    obtain ⟨rfl, rfl, rfl, rfl, -⟩ := head_inj hf h1 h2 h3 hf' h1' h2' h3' e'
    rcases hx with hx | ⟨hx, d, hd⟩
    · simp only [List.length_append] at hx; omega
    · rw [List.drop_left, List.take_left, hd'] at hd; cases hd

theorem incomplete_not_complete {bs : Bytes} (h : Incomplete bs) (q : AnyFrame) : ¬ Complete q bs := by
  rintro ⟨hq, rest, e'⟩
  rw [AnyFrame.bytes, frame] at e'
  rcases h with h | ⟨f, cl, hl, nl, x, hf, h1, h2, h3, e, hx⟩
  · have := congrArg List.length e'
    simp only [List.length_append, fixedPart_length, if_true] at this
    omega
  · rw [e] at e'
    simp only [List.append_assoc] at e'
    obtain ⟨rfl, rfl, rfl, rfl, -⟩ := head_inj hq.fit hq.body.1 hq.body.2.1 hq.body.2.2 hf h1 h2 h3 e'
    simp only [List.length_append] at hx
    rcases hx with hx | ⟨hx, d, hd⟩ <;> omega

theorem unreadable_not_complete {bs : Bytes} (h : Unreadable bs) (q : AnyFrame) : ¬ Complete q bs := by
  rintro ⟨hq, rest, e'⟩
  obtain ⟨f, cn, hb, nl, x, er, hf, h1, h2, h3, e, hd⟩ := h
  rw [AnyFrame.bytes, frame, e, frameHead_append] at e'
  simp only [List.append_assoc] at e'
  obtain ⟨a, b, c, e2, -⟩ := head_inj hq.fit hq.body.1 hq.body.2.1 hq.body.2.2 hf h1 h2 h3 e'
  obtain ⟨-, e3⟩ := List.append_inj e2 a
  obtain ⟨e4, -⟩ := List.append_inj e3 b
  rw [← e4, hq.decodes] at hd
  cases hd

/-! ## The invariant -/

/-- the phase fits what has been consumed -/
def AnyPhaseAt (consumed : Bytes) : SPhase → Prop
  | .hdr => consumed = []
  | .cls h => ∃ f cl hl nl, Fields.Fit true f ∧ cl < 65536 ∧ hl < 65536 ∧ nl < 4294967296 ∧
      h = ⟨f.ptype, f.cmdcode, f.requestId, f.seventh, (cl : Nat), (hl : Nat), (nl : Nat)⟩ ∧
      consumed = fixedPart true f cl hl nl
  | .shdr h cn => ∃ f hl nl, Fields.Fit true f ∧ cn.length < 65536 ∧ hl < 65536 ∧ nl < 4294967296 ∧
      h = ⟨f.ptype, f.cmdcode, f.requestId, f.seventh, (cn.length : Nat), (hl : Nat), (nl : Nat)⟩ ∧
      consumed = fixedPart true f cn.length hl nl ++ cn
  | .body h cn d => ∃ f hb nl, Fields.Fit true f ∧ cn.length < 65536 ∧ hb.length < 65536 ∧ nl < 4294967296 ∧
      h = ⟨f.ptype, f.cmdcode, f.requestId, f.seventh, (cn.length : Nat), (hb.length : Nat), (nl : Nat)⟩ ∧
      headerFromBytes hb = .ok d ∧ consumed = frameHead f cn hb nl
  | _ => False

inductive UInv (s : SSt) : Prop
  | reading (consumed : Bytes) (hp : AnyPhaseAt consumed s.phase) (hr : s.recvd = consumed ++ s.acc ++ s.buf)
      (hw : s.acc.length ≤ s.phase.want) (ho : s.out = []) (hc : s.calls = []) (hres : s.result = none)
  | unreadable (hp : s.phase = .done) (hu : Unreadable s.recvd) (ho : s.out = []) (hc : s.calls = [])
      (hres : s.result = none)
  | complete (q : AnyFrame) (hq : Complete q s.recvd)

theorem UInv.handler {svc : Services} {s : SSt} (h : UInv s) (fresh : PyStr) (hres : s.reset = false) :
    UInv (s.handler svc fresh) := by
  cases h with
  | unreadable hp hu ho hc hrs => unfold SSt.handler; rw [hp]; exact .unreadable hp hu ho hc hrs
  | complete q hq =>
    refine .complete q ?_
    rw [(handler_env svc s fresh).recvd]
    exact hq
  | reading consumed hp hr hw ho hc hrs =>
    have hself : UInv s := .reading consumed hp hr hw ho hc hrs
    have spin : (s.acc ++ s.buf).length ≤ s.phase.want → UInv { s with acc := s.acc ++ s.buf, buf := [] } := by
      intro hl
      exact .reading consumed hp (by simp [hr, List.append_assoc]) hl ho hc hrs
    have key : ∀ (n : Nat) (k : SSt → Bytes → SSt), n = s.phase.want →
        (∀ part b', part.length = n → s.acc ++ s.buf = part ++ b' → UInv (k { s with acc := [], buf := b' } part)) →
        UInv (s.readexactly n k) := by
      intro n k hn hk
      rw [readexactly_spec s n k hres (by rw [hn]; exact hw)]
      split
      · next hle =>
        exact hk _ _ (by rw [List.length_take]; omega) (List.take_append_drop ..).symm
      · split
        · exact spin (by omega)
        · exact hself
    unfold SSt.handler
    split
    · next hph =>
      rw [hph] at hp
      have hp : consumed = [] := hp
      subst hp
      refine key _ _ (by rw [hph]; rfl) ?_
      intro part b' hlen hb'
      rw [boltRequest_headerSize] at hlen
      obtain ⟨f, cl, hl, nl, hf, h1, h2, h3, e, hh⟩ := reqHdr_total part hlen
      rw [hh]
      exact .reading part ⟨f, cl, hl, nl, hf, h1, h2, h3, rfl, e⟩ (by dsimp only; rw [hr]; simp [hb'])
        (Nat.zero_le _) ho hc hrs
    · next h hph =>
      rw [hph] at hp
      obtain ⟨f, cl, hl, nl, hf, h1, h2, h3, rfl, rfl⟩ := hp
      refine key _ _ (by rw [hph]; rfl) ?_
      intro part b' hlen hb'
      simp only [Int.toNat_natCast] at hlen
      subst hlen
      exact .reading _ ⟨f, hl, nl, hf, h1, h2, h3, rfl, rfl⟩ (by dsimp only; rw [hr, List.append_assoc, hb']; simp)
        (Nat.zero_le _) ho hc hrs
    · next h cn hph =>
      rw [hph] at hp
      obtain ⟨f, hl, nl, hf, h1, h2, h3, rfl, rfl⟩ := hp
      refine key _ _ (by rw [hph]; rfl) ?_
      intro part b' hlen hb'
      simp only [Int.toNat_natCast] at hlen
      subst hlen
      have e : s.recvd = frameHead f cn part nl ++ b' := by
        rw [hr, List.append_assoc _ s.acc, hb', frameHead_append]; simp
      split
      · next er hd => exact .unreadable rfl ⟨f, cn, part, nl, b', er, hf, h1, h2, h3, e, hd⟩ ho hc hrs
      · next d hd =>
        exact .reading _ ⟨f, part, nl, hf, h1, h2, h3, rfl, hd, rfl⟩ (by dsimp only; rw [e]; simp)
          (Nat.zero_le _) ho hc hrs
    · next h cn d hph =>
      rw [hph] at hp
      obtain ⟨f, hb, nl, hf, h1, h2, h3, rfl, hd, rfl⟩ := hp
      refine key _ _ (by rw [hph]; rfl) ?_
      intro part b' hlen hb'
      simp only [Int.toNat_natCast] at hlen
      subst hlen
      refine .complete ⟨f, cn, hb, d, part⟩ ?_
      rw [(serve_env ..).recvd]
      refine ⟨⟨hf, ⟨h1, h2, h3⟩, hd⟩, b', ?_⟩
      dsimp only
      rw [hr, List.append_assoc _ s.acc, hb', AnyFrame.bytes, frame, frameHead]
      simp
    · next hph => rw [hph] at hp; exact hp.elim
    · next hph => rw [hph] at hp; exact hp.elim

theorem Spec.Unreadable.mono {a b : Bytes} (h : Unreadable a) : Unreadable (a ++ b) := by
  obtain ⟨f, cn, hb, nl, x, er, hf, h1, h2, h3, e, hd⟩ := h
  exact ⟨f, cn, hb, nl, x ++ b, er, hf, h1, h2, h3, by rw [e, List.append_assoc], hd⟩

theorem UInv.run (svc : Services) (reg : Registry) (evs : List SEv) (hn : .reset ∉ evs) : UInv (srun svc reg evs) := by
  revert hn
  refine srun_induct svc reg (fun evs s => SEv.reset ∉ evs → UInv s) ?_ ?_ evs
  · intro _
    exact .reading [] rfl rfl (Nat.zero_le _) rfl rfl rfl
  · intro pre e ih hn
    have hn' : SEv.reset ∉ pre := fun h => hn (by simp [h])
    have hres : (srun svc reg pre).reset = false := by
      rw [(srun_env svc reg pre).2.2.1]; simpa using hn'
    have h := ih hn'
    generalize srun svc reg pre = s at *
    cases e with
    | data bs =>
      simp only [sstep]
      split
      · exact h
      · cases h with
        | reading c hp hr hw ho hc hrs =>
          exact .reading c hp (by dsimp only; rw [hr]; simp [List.append_assoc]) hw ho hc hrs
        | unreadable hp hu ho hc hrs => exact .unreadable hp hu.mono ho hc hrs
        | complete q hq => exact .complete q ⟨hq.1, hq.2.trans (List.prefix_append _ _)⟩
    | eof =>
      cases h with
      | reading c hp hr hw ho hc hrs => exact .reading c hp hr hw ho hc hrs
      | unreadable hp hu ho hc hrs => exact .unreadable hp hu ho hc hrs
      | complete q hq => exact .complete q hq
    | reset => exact absurd (by simp) hn
    | handler fresh => exact h.handler fresh hres
    | finish o =>
      cases h with
      | reading c hp hr hw ho hc hrs =>
        have : sstep svc s (.finish o) = s := by
          unfold sstep
          cases hph : s.phase with
          | calling id => rw [hph] at hp; exact hp.elim
          | _ => rfl
        rw [this]
        exact .reading c hp hr hw ho hc hrs
      | unreadable hp hu ho hc hrs =>
        have : sstep svc s (.finish o) = s := by unfold sstep; rw [hp]
        rw [this]
        exact .unreadable hp hu ho hc hrs
      | complete q hq =>
        refine .complete q ?_
        rw [(finishEv_env svc s o).recvd]
        exact hq
    | register r =>
      cases h with
      | reading c hp hr hw ho hc hrs => exact .reading c hp hr hw ho hc hrs
      | unreadable hp hu ho hc hrs => exact .unreadable hp hu ho hc hrs
      | complete q hq => exact .complete q hq

/-- with an unreadable header section there, every turn of the thread gets it on -/
theorem unreadable_rank (svc : Services) (reg : Registry) (evs : List SEv) (hn : .reset ∉ evs)
    (hu : Unreadable (sreceived evs)) (fresh : PyStr) :
    ((srun svc reg evs).handler svc fresh).phase.rank ≤ (srun svc reg evs).phase.rank - 1 := by
  obtain ⟨e1, -, e3, -⟩ := srun_env svc reg evs
  have hres : (srun svc reg evs).reset = false := by rw [e3]; simpa using hn
  have hi := UInv.run svc reg evs hn
  rw [← e1] at hu
  cases hi with
  | complete q hq => exact absurd hq (unreadable_not_complete hu q)
  | unreadable hp => unfold SSt.handler; rw [hp]; dsimp only; rw [hp]; exact Nat.zero_le _
  | reading consumed hp hr hw ho hc hrs =>
    refine handler_rank svc _ fresh (.inr ⟨hres, hw, ?_⟩)
    obtain ⟨f', cn', hb', nl', x', er, hf', h1', h2', h3', e', hd'⟩ := hu
    rw [hr, frameHead_append] at e'
    generalize srun svc reg evs = s at *
    have e2 := congrArg List.length e'
    simp only [List.length_append, fixedPart_length, if_true] at e2 ⊢
    cases hph : s.phase with
    | hdr =>
      rw [hph] at hp
      have hp : consumed = [] := hp
      subst hp
      simp only [List.length_nil] at e2
      show 22 ≤ _
      omega
    | cls h =>
      rw [hph] at hp
      obtain ⟨f, cl, hl, nl, hf, h1, h2, h3, rfl, rfl⟩ := hp
      rw [List.append_assoc] at e'
      obtain ⟨rfl, rfl, rfl, -, -⟩ := head_inj hf h1 h2 h3 hf' h1' h2' h3' e'
      simp only [fixedPart_length, if_true] at e2
      simp only [SPhase.want, Int.toNat_natCast]
      omega
    | shdr h cn =>
      rw [hph] at hp
      obtain ⟨f, hl, nl, hf, h1, h2, h3, rfl, rfl⟩ := hp
      simp only [List.append_assoc] at e'
      obtain ⟨a, rfl, rfl, -, -⟩ := head_inj hf h1 h2 h3 hf' h1' h2' h3' e'
      simp only [List.length_append, fixedPart_length, if_true] at e2
      simp only [SPhase.want, Int.toNat_natCast]
      omega
    | body h cn d =>
      rw [hph] at hp
      obtain ⟨f, hb, nl, hf, h1, h2, h3, rfl, hd, rfl⟩ := hp
      rw [List.append_assoc, frameHead_append] at e'
      obtain ⟨a, b, rfl, e3, -⟩ := head_inj hf h1 h2 h3 hf' h1' h2' h3' e'
      obtain ⟨-, e4⟩ := List.append_inj e3 a
      obtain ⟨e5, -⟩ := List.append_inj e4 b
      rw [e5, hd'] at hd
      cases hd
    | calling id => rw [hph] at hp; exact hp.elim
    | done => rw [hph] at hp; exact hp.elim

/-! ## C110 -/

/-- C110. The bytes that a connection of the socket listener receives are of exactly one of three kinds (not yet a whole
frame; beginning with a frame whose header section cannot be decoded; beginning with a whole frame, which is unique), and
as long as there is no reset:
* with an incomplete frame, the handler has done nothing and has not ended;
* with an undecodable header section, it never sends or calls anything; four turns of the thread end it;
* with a whole frame, it has done nothing yet, or is in the call that the frame asks for, or has ended having done what
  `Spec.Handled` says; four turns and the end of the method end it. What follows the frame is never looked at. -/
theorem C110_every_stream (svc : Services) (reg : Registry) (evs : List SEv) (hn : .reset ∉ evs) :
    let s := srun svc reg evs
    (Incomplete (sreceived evs) ∧ ¬ Unreadable (sreceived evs) ∧ (∀ q, ¬ Complete q (sreceived evs)) ∧
      s.phase ≠ .done ∧ s.out = [] ∧ s.calls = []) ∨
    (¬ Incomplete (sreceived evs) ∧ Unreadable (sreceived evs) ∧ (∀ q, ¬ Complete q (sreceived evs)) ∧
      s.out = [] ∧ s.calls = [] ∧
      ∀ f1 f2 f3 f4, (srun svc reg (evs ++ [.handler f1, .handler f2, .handler f3, .handler f4])).phase = .done) ∨
    (¬ Incomplete (sreceived evs) ∧ ¬ Unreadable (sreceived evs) ∧
      ∃ q, Complete q (sreceived evs) ∧ (∀ q', Complete q' (sreceived evs) → q'.bytes = q.bytes) ∧
      ((s.phase ≠ .done ∧ s.out = [] ∧ s.calls = []) ∨
       (s.phase = .calling q.f.requestId ∧ s.out = [] ∧ ∃ c, s.calls = [c] ∧ CallFor svc reg evs q c) ∨
       (s.phase = .done ∧ Handled svc reg evs q s.calls s.result s.out)) ∧
      ∀ f1 f2 f3 f4 o,
        (srun svc reg (evs ++ [.handler f1, .handler f2, .handler f3, .handler f4, .finish o])).phase = .done) := by
  dsimp only
  have hu := UInv.run svc reg evs hn
  have hr := (srun_env svc reg evs).1
  rcases input_cases (sreceived evs) with h | h | ⟨q, h⟩
  · left
    refine ⟨h, incomplete_not_unreadable h, incomplete_not_complete h, ?_⟩
    cases hu with
    | complete q hq => rw [hr] at hq; exact absurd hq (incomplete_not_complete h q)
    | unreadable hp hu => rw [hr] at hu; exact absurd hu (incomplete_not_unreadable h)
    | reading c hp _ hw ho hc hrs =>
      refine ⟨?_, ho, hc⟩
      intro e
      rw [e] at hp
      exact hp
  · right; left
    refine ⟨fun h' => incomplete_not_unreadable h' h, h, unreadable_not_complete h, ?_⟩
    have h0 : (srun svc reg evs).out = [] ∧ (srun svc reg evs).calls = [] := by
      cases hu with
      | complete q hq => rw [hr] at hq; exact absurd hq (unreadable_not_complete h q)
      | unreadable hp hu ho hc hrs => exact ⟨ho, hc⟩
      | reading c hp _ hw ho hc hrs => exact ⟨ho, hc⟩
    refine ⟨h0.1, h0.2, ?_⟩
    intro f1 f2 f3 f4
    have step : ∀ (evs : List SEv) (f : PyStr), .reset ∉ evs → Unreadable (sreceived evs) →
        (srun svc reg (evs ++ [.handler f])).phase.rank ≤ (srun svc reg evs).phase.rank - 1 ∧
        .reset ∉ evs ++ [.handler f] ∧ Unreadable (sreceived (evs ++ [.handler f])) := by
      intro evs f hn hb
      refine ⟨?_, by simpa using hn, by rw [sreceived_snoc_handler]; exact hb⟩
      rw [srun_append]
      exact unreadable_rank svc reg evs hn hb f
    have r0 : (srun svc reg evs).phase.rank ≤ 4 := by
      cases (srun svc reg evs).phase <;> simp [SPhase.rank]
    obtain ⟨a1, a2, a3⟩ := step evs f1 hn h
    obtain ⟨b1, b2, b3⟩ := step _ f2 a2 a3
    obtain ⟨c1, c2, c3⟩ := step _ f3 b2 b3
    obtain ⟨d1, d2, d3⟩ := step _ f4 c2 c3
    have e : evs ++ [.handler f1, .handler f2, .handler f3, .handler f4] =
        evs ++ [.handler f1] ++ [.handler f2] ++ [.handler f3] ++ [.handler f4] := by simp
    rw [e]
    have hu' := UInv.run svc reg _ d2
    rw [← (srun_env svc reg _).1] at d3
    cases hu' with
    | complete q hq => exact absurd hq (unreadable_not_complete d3 q)
    | unreadable hp => exact hp
    | reading c hp =>
      exfalso
      have hz : (srun svc reg (evs ++ [.handler f1] ++ [.handler f2] ++ [.handler f3] ++ [.handler f4])).phase.rank = 0 := by
        omega
      revert hz hp
      cases (srun svc reg (evs ++ [.handler f1] ++ [.handler f2] ++ [.handler f3] ++ [.handler f4])).phase with
      | done => exact fun hp _ => hp
      | calling => exact fun hp _ => hp
      | _ => exact fun _ hz => by cases hz
  · right; right
    refine ⟨fun h' => incomplete_not_complete h' q h, fun h' => unreadable_not_complete h' q h, q, h, ?_, ?_, ?_⟩
    · intro q' h'
      obtain ⟨hq, r, e⟩ := h
      obtain ⟨hq', r', e'⟩ := h'
      rw [← e] at e'
      unfold AnyFrame.bytes frame at e' ⊢
      simp only [List.append_assoc] at e' ⊢
      obtain ⟨a, b, c, e2, e3⟩ := head_inj hq'.fit hq'.body.1 hq'.body.2.1 hq'.body.2.2 hq.fit hq.body.1 hq.body.2.1 hq.body.2.2 e'
      obtain ⟨e4, e5⟩ := List.append_inj e2 a
      obtain ⟨e6, e7⟩ := List.append_inj e5 b
      obtain ⟨e8, -⟩ := List.append_inj e7 c
      rw [e3, e4, e6, e8]
    · obtain ⟨hq, rest, e⟩ := h
      have hi := SInv.run svc reg q hq rest evs hn [] (by rw [List.append_nil]; exact e.symm)
      cases hi with
      | reading c hp hr' ha hw ho hc hrs =>
        refine .inl ⟨?_, ho, hc⟩
        intro e
        rw [e] at hp
        exact hp
      | calling c hp hr' hnn hc ho hcs hrs => exact .inr (.inl ⟨hp, ho, c, hcs, hc⟩)
      | done hp hr' hh => exact .inr (.inr ⟨hp, hh⟩)
    · obtain ⟨hq, rest, e⟩ := h
      intro f1 f2 f3 f4 o
      exact C83_progress svc reg evs q hq rest hn e.symm f1 f2 f3 f4 o

set_option maxRecDepth 20000 in
/-- An incomplete frame; one whose header section is cut off in a string; a whole frame with something behind it. -/
example :
    let run (bs : Bytes) := srun exServices exReg [.data bs, .eof, .handler [], .handler [], .handler [], .handler (py "t")]
    (run ((exReq 3 [1]).bytes.dropLast)).phase = .body (hdrOfFrame (exReq 3 [1]).any) reqClass exReqHeader ∧
    (run (frame true (exReq 3 [1]).f reqClass [0, 0, 0, 9, 65] [])).phase = .done ∧
    (run (frame true (exReq 3 [1]).f reqClass [0, 0, 0, 9, 65] [])).out = [] ∧
    (run ((exReq 3 [1]).bytes ++ [0, 1, 2])).phase = .calling 3 := by
  decide +kernel

/-! ## C111 -/

/-- C111 as listed: every well-formed request on a connection is served, if its method is there throughout. -/
def C111_full : Prop :=
  ∀ (svc : Services) (reg : Registry) (evs : List SEv) (qs : List ReqFrame) (s m : PyStr), .reset ∉ evs →
    sregistrations evs = [] → sreceived evs = (qs.map ReqFrame.bytes).flatten →
    (∀ q ∈ qs, q.Ok ∧ serviceName q.header = some s ∧ methodName q.header = some m ∧
      ∀ h0 fresh, ∃ h1 ctx func, extract h0 fresh q.header = .ok (h1, ctx) ∧ lookup svc reg h1 ctx s m = .found func) →
    ∃ more : List SEv, .reset ∉ more ∧ (srun svc reg (evs ++ more)).calls.map SCall.body = qs.map ReqFrame.content

/-- how much has been done, by phase -/
def OnceInv (s : SSt) : Prop :=
  s.calls.length ≤ 1 ∧ s.out.length ≤ 1 ∧
  match s.phase with
  | .calling _ => s.out = []
  | .done => True
  | _ => s.calls = [] ∧ s.out = []

theorem OnceInv.send {s : SSt} (h1 : s.calls.length ≤ 1) (h2 : s.out = []) (m : Except PyExc Bytes) :
    OnceInv (s.send m) := by
  unfold SSt.send
  split
  · split
    · exact ⟨h1, by simp [SSt.finish, h2], trivial⟩
    · exact ⟨h1, by simp [SSt.finish, h2], trivial⟩
  · exact ⟨h1, by simp [SSt.finish, h2], trivial⟩

theorem OnceInv.serve (svc : Services) {s : SSt} (h1 : s.calls = []) (h2 : s.out = []) (fresh : PyStr) (h : ReqHdr)
    (cn : Bytes) (d : PyDict PyStr PyStr) (b : Bytes) : OnceInv (s.serve svc fresh h cn d b) := by
  have h1' : s.calls.length ≤ 1 := by rw [h1]; exact Nat.zero_le _
  have fin : OnceInv s.finish := ⟨h1', by simp [SSt.finish, h2], trivial⟩
  unfold SSt.serve
  split
  · exact .send h1' h2 _
  · split
    · exact fin
    · split
      · exact fin
      · split
        · exact .send h1' h2 _
        · split
          · exact .send h1' h2 _
          · split
            · exact fin
            · dsimp only
              split
              · exact ⟨h1', by simp [SSt.finish, h2], trivial⟩
              · exact ⟨by simp [h1], by simp [h2], h2⟩

theorem OnceInv.run (svc : Services) (reg : Registry) (evs : List SEv) : OnceInv (srun svc reg evs) := by
  refine srun_induct svc reg (fun _ s => OnceInv s) ⟨Nat.zero_le _, Nat.zero_le _, rfl, rfl⟩ ?_ evs
  intro pre e h
  generalize srun svc reg pre = s at *
  cases e with
  | data bs =>
    simp only [sstep]
    split <;> exact h
  | eof => exact h
  | reset => exact h
  | register r => exact h
  | finish o =>
    simp only [sstep]
    split
    · next id hp =>
      obtain ⟨h1, h2, h3⟩ := h
      rw [hp] at h3
      split
      · exact ⟨h1, h2, trivial⟩
      · exact .send (s := { s with result := some _ }) h1 h3 _
    · exact h
  | handler fresh =>
    have key : ∀ (n : Nat) (k : SSt → Bytes → SSt), s.calls = [] → s.out = [] →
        (∀ (t : SSt) (b : Bytes), t.calls = [] → t.out = [] → OnceInv (k t b)) → OnceInv (s.readexactly n k) := by
      intro n k hc ho hk
      unfold SSt.readexactly
      split
      · split
        · exact ⟨h.1, h.2.1, trivial⟩
        · dsimp only
          split
          · split
            · exact h
            · exact hk _ _ hc ho
          · exact h
      · exact hk _ _ hc ho
    have go : ∀ {t : SSt}, t.calls = [] → t.out = [] → (∀ id, t.phase ≠ .calling id) → OnceInv t := by
      intro t hc ho hp
      refine ⟨by rw [hc]; exact Nat.zero_le _, by rw [ho]; exact Nat.zero_le _, ?_⟩
      split
      · next id e => exact absurd e (hp id)
      · trivial
      · exact ⟨hc, ho⟩
    simp only [sstep]
    unfold SSt.handler
    have h3 := h.2.2
    split
    · next hp =>
      rw [hp] at h3
      refine key _ _ h3.1 h3.2 ?_
      intro t b hc ho
      split
      · exact go hc ho (fun id e => by cases e)
      · exact go hc ho (fun id e => by cases e)
    · next hp =>
      rw [hp] at h3
      exact key _ _ h3.1 h3.2 fun t b hc ho => go hc ho (fun id e => by cases e)
    · next hp =>
      rw [hp] at h3
      refine key _ _ h3.1 h3.2 ?_
      intro t b hc ho
      split
      · exact go hc ho (fun id e => by cases e)
      · exact go hc ho (fun id e => by cases e)
    · next hp =>
      rw [hp] at h3
      exact key _ _ h3.1 h3.2 fun t b hc ho => .serve svc hc ho _ _ _ _ _
    · exact h
    · exact h

/-- Whatever arrives and happens (resets included): a connection makes at most one call and sends at most one message. -/
theorem C111_at_most_one (svc : Services) (reg : Registry) (evs : List SEv) :
    (srun svc reg evs).calls.length ≤ 1 ∧ (srun svc reg evs).out.length ≤ 1 :=
  ⟨(OnceInv.run svc reg evs).1, (OnceInv.run svc reg evs).2.1⟩

set_option maxRecDepth 20000 in
/-- two requests on one connection, as the asyncio client sends them -/
theorem C111_violated : ¬ C111_full := by
  intro h
  obtain ⟨more, -, hm⟩ := h exServices exReg [.data ((exReq 3 [1]).bytes ++ (exReq 4 [2]).bytes)] [exReq 3 [1], exReq 4 [2]]
    (py "s") (py "m") (by simp) rfl (by simp [sreceived]) (by
      intro q hq
      simp only [List.mem_cons, List.not_mem_nil, or_false] at hq
      rcases hq with rfl | rfl
      · exact ⟨exReq_ok 3 [1] (by constructor <;> decide) (by decide), by decide +kernel, by decide +kernel,
          fun h0 fresh => ⟨_, _, 0, rfl, rfl⟩⟩
      · exact ⟨exReq_ok 4 [2] (by constructor <;> decide) (by decide), by decide +kernel, by decide +kernel,
          fun h0 fresh => ⟨_, _, 0, rfl, rfl⟩⟩)
  have := congrArg List.length hm
  rw [List.length_map] at this
  have h1 := (C111_at_most_one exServices exReg ([.data ((exReq 3 [1]).bytes ++ (exReq 4 [2]).bytes)] ++ more)).1
  rw [this] at h1
  exact absurd h1 (by decide)

/-- C111, what holds: the first request of the connection is served. Missing: all others. -/
theorem C111_first_partial (svc : Services) (reg : Registry) (evs : List SEv) (q : ReqFrame) (rest : Bytes) (s m : PyStr)
    (hn : .reset ∉ evs) (hreg : sregistrations evs = []) (hb : sreceived evs = q.bytes ++ rest) (hq : q.Ok)
    (hs : serviceName q.header = some s) (hm : methodName q.header = some m)
    (hf : ∀ h0 fresh, ∃ h1 ctx func, extract h0 fresh q.header = .ok (h1, ctx) ∧ lookup svc reg h1 ctx s m = .found func) :
    ∃ more : List SEv, .reset ∉ more ∧ (srun svc reg (evs ++ more)).calls.map SCall.body = [q.content] := by
  refine ⟨[.handler [], .handler [], .handler [], .handler [], .finish (.raised .typeError)], by simp, ?_⟩
  have hq' : q.any.Ok := ⟨hq.fit, hq.body, hq.decodes⟩
  have hdone := C83_progress svc reg evs q.any hq' rest hn hb [] [] [] [] (.raised .typeError)
  have hrec : sreceived (evs ++ [.handler [], .handler [], .handler [], .handler [], .finish (.raised .typeError)]) =
      sreceived evs := by
    clear hdone hb hn hreg
    induction evs with
    | nil => rfl
    | cons e evs ih => cases e <;> simp [sreceived, ih]
  obtain ⟨c, o, h1, h2, -⟩ := C83_answer svc reg _ q hq rest (by simpa using hn) []
    (by rw [List.append_nil, hrec]; exact hb) s m hs hm
    (fun h0 fresh => by obtain ⟨h1, ctx, _, h, _⟩ := hf h0 fresh; exact ⟨h1, ctx, h⟩)
    (fun pre h0 fresh h1 ctx hp he => by
      obtain ⟨h1', ctx', func, h, h'⟩ := hf h0 fresh
      rw [h] at he
      cases he
      have : sregistrations pre = [] := by
        obtain ⟨post, hp⟩ := hp
        have := congrArg sregistrations hp
        rw [sregistrations_append, sregistrations_append, hreg] at this
        exact (List.append_eq_nil_iff.1 (this.trans rfl)).1
      rw [this]
      exact ⟨func, h'⟩) hdone
  rw [h1]
  simp [h2.body, ReqFrame.any]

end Bolt
