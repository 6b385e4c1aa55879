import Verif.Lemmas.FlowRest
/-!
# C173: with back pressure on both sides, everything comes to rest as well, and every call ends
-/
namespace Bolt
open Spec

namespace Spec

/-- time passes, or a service is registered -/
def FSysEv.passes : FSysEv → Bool
  | .server _ (.ev (.tick _)) => true
  | .server _ (.ev (.register _)) => true
  | _ => false

/-- a call is made -/
def FSysEv.isCall : FSysEv → Bool
  | .client (.ev (.call _)) => true
  | _ => false

/-- what happens on the listener's side of a connection happens on one that the client has opened -/
def FSysEv.onConn (c : FlowCfg) (v : PyVer) (y : FSys) : FSysEv → Prop
  | .server n _ => n < (y.client c v).a.conns.length
  | _ => True

/-- What can happen by itself: no call is made or cancelled, nobody closes, resets or loses a connection, no time passes.
Sockets hold `cap` bytes for each direction: they take what is buffered if there is room for it. Bytes arrive at the listener
if its reader waits for them, and at the client unless its reading task has ended. -/
def FSysEv.byItself (cap : Nat) (c : FlowCfg) (v : PyVer) (x : FSetup) (y : FSys) : FSysEv → Prop
  | .client (.ev (.start _ _)) => True
  | .client (.ev (.lock _)) => True
  | .client (.ev (.dialed _ _)) => True
  | .client (.ev (.wake _)) => True
  | .client (.ev (.recv _)) => True
  | .client (.turn _ _) => True
  | .client (.take n k) => onTheWay (y.out c v n) (y.buf c v n) (received (outsideOf (y.levs n))) + min k (y.buf c v n) ≤ cap
  | .client _ => False
  | .server n (.ev (.run _ _)) => n < (y.client c v).a.conns.length
  | .server n (.ev (.result _)) => n < (y.client c v).a.conns.length
  | .server n (.ev (.expire _)) => n < (y.client c v).a.conns.length
  | .server n (.ev (.futStart _)) => n < (y.client c v).a.conns.length
  | .server n (.ev (.futFinish _ _)) => n < (y.client c v).a.conns.length
  | .server n (.turn _ _) => n < (y.client c v).a.conns.length
  | .server n (.take k) => n < (y.client c v).a.conns.length ∧
      onTheWay (y.peer x n).st.l.wire (y.peer x n).st.buf (y.got c v n) + min k (y.peer x n).st.buf ≤ cap
  | .server _ _ => False
  | .there n _ => (y.peer x n).st.hold = false ∧ (y.peer x n).st.l.idle ∧ (y.peer x n).st.l.rd.phase ≠ .stopped
  | .back n _ => ∃ k, (y.client c v).a.conns[n]? = some k ∧ k.pc ≠ .ended

/-- the event has no effect: neither on the client nor on any listener, nor on the flow control of either -/
def FStill (c : FlowCfg) (v : PyVer) (x : FSetup) (y : FSys) (e : FSysEv) : Prop :=
  (fsysStep c v x y e).client c v = y.client c v ∧ ∀ n, ((fsysStep c v x y e).peer x n).st = (y.peer x n).st

/-- The system is at rest: nothing that could happen by itself has an effect. -/
def FAtRest (cap : Nat) (c : FlowCfg) (v : PyVer) (x : FSetup) (y : FSys) : Prop :=
  ∀ e : FSysEv, e.byItself cap c v x y → FStill c v x y e

/-- the system after `es` and the first `k` events of an endless schedule -/
def fsysPath (c : FlowCfg) (v : PyVer) (x : FSetup) (es : List FSysEv) (f : Nat → FSysEv) (k : Nat) : FSys :=
  fsysRun c v x (es ++ (List.range k).map f)

/-- The call is over; or it is suspended in a `drain` of connection `n`, of whose requests more than the low limit is
buffered; or it waits for its response on the connection. If the connection is up, it is the latter, and the listener has
not answered the call for one of three reasons. -/
def FOverOrUnanswered (c : FlowCfg) (v : PyVer) (x : FSetup) (y : FSys) (i : Nat) (call : ACall) : Prop :=
  (∃ r, call.pc = .done r) ∨
  ∃ (n : Nat) (k : AConn) (f : CFlow), (y.client c v).a.conns[n]? = some k ∧ (y.client c v).flows[n]? = some f ∧
    ((InDrain (y.client c v).a i n ∧ i ∈ f.waiters ∧ f.lost = false ∧ c.low < f.buf) ∨
      ((∃ ev, call.pc = .waiting ev) ∧ lastConn (y.client c v).a i = some n)) ∧
    (Up (y.peer x n) k f → (∃ ev, call.pc = .waiting ev) ∧ Unanswered (y.peer x n).st.l call)

end Spec

/-! ## The measure -/

def AFSt.rank3 (s : AFSt) (n : Nat) : Nat × Nat × Nat :=
  match s.flows[n]? with
  | some f => f.rank3 s.a.calls.length
  | none => (0, 0, 0)

def flowRank (s : AFSt) (p : Nat → LFSt) : (Nat × Nat × Nat × Nat) × Nat × Nat × Nat :=
  (sysRank s.a fun n => (p n).l, sum3 (fun n => add3 (s.rank3 n) (p n).rank3) s.a.conns.length)

def FLower (x y : (Nat × Nat × Nat × Nat) × Nat × Nat × Nat) : Prop := Prod.Lex Lower Less3 x y

theorem flower_wf : WellFounded FLower :=
  (Prod.lex ⟨Lower, lower_wf⟩ (Prod.lex Nat.lt_wfRel (Prod.lex Nat.lt_wfRel Nat.lt_wfRel))).wf

theorem flower1 {a b : Nat × Nat × Nat × Nat} {x y : Nat × Nat × Nat} (h : Lower a b) : FLower (a, x) (b, y) := Prod.Lex.left _ _ h

theorem flower2 {a b : Nat × Nat × Nat × Nat} {x y : Nat × Nat × Nat} (e : a = b) (h : Less3 x y) : FLower (a, x) (b, y) := by
  subst e; exact Prod.Lex.right _ h

def Spec.FSys.rank (c : FlowCfg) (v : PyVer) (x : FSetup) (y : FSys) : (Nat × Nat × Nat × Nat) × Nat × Nat × Nat :=
  flowRank (y.client c v) fun n => (y.peer x n).st

theorem fclient_step (c : FlowCfg) (v : PyVer) (y : FSys) (e : AFEv) :
    ({ y with cevs := y.cevs ++ [e] } : FSys).client c v = afStep c v (y.client c v) e := by
  unfold FSys.client
  exact afRun_snoc ..

theorem fpeer_add (x : FSetup) (y : FSys) (n : Nat) (e : LFEv) (m : Nat) :
    ((y.add n e).peer x m).st = if m = n then lfStep (x.cfg n) (x.svc n) (y.peer x n).st e else (y.peer x m).st := by
  unfold FlowPeer.st FSys.peer FSys.add
  dsimp only
  split
  · next hmn => subst hmn; exact lfRun_snoc ..
  · rfl

theorem fsysStep_client (c : FlowCfg) (v : PyVer) (x : FSetup) (y : FSys) {a : AFEv} (hd : ∀ n bs, a ≠ .ev (.data n bs)) :
    fsysStep c v x y (.client a) = { y with cevs := y.cevs ++ [a] } := by
  unfold fsysStep
  split
  · next e => exact absurd (by injection e) (hd _ _)
  · next e => injection e with e; rw [e]
  all_goals (next e => cases e)

theorem fsysStep_server (c : FlowCfg) (v : PyVer) (x : FSetup) (y : FSys) {n : Nat} {a : LFEv} (hd : ∀ bs, a ≠ .ev (.data bs)) :
    fsysStep c v x y (.server n a) = y.add n a := by
  unfold fsysStep
  split
  · next e => cases e
  · next e => cases e
  · next e => injection e with _ e; exact absurd e (hd _)
  · next e => injection e with e1 e2; rw [e1, e2]
  · next e => cases e
  · next e => cases e

/-- a step of the client makes the measure go down, or changes nothing -/
theorem client_lower {s s' : AFSt} (hlen : s.flows.length = s.a.conns.length) (h : CStep s s') (p : Nat → LFSt) :
    s' = s ∨ FLower (flowRank s' p) (flowRank s p) := by
  cases h with
  | same h => exact .inl h
  | client h => exact .inr (flower1 (h _))
  | flow n f f' was now rank =>
    right
    subst now
    refine flower2 rfl ?_
    have hn := (List.getElem?_eq_some_iff.1 was).1
    refine sum3_less (hlen ▸ hn) ?_ ?_
    · intro m _ e
      unfold AFSt.rank3
      dsimp only
      rw [List.getElem?_set_ne (Ne.symm e)]
    · refine less3_add_left _ ?_
      unfold AFSt.rank3
      dsimp only
      rw [List.getElem?_set_self hn, was]
      exact rank
  | forget i h now =>
    have hf : ∀ f ∈ s.flows, f.forget i = f ∨ ((f.forget i).rank3 s.a.calls.length).2.2 < (f.rank3 s.a.calls.length).2.2 := by
      intro f hm
      by_cases e : (f.woken.filter fun w => w.1 != i).length = f.woken.length
      · left
        have e1 : (f.woken.filter fun w => w.1 != i) = f.woken := List.Sublist.eq_of_length List.filter_sublist e
        have e2 : f.waiters.filter (· != i) = f.waiters := by
          rw [List.filter_eq_self]
          intro j hj
          have : j ≠ i := fun e => h f hm (e ▸ hj)
          simpa using this
        unfold CFlow.forget
        rw [e1, e2]
      · right
        have := List.length_filter_le (fun w : Nat × Bool => w.1 != i) f.woken
        show (f.woken.filter fun w => w.1 != i).length < f.woken.length
        omega
    have hle : ∀ f ∈ s.flows, ((f.forget i).rank3 s.a.calls.length).2.2 ≤ (f.rank3 s.a.calls.length).2.2 := by
      intro f hm
      exact List.length_filter_le _ _
    have hp : ∀ f ∈ s.flows, ((f.forget i).rank3 s.a.calls.length).1 = (f.rank3 s.a.calls.length).1 ∧
        ((f.forget i).rank3 s.a.calls.length).2.1 = (f.rank3 s.a.calls.length).2.1 := by
      intro f hm
      have e2 : f.waiters.filter (· != i) = f.waiters := by
        rw [List.filter_eq_self]
        intro j hj
        have : j ≠ i := fun e => h f hm (e ▸ hj)
        simpa using this
      refine ⟨rfl, ?_⟩
      show (List.range s.a.calls.length).countP (fun j => decide (j ∉ f.waiters.filter (· != i))) = _
      rw [e2]
      rfl
    by_cases hall : ∀ f ∈ s.flows, f.forget i = f
    · left
      rw [now]
      have : (s.flows.map fun f => f.forget i) = s.flows := by
        rw [List.map_congr_left hall, List.map_id']
      rw [this]
    · right
      have hex : ∃ f, f ∈ s.flows ∧ f.forget i ≠ f := by
        apply Classical.byContradiction
        intro hn
        exact hall fun f hm => Classical.byContradiction fun he => hn ⟨f, hm, he⟩
      obtain ⟨f, hm, hne⟩ := hex
      obtain ⟨n, hn⟩ := List.getElem?_of_mem hm
      have hlt := (List.getElem?_eq_some_iff.1 hn).1
      subst now
      refine flower2 rfl ?_
      have hr : ∀ m, m < s.a.conns.length → ∃ g, s.flows[m]? = some g ∧
          ({ s with flows := s.flows.map fun f => f.forget i } : AFSt).rank3 m = (g.forget i).rank3 s.a.calls.length ∧
          s.rank3 m = g.rank3 s.a.calls.length := by
        intro m hm
        rw [← hlen] at hm
        refine ⟨s.flows[m], List.getElem?_eq_getElem hm, ?_, ?_⟩
        · unfold AFSt.rank3
          dsimp only
          rw [List.getElem?_map, List.getElem?_eq_getElem hm]
          rfl
        · unfold AFSt.rank3
          rw [List.getElem?_eq_getElem hm]
      refine less3_3 (sumTo_congr fun m hm => ?_) (sumTo_congr fun m hm => ?_) (sumTo_le_lt (n := n) (hlen ▸ hlt) (fun m hm => ?_) ?_)
      · obtain ⟨g, g1, g2, g3⟩ := hr m hm
        have := (hp g (List.mem_of_getElem? g1)).1
        simp only [add3, g2, g3]
        omega
      · obtain ⟨g, g1, g2, g3⟩ := hr m hm
        have := (hp g (List.mem_of_getElem? g1)).2
        simp only [add3, g2, g3]
        omega
      · obtain ⟨g, g1, g2, g3⟩ := hr m hm
        have := hle g (List.mem_of_getElem? g1)
        simp only [add3, g2, g3]
        omega
      · obtain ⟨g, g1, g2, g3⟩ := hr n (hlen ▸ hlt)
        rw [hn] at g1
        cases g1
        have := (hf f hm).resolve_left hne
        simp only [add3, g2, g3]
        omega

/-- so does a step on the listener's side of a connection -/
theorem listener_lower {s : AFSt} {p p' : Nat → LFSt} {n : Nat} (hn : n < s.a.conns.length) (other : ∀ m, m ≠ n → p' m = p m)
    (h : LStep (p n) (p' n)) : (∀ m, p' m = p m) ∨ FLower (flowRank s p') (flowRank s p) := by
  have hl : ∀ m, m ≠ n → (p' m).l = (p m).l := fun m e => by rw [other m e]
  cases h with
  | same h =>
    left
    intro m
    by_cases e : m = n
    · subst e; exact h
    · exact other m e
  | read h => exact .inr (flower1 (lower_read (l := fun m => (p m).l) (l' := fun m => (p' m).l) hn hl (h _)))
  | work h rank => exact .inr (flower1 (lower_work (l := fun m => (p m).l) (l' := fun m => (p' m).l) hn hl h rank))
  | flow h rank =>
    right
    refine flower2 ?_ (sum3_less hn (fun m _ e => by rw [other m e]) (less3_add_right _ rank))
    congr 1
    funext m
    by_cases e : m = n
    · subst e; exact h
    · exact hl m e

/-- What any event but a new call does to the measure: it has no effect, or makes it go down; time and registrations do not
change it. -/
theorem fstep_rank (c : FlowCfg) (hc : c.low ≤ c.high) (v : PyVer) (x : FSetup) (hlim : ∀ n, (x.cfg n).low ≤ (x.cfg n).high)
    (y : FSys) (e : FSysEv) (hcall : e.isCall = false) (ho : e.onConn c v y) :
    FStill c v x y e ∨ (e.passes = true ∧ (fsysStep c v x y e).rank c v x = y.rank c v x) ∨
    FLower ((fsysStep c v x y e).rank c v x) (y.rank c v x) := by
  have hinv : AFInv (y.client c v) := afRun_inv c v y.cevs
  have hlen : (y.client c v).flows.length = (y.client c v).a.conns.length := (afRun_ok hc v y.cevs).len
  have hclient : ∀ a : AFEv, fsysStep c v x y e = { y with cevs := y.cevs ++ [a] } →
      (afStep c v (y.client c v) a = y.client c v ∨
        FLower (flowRank (afStep c v (y.client c v) a) fun n => (y.peer x n).st) (y.rank c v x)) →
      FStill c v x y e ∨ (e.passes = true ∧ (fsysStep c v x y e).rank c v x = y.rank c v x) ∨
      FLower ((fsysStep c v x y e).rank c v x) (y.rank c v x) := by
    intro a hs h
    unfold FStill
    rw [hs]
    rcases h with h | h
    · exact .inl ⟨by rw [fclient_step, h], fun n => rfl⟩
    · refine .inr (.inr ?_)
      unfold FSys.rank
      rw [fclient_step]
      exact h
  have hserver : ∀ (n : Nat) (a : LFEv), fsysStep c v x y e = y.add n a →
      (lfStep (x.cfg n) (x.svc n) (y.peer x n).st a = (y.peer x n).st ∨
        n < (y.client c v).a.conns.length ∧ (LStep (y.peer x n).st (lfStep (x.cfg n) (x.svc n) (y.peer x n).st a) ∨
          (lfStep (x.cfg n) (x.svc n) (y.peer x n).st a).l.readRank ((y.client c v).a.sentLen n) <
            (y.peer x n).st.l.readRank ((y.client c v).a.sentLen n))) →
      FStill c v x y e ∨ (e.passes = true ∧ (fsysStep c v x y e).rank c v x = y.rank c v x) ∨
      FLower ((fsysStep c v x y e).rank c v x) (y.rank c v x) := by
    intro n a hs h
    unfold FStill
    rw [hs]
    have hp := fpeer_add x y n a
    have hother : ∀ m, m ≠ n → ((y.add n a).peer x m).st = (y.peer x m).st := fun m e => by rw [hp, if_neg e]
    have hself : ((y.add n a).peer x n).st = lfStep (x.cfg n) (x.svc n) (y.peer x n).st a := by rw [hp, if_pos rfl]
    rcases h with h | ⟨hn, h | h⟩
    · refine .inl ⟨rfl, fun m => ?_⟩
      by_cases e : m = n
      · subst e; rw [hself, h]
      · exact hother m e
    · rcases listener_lower (s := y.client c v) (p := fun m => (y.peer x m).st) (p' := fun m => ((y.add n a).peer x m).st) hn hother
        (by rw [hself]; exact h) with h1 | h1
      · exact .inl ⟨rfl, h1⟩
      · exact .inr (.inr h1)
    · exact .inr (.inr (flower1 (lower_read (l := fun m => (y.peer x m).st.l) (l' := fun m => ((y.add n a).peer x m).st.l) hn
        (fun m e => by rw [hother m e]) (by rw [hself]; exact h))))
  cases e with
  | client a =>
    by_cases hd : ∃ n bs, a = .ev (.data n bs)
    · obtain ⟨n, bs, rfl⟩ := hd
      exact .inl ⟨rfl, fun _ => rfl⟩
    · have hd : ∀ n bs, a ≠ .ev (.data n bs) := fun n bs h => hd ⟨n, bs, h⟩
      refine hclient a (fsysStep_client c v x y hd) (client_lower hlen (afStep_rank c v _ hinv hlen a ?_ hd) _)
      rintro q rfl
      cases hcall
  | server n a =>
    have hn : n < (y.client c v).a.conns.length := ho
    by_cases hd : ∃ bs, a = .ev (.data bs)
    · obtain ⟨bs, rfl⟩ := hd
      exact .inl ⟨rfl, fun _ => rfl⟩
    · have hd : ∀ bs, a ≠ .ev (.data bs) := fun bs h => hd ⟨bs, h⟩
      have hpass : (∃ b : LEv, a = .ev b ∧ b.outside = true ∧ ∀ s : LSt, SameRead s (lstep (x.svc n) s b) ∧
          (lstep (x.svc n) s b).workRank = s.workRank ∧ (lstep (x.svc n) s b).wire = s.wire ∧ (lstep (x.svc n) s b).tasks = s.tasks) →
          (fsysStep c v x y (.server n a)).rank c v x = y.rank c v x := by
        rintro ⟨b, rfl, hb, h⟩
        rw [fsysStep_server c v x y hd]
        unfold FSys.rank
        rw [show (y.add n (.ev b)).client c v = y.client c v from rfl]
        have hm : ∀ m, SameRead (y.peer x m).st.l ((y.add n (.ev b)).peer x m).st.l ∧
            ((y.add n (.ev b)).peer x m).st.l.workRank = (y.peer x m).st.l.workRank ∧
            ((y.add n (.ev b)).peer x m).st.l.wire = (y.peer x m).st.l.wire ∧
            ((y.add n (.ev b)).peer x m).st.rank3 = (y.peer x m).st.rank3 := by
          intro m
          rw [fpeer_add]
          by_cases e : m = n
          · subst e
            rw [if_pos rfl]
            have e1 : lfStep (x.cfg m) (x.svc m) (y.peer x m).st (.ev b) =
                { (y.peer x m).st with l := lstep (x.svc m) (y.peer x m).st.l b } := by simp [lfStep, hb]
            rw [e1]
            obtain ⟨h1, h2, h3, h4⟩ := h (y.peer x m).st.l
            refine ⟨h1, h2, h3, ?_⟩
            unfold LFSt.rank3
            dsimp only
            rw [h4]
          · rw [if_neg e]; exact ⟨⟨rfl, rfl, rfl, rfl, rfl, rfl, rfl⟩, rfl, rfl, rfl⟩
        unfold flowRank
        refine Prod.ext (Prod.ext rfl (Prod.ext ?_ (Prod.ext ?_ ?_))) (sum3_congr fun m _ => by rw [(hm m).2.2.2])
        · exact sumTo_congr fun m _ => (hm m).1.rank _
        · exact sumTo_congr fun m _ => (hm m).2.1
        · exact sumTo_congr fun m _ => by rw [(hm m).2.2.1]
      by_cases ht : ∃ d, a = .ev (.tick d)
      · obtain ⟨d, rfl⟩ := ht
        exact .inr (.inl ⟨rfl, hpass ⟨_, rfl, rfl, fun s => ⟨⟨rfl, rfl, rfl, rfl, rfl, rfl, rfl⟩, rfl, rfl, rfl⟩⟩⟩)
      · by_cases hr : ∃ r, a = .ev (.register r)
        · obtain ⟨r, rfl⟩ := hr
          exact .inr (.inl ⟨rfl, hpass ⟨_, rfl, rfl, fun s => ⟨⟨rfl, rfl, rfl, rfl, rfl, rfl, rfl⟩, rfl, rfl, rfl⟩⟩⟩)
        · have hL : LFlow (x.cfg n) (y.peer x n).st := (LFlow.run (hlim n) (x.svc n) (x.reg n) (y.levs n)).1
          exact hserver n a (fsysStep_server c v x y hd) (.inr ⟨hn, .inl <| lfStep_rank _ _ _ hL a hd (fun d h => ht ⟨d, h⟩) fun r h => hr ⟨r, h⟩⟩)
  | there n len =>
    refine hserver n _ rfl ?_
    have hrec : (y.peer x n).st.l.recvd = received (outsideOf (y.levs n)) := (lfRun_env (x.cfg n) (x.svc n) (x.reg n) (y.levs n)).1
    generalize hd : ((y.out c v n).drop (received (outsideOf (y.levs n))).length).take
      (min len (onTheWay (y.out c v n) (y.buf c v n) (received (outsideOf (y.levs n))))) = d
    have hstep : lfStep (x.cfg n) (x.svc n) (y.peer x n).st (.ev (.data d)) =
        { (y.peer x n).st with l := lstep (x.svc n) (y.peer x n).st.l (.data d) } := by simp [lfStep, LEv.outside]
    rw [hstep]
    by_cases hd0 : d = []
    · subst hd0
      left
      rw [ldata_nil]
    · cases he : (y.peer x n).st.l.eof with
      | true => left; rw [ldata_eof _ _ he]
      | false =>
        right
        have hn : n < (y.client c v).a.conns.length := by
          apply Classical.byContradiction
          intro h
          have : (y.client c v).a.conns[n]? = none := List.getElem?_eq_none_iff.2 (by omega)
          unfold FSys.out at hd
          rw [this] at hd
          simp at hd
          exact hd0 hd
        refine ⟨hn, .inr ?_⟩
        have h1 : (y.client c v).a.sentLen n = (y.out c v n).length := by
          unfold ASt.sentLen FSys.out
          cases (y.client c v).a.conns[n]? <;> rfl
        have h2 : d.length ≤ (y.out c v n).length - (received (outsideOf (y.levs n))).length := by
          rw [← hd, List.length_take, List.length_drop]
          omega
        have h3 : 0 < d.length := List.length_pos_iff.2 hd0
        simp only [lstep, he, LSt.readRank, h1, Bool.false_eq_true, if_false, List.length_append]
        rw [hrec]
        omega
  | back n len =>
    refine hclient _ rfl ?_
    generalize hd : ((y.peer x n).st.l.wire.drop (y.got c v n).length).take
      (min len (onTheWay (y.peer x n).st.l.wire (y.peer x n).st.buf (y.got c v n))) = d
    simp only [afStep, astep]
    cases hk : (y.client c v).a.conns[n]? with
    | none =>
      left
      rw [modify_none _ hk, pad_same (Nat.le_of_eq hlen.symm)]
    | some k =>
      rw [modify_is_set _ hk]
      have hg : y.got c v n = k.recvd := by unfold FSys.got; rw [hk]
      by_cases hel : (k.eof || k.lost) = true
      · left
        rw [if_pos hel, set_same hk, pad_same (Nat.le_of_eq hlen.symm)]
      · rw [if_neg hel]
        by_cases hd0 : d = []
        · left
          subst hd0
          simp only [List.append_nil]
          rw [set_same hk, pad_same (Nat.le_of_eq hlen.symm)]
        · right
          refine flower1 (lower_conn _ hk rfl rfl ?_ rfl)
          have h2 : d.length ≤ (y.peer x n).st.l.wire.length - k.recvd.length := by
            rw [← hd, List.length_take, List.length_drop, hg]
            omega
          have h3 : 0 < d.length := List.length_pos_iff.2 hd0
          simp only [AConn.rank, List.length_append]
          omega

theorem fsysPath_succ (c : FlowCfg) (v : PyVer) (x : FSetup) (es : List FSysEv) (f : Nat → FSysEv) (k : Nat) :
    fsysPath c v x es f (k + 1) = fsysStep c v x (fsysPath c v x es f k) (f k) := by
  unfold fsysPath
  rw [List.range_succ, List.map_append, List.map_singleton, ← List.append_assoc, fsysRun_snoc]

/-- C173 (nothing goes on for ever). Along every endless schedule in which no further call is made, from some moment on
nothing has an effect any more, neither on the client nor on a listener nor on a buffer nor on who waits in a `drain`, except
that time passes and services are registered. -/
theorem C173_comes_to_rest (c : FlowCfg) (hc : c.low ≤ c.high) (v : PyVer) (x : FSetup) (hlim : ∀ n, (x.cfg n).low ≤ (x.cfg n).high)
    (es : List FSysEv) (f : Nat → FSysEv) (hcall : ∀ k, (f k).isCall = false)
    (hconn : ∀ k, (f k).onConn c v (fsysPath c v x es f k)) :
    ∃ N, ∀ k, N ≤ k → (f k).passes = true ∨ FStill c v x (fsysPath c v x es f k) (f k) := by
  have hstep := fun k => fstep_rank c hc v x hlim (fsysPath c v x es f k) (f k) (hcall k) (hconn k)
  have hrank : ∀ y e, FStill c v x y e → (fsysStep c v x y e).rank c v x = y.rank c v x := by
    intro y e h
    unfold FSys.rank
    rw [h.1]
    congr 1
    funext n
    exact h.2 n
  obtain ⟨N, hN⟩ := settles flower_wf (fun k => (fsysPath c v x es f k).rank c v x) fun k => by
    rw [fsysPath_succ]
    rcases hstep k with h | ⟨-, h⟩ | h
    · exact .inl (hrank _ _ h)
    · exact .inl h
    · exact .inr h
  refine ⟨N, fun k hk => ?_⟩
  rcases hstep k with h | ⟨h, -⟩ | h
  · exact .inr h
  · exact .inl h
  · have := hN k hk
    rw [fsysPath_succ] at this
    exact absurd h this

/-! ## What rest means -/

theorem Spec.FAtRest.client {cap : Nat} {c : FlowCfg} {v : PyVer} {x : FSetup} {y : FSys} (h : FAtRest cap c v x y) (a : AFEv)
    (hb : (FSysEv.client a).byItself cap c v x y) (hd : ∀ n bs, a ≠ .ev (.data n bs)) : afStep c v (y.client c v) a = y.client c v := by
  have := (h (.client a) hb).1
  rw [fsysStep_client c v x y hd, fclient_step] at this
  exact this

theorem Spec.FAtRest.server {cap : Nat} {c : FlowCfg} {v : PyVer} {x : FSetup} {y : FSys} (h : FAtRest cap c v x y) {n : Nat} (a : LFEv)
    (hb : (FSysEv.server n a).byItself cap c v x y) (hd : ∀ bs, a ≠ .ev (.data bs)) :
    lfStep (x.cfg n) (x.svc n) (y.peer x n).st a = (y.peer x n).st := by
  have := (h (.server n a) hb).2 n
  rw [fsysStep_server c v x y hd, fpeer_add, if_pos rfl] at this
  exact this

theorem Spec.FAtRest.event {cap : Nat} {c : FlowCfg} {v : PyVer} {x : FSetup} {y : FSys} (h : FAtRest cap c v x y) {n : Nat} (e : LEv)
    (ho : e.outside = true) (hb : (FSysEv.server n (.ev e)).byItself cap c v x y) (hd : ∀ bs, e ≠ .data bs) :
    lstep (x.svc n) (y.peer x n).st.l e = (y.peer x n).st.l := by
  have := h.server (.ev e) hb fun bs hx => hd bs (by injection hx)
  simp only [lfStep, ho, if_true] at this
  exact congrArg LFSt.l this

/-- a `drain` that has ended changes the call -/
theorem drained_moves {s : ASt} {i n : Nat} (v : PyVer) (ok : Bool) (h : InDrain s i n) : astep v s (.drained i ok) ≠ s := by
  obtain ⟨call, hc, r, a, hpc⟩ := h
  intro e
  have e : s.drained i ok = s := e
  have hlt : (s.drained i ok).callsRank < s.callsRank := by
    rcases hpc with hp | hp
    · exact drained1_rank ok hc hp
    · exact drained2_rank ok hc hp
  rw [e] at hlt
  exact Nat.lt_irrefl _ hlt

/-- a call in a `drain` that cannot go on is suspended -/
theorem turn_waits {c : FlowCfg} {v : PyVer} {s : AFSt} {i n : Nat} {f : CFlow} (hi : InDrain s.a i n)
    (hf : s.flows[n]? = some f) (e : afStep c v s (.turn i 0) = s) : i ∈ f.waiters := by
  apply Classical.byContradiction
  intro hn
  have e' := congrArg AFSt.a e
  cases hw : f.woken.find? (fun w => w.1 == i) with
  | some w =>
    rw [turn_woken hi hf hw] at e'
    exact drained_moves v _ hi e'
  | none =>
    by_cases hp : f.lost = false → f.paused = false
    · rw [turn_runs hi hf hw hn hp] at e'
      exact drained_moves v _ hi e'
    · have hl : f.lost = false := Classical.byContradiction fun h => hp fun h' => absurd h' h
      have hp : f.paused = true := by
        cases h : f.paused with
        | true => rfl
        | false => exact absurd (fun _ => h) hp
      have hi' := hi
      rw [inDrain_iff, ← pcOf_bind] at hi
      simp only [afStep, AFSt.turn, hi, hf, hw, hn, if_false, hl, hp, if_true, Bool.false_eq_true] at e
      split at e
      · have := congrArg (fun s : AFSt => s.flows[n]?) e
        dsimp only [AFSt.pad] at this
        rw [List.getElem?_append_left (by rw [List.length_modify]; exact (List.getElem?_eq_some_iff.1 hf).1), modify_self hf, hf] at this
        have := congrArg CFlow.waiters (Option.some.inj this)
        dsimp only at this
        rw [List.append_right_eq_self] at this
        cases this
      · exact drained_moves v _ hi' (congrArg AFSt.a e)

/-- at rest, a call is over, or in a `drain`, or waits for its response -/
theorem frest_call {cap : Nat} {c : FlowCfg} {v : PyVer} {x : FSetup} {y : FSys} (h : FAtRest cap c v x y) {aevs : List AEv}
    (ha : (y.client c v).a = arun v aevs) {i : Nat} {call : ACall} (hc : (y.client c v).a.calls[i]? = some call) :
    (∃ r, call.pc = .done r) ∨ (∃ n, InDrain (y.client c v).a i n) ∨
    ∃ ev, call.pc = .waiting ev ∧ (y.client c v).a.wake i = (y.client c v).a := by
  have hdial : ∀ (j : Nat) (d : ACall) (r l : Nat) (a : Addr), (y.client c v).a.calls[j]? = some d → d.pc = .dialing r a l → False := by
    intro j d r l a hj hp
    have h1 := dialed_rank true hj hp
    have h2 : (y.client c v).a.dialed j true = (y.client c v).a :=
      congrArg AFSt.a (h.client (.ev (.dialed j true)) trivial (by simp))
    rw [h2] at h1
    exact Nat.lt_irrefl _ h1
  cases hp : call.pc with
  | done r => exact .inl ⟨r, rfl⟩
  | waiting ev => exact .inr (.inr ⟨ev, rfl, congrArg AFSt.a (h.client (.ev (.wake i)) trivial (by simp))⟩)
  | new =>
    exfalso
    have h1 := start_rank (([], 0) : Addr) hc hp
    have h2 : (y.client c v).a.start i (([], 0) : Addr) = (y.client c v).a :=
      congrArg AFSt.a (h.client (.ev (.start i ([], 0))) trivial (by simp))
    rw [h2] at h1
    exact Nat.lt_irrefl _ h1
  | dialing r a l => exact (hdial i call r l a hc hp).elim
  | drain1 r a n => exact .inr (.inl ⟨n, call, hc, r, a, .inl hp⟩)
  | drain2 r a n => exact .inr (.inl ⟨n, call, hc, r, a, .inr hp⟩)
  | locking r a l =>
    exfalso
    have hc' := hc
    rw [ha] at hc'
    rcases C95_nobody_stuck v aevs i r a l call hc' hp with ⟨c', h1, h2⟩ | ⟨j, d, r', a', h1, h2, -⟩
    · have h3 : astep v (y.client c v).a (.lock i) = (y.client c v).a :=
        congrArg AFSt.a (h.client (.ev (.lock i)) trivial (by simp))
      rw [← ha, h3, hc] at h1
      cases h1
      rw [hp] at h2
      rcases h2 with ⟨n, -, h2⟩ | h2 <;> cases h2
    · rw [← ha] at h1
      exact hdial j d r' l a' h1 h2

/-- a listener whose reader waits for bytes has not seen the end of the stream -/
theorem idle_eof {s : LSt} (h : s.idle) (hp : s.rd.phase ≠ .stopped) : s.eof = false := by
  have h := h.2
  cases he : s.eof with
  | false => rfl
  | true =>
    exfalso
    unfold readerIter at h
    rw [he] at h
    dsimp only at h
    split at h
    · split at h
      · split at h <;> cases h
      · rw [if_pos rfl] at h; cases h
    · split at h
      · cases h
      · rw [if_pos rfl] at h; cases h
    · split at h
      · split at h <;> cases h
      · rw [if_pos rfl] at h; cases h
    · split at h
      · cases h
      · rw [if_pos rfl] at h; cases h
    · next h' => exact hp h'

/-- a reading task that waits for bytes has not seen the end of the stream -/
theorem recv_eof {s : ASt} {n : Nat} {k : AConn} (hk : s.conns[n]? = some k) (hr : s.recv n = s) (hc : k.cancelled = false)
    (hp : k.pc ≠ .ended) : k.pc ≠ .new ∧ k.eof = false := by
  have hlen := (List.getElem?_eq_some_iff.1 hk).1
  have hset : ∀ (s' : ASt) (k' : AConn), s'.conns = s.conns.set n k' → s' = s → k' = k := by
    intro s' k' h1 h2
    rw [h2] at h1
    have := congrArg (fun l : List AConn => l[n]?) h1
    simp only [List.getElem?_set_self hlen, hk] at this
    exact (Option.some.inj this).symm
  have hpc : ∀ (s' : ASt) (k' : AConn), s'.conns = s.conns.set n k' → s' = s → k'.pc = k.pc := fun s' k' h1 h2 => by rw [hset s' k' h1 h2]
  unfold ASt.recv at hr
  simp only [hk] at hr
  cases hpk : k.pc with
  | ended => exact absurd hpk hp
  | new =>
    simp only [hpk, hc, Bool.false_eq_true, if_false] at hr
    have := hpc _ _ rfl hr
    rw [hpk] at this
    cases this
  | hdr =>
    refine ⟨by simp, ?_⟩
    simp only [hpk] at hr
    split at hr
    · have := hpc _ _ rfl hr
      rw [hpk] at this
      cases this
    · split at hr
      · next hle =>
        exfalso
        have hsize : PkgClass.boltResponse.headerSize = 20 := rfl
        split at hr
        · have := congrArg (fun k : AConn => k.buf.length) (hset _ _ rfl hr)
          dsimp only at this
          rw [List.length_drop] at this
          omega
        · have := hpc _ _ rfl hr
          rw [hpk] at this
          cases this
      · split at hr
        · have := hpc _ _ rfl hr
          rw [hpk] at this
          cases this
        · next h => simpa using h
  | body h =>
    refine ⟨by simp, ?_⟩
    simp only [hpk] at hr
    split at hr
    · have := hpc _ _ rfl hr
      rw [hpk] at this
      cases this
    · split at hr
      · have := hpc _ _ rfl hr
        rw [hpk] at this
        cases this
      · split at hr
        · exfalso
          split at hr
          · have := hpc _ _ rfl hr
            rw [hpk] at this
            cases this
          · have := hpc _ _ (by rw [onPkg_conns]; rfl) hr
            rw [hpk] at this
            cases this
        · split at hr
          · have := hpc _ _ rfl hr
            rw [hpk] at this
            cases this
          · next h => simpa using h

/-- at rest, nothing can happen on a connection that is up -/
theorem frest_stuck {cap : Nat} {c : FlowCfg} {v : PyVer} {x : FSetup} {y : FSys} (h : FAtRest cap c v x y)
    {n : Nat} {k : AConn} {f : CFlow} (hk : (y.client c v).a.conns[n]? = some k) (hf : (y.client c v).flows[n]? = some f) (hup : Up (y.peer x n) k f) :
    Stuck cap c v (y.client c v) (y.peer x n) n k f := by
  have hn := (List.getElem?_eq_some_iff.1 hk).1
  have hout : y.out c v n = (k.sent.map Prod.snd).flatten := by unfold FSys.out; rw [hk]
  have hgot : y.got c v n = k.recvd := by unfold FSys.got; rw [hk]
  have hbuf : y.buf c v n = f.buf := by unfold FSys.buf; rw [hf]
  have hrecv : (y.client c v).a.recv n = (y.client c v).a := congrArg AFSt.a (h.client (.ev (.recv n)) trivial (by simp))
  refine ⟨hk, hf, fun i _ => h.client (.turn i 0) trivial (by simp), hrecv, fun i => h.server (.turn (.task i) 0) hn (by simp),
    h.server (.turn .reader 0) hn (by simp), fun hb => ?_, fun hb => ?_, fun h1 h2 h3 => ?_, fun hpc => ?_⟩
  · apply Classical.byContradiction
    intro hlt
    have := h.client (.take n 1) (by
      show onTheWay (y.out c v n) (y.buf c v n) (received (outsideOf (y.levs n))) + min 1 (y.buf c v n) ≤ cap
      rw [hout, hbuf]
      have : onTheWay (k.sent.map Prod.snd).flatten f.buf (received (outsideOf (y.levs n))) < cap := Nat.lt_of_not_le hlt
      omega) (by simp)
    have := congrArg (fun s : AFSt => s.flows[n]?) this
    dsimp only [afStep] at this
    rw [modify_self hf, hf] at this
    have := congrArg CFlow.buf (Option.some.inj this)
    unfold CFlow.take at this
    rw [if_neg (by simp [hup.client.2.2.2.1])] at this
    split at this <;> (dsimp only at this; omega)
  · apply Classical.byContradiction
    intro hlt
    have := h.server (n := n) (.take 1) (by
      refine ⟨hn, ?_⟩
      rw [hgot]
      have : onTheWay (y.peer x n).st.l.wire (y.peer x n).st.buf k.recvd < cap := Nat.lt_of_not_le hlt
      omega) (by simp)
    have := congrArg LFSt.buf this
    dsimp only [lfStep] at this
    rw [if_neg (by simp [hup.listener.2.1])] at this
    split at this <;> (dsimp only at this; omega)
  · have he := idle_eof h2 h3
    have hs := (h (.there n (y.out c v n).length) ⟨h1, h2, h3⟩).2 n
    rw [show fsysStep c v x y (.there n (y.out c v n).length) = y.add n (.ev (.data
      (((y.out c v n).drop (received (outsideOf (y.levs n))).length).take (min (y.out c v n).length
        (onTheWay (y.out c v n) (y.buf c v n) (received (outsideOf (y.levs n)))))))) from rfl, fpeer_add, if_pos rfl] at hs
    have := congrArg (fun s : LFSt => s.l.recvd) hs
    simp only [lfStep, LEv.outside, if_true, lstep, he, Bool.false_eq_true, if_false] at this
    rw [List.append_right_eq_self] at this
    have := congrArg List.length this
    rw [List.length_take, List.length_drop, hout, hbuf, List.length_nil] at this
    have hle : onTheWay (k.sent.map Prod.snd).flatten f.buf (received (outsideOf (y.levs n))) ≤
        (k.sent.map Prod.snd).flatten.length - (received (outsideOf (y.levs n))).length := by unfold onTheWay; omega
    show onTheWay (k.sent.map Prod.snd).flatten f.buf (received (outsideOf (y.levs n))) = 0
    omega
  · have he := (recv_eof hk hrecv hup.client.1 hpc).2
    have hs := (h (.back n (y.peer x n).st.l.wire.length) ⟨k, hk, hpc⟩).1
    rw [show fsysStep c v x y (.back n (y.peer x n).st.l.wire.length) = { y with cevs := y.cevs ++ [.ev (.data n
      (((y.peer x n).st.l.wire.drop (y.got c v n).length).take (min (y.peer x n).st.l.wire.length
        (onTheWay (y.peer x n).st.l.wire (y.peer x n).st.buf (y.got c v n)))))] } from rfl, fclient_step, hgot] at hs
    have := congrArg (fun s : AFSt => s.a.conns[n]?) hs
    simp only [afStep, AFSt.pad, astep] at this
    rw [modify_self hk, hk] at this
    have := congrArg AConn.recvd (Option.some.inj this)
    simp only [he, hup.client.2.1, Bool.or_false, Bool.false_eq_true, if_false] at this
    rw [List.append_right_eq_self] at this
    have := congrArg List.length this
    rw [List.length_take, List.length_drop, List.length_nil] at this
    have hle : onTheWay (y.peer x n).st.l.wire (y.peer x n).st.buf k.recvd ≤
        (y.peer x n).st.l.wire.length - k.recvd.length := by unfold onTheWay; omega
    omega

/-- C173 (what rest means for the calls). The sockets hold at least one byte. When the system is at rest, every call is over;
or it waits for a response that the listener will not send for one of three reasons; or its connection is not up. -/
theorem C173_at_rest (cap : Nat) (hcap : 0 < cap) (c : FlowCfg) (hc : c.low ≤ c.high) (v : PyVer)
    (x : FSetup) (hm : ∀ n, (x.cfg n).many = true) (hlim : ∀ n, (x.cfg n).low ≤ (x.cfg n).high) (es : List FSysEv)
    (hk : ∀ n, .server n .reset ∉ es) (hd : DistinctIds (clientEvs (fsysRun c v x es).cevs))
    (hmade : FlowMade (fsysRun c v x es).cevs) (hr : FAtRest cap c v x (fsysRun c v x es))
    (i : Nat) (call : ACall) (hcall : ((fsysRun c v x es).client c v).a.calls[i]? = some call) :
    FOverOrUnanswered c v x (fsysRun c v x es) i call := by
  obtain ⟨es', h⟩ := Simulates.run (c := c) (v := v) hm es hk
  have hlen : ((fsysRun c v x es).client c v).flows.length = ((fsysRun c v x es).client c v).a.conns.length :=
    (afRun_ok hc v (fsysRun c v x es).cevs).len
  have ha : ((fsysRun c v x es).client c v).a = arun v (sysRun v x.svc x.reg es').aevs := h.client
  have held : ∀ n k f, ((fsysRun c v x es).client c v).a.conns[n]? = some k → ((fsysRun c v x es).client c v).flows[n]? = some f →
      Up ((fsysRun c v x es).peer x n) k f → NoneHeld ((fsysRun c v x es).client c v) ((fsysRun c v x es).peer x n) n k f :=
    fun n k f h1 h2 h3 => C169_none_held cap hcap c hc v (fsysRun c v x es).cevs ((fsysRun c v x es).peer x) hlim h.joined n k f h3
      (frest_stuck hr h1 h2 h3)
  rcases frest_call hr ha hcall with h1 | ⟨n, hi⟩ | ⟨ev, hw, hstuck⟩
  · exact .inl h1
  · right
    obtain ⟨f, hf⟩ := C161_flow hc v (fsysRun c v x es).cevs i n hi
    have hf : ((fsysRun c v x es).client c v).flows[n]? = some f := hf
    have hn := (List.getElem?_eq_some_iff.1 hf).1
    rw [hlen] at hn
    have hkn : ((fsysRun c v x es).client c v).a.conns[n]? = some _ := List.getElem?_eq_getElem hn
    have hmem := turn_waits hi hf (hr.client (.turn i 0) trivial (by simp))
    have hwait := (C161_waits c hc v (fsysRun c v x es).cevs n f hf).1 i hmem
    exact ⟨n, _, f, hkn, hf, .inl ⟨hi, hmem, hwait.2.1, hwait.2.2.2⟩, fun hup => absurd hi ((held n _ f hkn hf hup).calls i)⟩
  · right
    have hc' := hcall
    rw [ha] at hc'
    obtain ⟨n, hn, k, hk, -⟩ := (arun_put v _).wait i call ev hc' hw
    rw [← ha] at hn hk
    have hlt := (List.getElem?_eq_some_iff.1 hk).1
    obtain ⟨f, hf⟩ : ∃ f, ((fsysRun c v x es).client c v).flows[n]? = some f := ⟨_, List.getElem?_eq_getElem (hlen ▸ hlt)⟩
    refine ⟨n, k, f, hk, hf, .inr ⟨⟨ev, hw⟩, hn⟩, fun hup => ⟨⟨ev, hw⟩, ?_⟩⟩
    have hs := frest_stuck hr hk hf hup
    have hh := held n k f hk hf hup
    have hlist := h.listener n
    have hreqs : requests (sysRun v x.svc x.reg es').aevs = requests (clientEvs (fsysRun c v x es).cevs) := by
      rw [← arun_requests v, ← flow_requests c v]
      exact congrArg (fun s : ASt => s.calls.map ACall.req) h.client.symm
    have hd' : DistinctIds (sysRun v x.svc x.reg es').aevs := by unfold DistinctIds; rw [hreqs]; exact hd
    have hmade' : ∀ d ∈ ((sysRun v x.svc x.reg es').client v).calls, AioMade d.req := by
      intro d hdm
      have : d.req ∈ requests (clientEvs (fsysRun c v x es).cevs) := by
        rw [← hreqs, ← arun_requests v]; exact List.mem_map_of_mem hdm
      exact hmade _ (mem_requests this)
    have hset := recv_eof hk hs.recv hup.client.1 hup.client.2.2.2.2
    have htasks : ∀ (j : Nat) (t : Task), ((fsysRun c v x es).peer x n).st.l.tasks[j]? = some t →
        t.st = .ended ∨ ((∃ d, t.st = .waiting d) ∧ callOver ((fsysRun c v x es).peer x n).st.l t (.raised .stopIteration)) := by
      intro j t ht
      have hinv : LInv (x.svc n) ((fsysRun c v x es).peer x n).st.l := by rw [hlist]; exact LInv.run ..
      have hwf : WaitFut ((fsysRun c v x es).peer x n).st.l := by
        rw [hlist]; exact WaitFut.run (x.svc n) (x.reg n) ((sysRun v x.svc x.reg es').levs n)
      refine rest_tasks hinv hwf ht (hr.event (.run j []) rfl hlt (by simp)) (hr.event (.result j) rfl hlt (by simp)) ?_
        (fun k => hr.event (.futStart k) rfl hlt (by simp)) fun k => hr.event (.futFinish k (.ret .none)) rfl hlt (by simp)
      simp only [lstep, ht]
      split
      · next hm => exact absurd hm (hh.tasks t (List.mem_of_getElem? ht) _)
      · rfl
    have hk' := hk
    have hn' := hn
    have hrecv' := hs.recv
    rw [h.client] at hk' hn' hrecv' hstuck
    obtain ⟨j, t, r, g1, g2, g3, -, g4⟩ := who_waits v x.svc x.reg es' i call ev n k hd' hmade' hc' hw hn' hk'
      (by rw [← h.received]; exact hh.there) (by rw [← hlist]; exact hh.back) ⟨k, hk', hset.1, hrecv'⟩
      ⟨hup.client.1, hup.client.2.1⟩ (by rw [← hlist]; exact hh.reader.2) (by rw [← hlist]; exact hh.tasks)
      (by rw [← hlist]; exact ⟨hup.listener.2.2.1, hup.listener.2.1⟩) hstuck
    rw [← hlist] at g1
    refine ⟨j, t, r, g1, g2, g3, ?_⟩
    rcases htasks j t g1 with h6 | h6
    · obtain ⟨f, hf, h7⟩ := g4 h6
      rcases h7 with rfl | ⟨x, rfl, hx⟩
      · exact .inl hf
      · exact .inr (.inl ⟨x, hf, hx⟩)
    · exact .inr (.inr h6)

theorem call_mem_requests {p : Pkg} : ∀ {evs : List AEv}, AEv.call p ∈ evs → p ∈ requests evs := by
  intro evs
  induction evs with
  | nil => intro h; cases h
  | cons e evs ih =>
    intro h
    rcases List.mem_cons.1 h with rfl | h'
    · exact List.mem_cons_self
    · clear h
      cases e <;> first | exact List.mem_cons_of_mem _ (ih h') | exact ih h'

theorem fsysStep_requests (c : FlowCfg) (v : PyVer) (x : FSetup) (y : FSys) (e : FSysEv) (h : e.isCall = false) :
    requests (clientEvs (fsysStep c v x y e).cevs) = requests (clientEvs y.cevs) := by
  have key : ∀ a : AFEv, (∀ q, a ≠ .ev (.call q)) → requests (clientEvs (y.cevs ++ [a])) = requests (clientEvs y.cevs) := by
    intro a ha
    unfold clientEvs
    rw [List.filterMap_append, requests_append]
    cases a with
    | ev b => cases b <;> first | exact absurd rfl (ha _) | simp [requests]
    | _ => simp [requests]
  cases e with
  | client a =>
    by_cases hd : ∃ n bs, a = .ev (.data n bs)
    · obtain ⟨n, bs, rfl⟩ := hd
      rfl
    · rw [fsysStep_client c v x y fun n bs h => hd ⟨n, bs, h⟩]
      refine key a ?_
      rintro q rfl
      cases h
  | server n a =>
    by_cases hd : ∃ bs, a = .ev (.data bs)
    · obtain ⟨bs, rfl⟩ := hd
      rfl
    · rw [fsysStep_server c v x y fun bs h => hd ⟨bs, h⟩]
      rfl
  | there n len => rfl
  | back n len => exact key _ (by simp)

theorem fsysPath_requests (c : FlowCfg) (v : PyVer) (x : FSetup) (es : List FSysEv) (f : Nat → FSysEv)
    (hcall : ∀ k, (f k).isCall = false) (k : Nat) :
    requests (clientEvs (fsysPath c v x es f k).cevs) = requests (clientEvs (fsysRun c v x es).cevs) := by
  induction k with
  | zero => unfold fsysPath; simp
  | succ k ih => rw [fsysPath_succ, fsysStep_requests _ _ _ _ _ (hcall k), ih]

/-- C173 (every call ends). The sockets hold at least one byte, and the listeners' connections are not reset. Along every
endless schedule in which no further call is made, and which does not stop while there is something to do, from some moment
on the system is at rest. Then every call is over, or waits for a response that the listener will not send for one of three
reasons, or its connection is not up. -/
theorem C173_every_call_ends (cap : Nat) (hcap : 0 < cap) (c : FlowCfg) (hc : c.low ≤ c.high) (v : PyVer)
    (x : FSetup) (hm : ∀ n, (x.cfg n).many = true) (hlim : ∀ n, (x.cfg n).low ≤ (x.cfg n).high) (es : List FSysEv) (f : Nat → FSysEv)
    (hk : ∀ n, .server n .reset ∉ es) (hkf : ∀ n k, f k ≠ .server n .reset)
    (hd : DistinctIds (clientEvs (fsysRun c v x es).cevs)) (hmade : FlowMade (fsysRun c v x es).cevs)
    (hcall : ∀ k, (f k).isCall = false) (hconn : ∀ k, (f k).onConn c v (fsysPath c v x es f k))
    (hlive : ∀ N, ¬ FAtRest cap c v x (fsysPath c v x es f N) →
      ∃ k, N ≤ k ∧ (f k).passes = false ∧ ¬ FStill c v x (fsysPath c v x es f k) (f k)) :
    ∃ N, ∀ k, N ≤ k → FAtRest cap c v x (fsysPath c v x es f k) ∧
      ∀ i call, ((fsysPath c v x es f k).client c v).a.calls[i]? = some call →
        FOverOrUnanswered c v x (fsysPath c v x es f k) i call := by
  obtain ⟨N, hN⟩ := C173_comes_to_rest c hc v x hlim es f hcall hconn
  refine ⟨N, fun k hNk => ?_⟩
  have hr : FAtRest cap c v x (fsysPath c v x es f k) := by
    apply Classical.byContradiction
    intro h
    obtain ⟨j, h1, h2, h3⟩ := hlive k h
    rcases hN j (by omega) with h4 | h4
    · rw [h2] at h4; cases h4
    · exact h3 h4
  have hreqs := fsysPath_requests c v x es f hcall k
  refine ⟨hr, fun i call hcl => C173_at_rest cap hcap c hc v x hm hlim _ ?_ ?_ ?_ hr i call hcl⟩
  · intro n hmem
    rcases List.mem_append.1 hmem with h1 | h1
    · exact hk n h1
    · obtain ⟨j, -, h2⟩ := List.mem_map.1 h1
      exact hkf n j h2
  · unfold DistinctIds at hd ⊢
    show ((requests (clientEvs (fsysPath c v x es f k).cevs)).map Pkg.requestId).Nodup
    rw [hreqs]
    exact hd
  · intro q hq
    have h1 : q ∈ requests (clientEvs (fsysPath c v x es f k).cevs) := call_mem_requests hq
    rw [hreqs] at h1
    exact hmade q (mem_requests h1)

/-! ## Examples -/

instance (c : FlowCfg) (v : PyVer) (y : FSys) (e : FSysEv) : Decidable (e.onConn c v y) := by
  unfold FSysEv.onConn
  split <;> infer_instance

theorem fstill_client {c : FlowCfg} {v : PyVer} {x : FSetup} {y : FSys} {e : FSysEv} (a : AFEv)
    (hs : fsysStep c v x y e = { y with cevs := y.cevs ++ [a] }) (h : afStep c v (y.client c v) a = y.client c v) : FStill c v x y e := by
  unfold FStill
  rw [hs]
  exact ⟨by rw [fclient_step, h], fun _ => rfl⟩

theorem fstill_server {c : FlowCfg} {v : PyVer} {x : FSetup} {y : FSys} {e : FSysEv} (n : Nat) (a : LFEv)
    (hs : fsysStep c v x y e = y.add n a) (h : lfStep (x.cfg n) (x.svc n) (y.peer x n).st a = (y.peer x n).st) : FStill c v x y e := by
  unfold FStill
  rw [hs]
  refine ⟨rfl, fun m => ?_⟩
  rw [fpeer_add]
  split
  · next e => subst e; exact h
  · rfl

/-- a system in which every call is over or waits, nothing is buffered, all bytes have arrived and been read, and all tasks and
calls of methods have ended is at rest -/
theorem fatRest_of {cap : Nat} {c : FlowCfg} {v : PyVer} {x : FSetup} {y : FSys}
    (hlen : (y.client c v).a.conns.length = (y.client c v).flows.length)
    (hcalls : ∀ (i : Nat) (call : ACall), (y.client c v).a.calls[i]? = some call →
      (∃ r, call.pc = .done r) ∨ ∃ ev, call.pc = .waiting ev ∧ ((y.client c v).a.calls[ev]?.map ACall.set) ≠ some true)
    (hconn : ∀ (n : Nat) (k : AConn), (y.client c v).a.conns[n]? = some k → (y.client c v).a.recv n = (y.client c v).a ∧
      (y.peer x n).st.l.recvd = (k.sent.map Prod.snd).flatten ∧ k.recvd = (y.peer x n).st.l.wire)
    (hflow : ∀ f ∈ (y.client c v).flows, f.buf = 0 ∧ f.paused = false)
    (hpeer : ∀ n, n < (y.client c v).a.conns.length → (y.peer x n).st.l.idle ∧ (∀ t ∈ (y.peer x n).st.l.tasks, t.st = .ended) ∧
      (∀ f ∈ (y.peer x n).st.l.futs, f.st ≠ .queued ∧ f.st ≠ .running) ∧
      (y.peer x n).st.buf = 0 ∧ (y.peer x n).st.paused = false ∧ (y.peer x n).st.hold = false ∧ (y.peer x n).st.woken = []) :
    FAtRest cap c v x y := by
  have hpad : ∀ s : AFSt, s = y.client c v → s.pad = y.client c v := by
    rintro s rfl
    exact pad_same (Nat.le_of_eq hlen)
  have hev : ∀ a : AEv, (∀ i b, a ≠ .drained i b) → (∀ i, a ≠ .cancel i) → astep v (y.client c v).a a = (y.client c v).a →
      afStep c v (y.client c v) (.ev a) = y.client c v := by
    intro a h1 h2 h3
    unfold afStep
    split
    · rfl
    · next h => injection h with h; exact absurd h (h2 _)
    · next h => injection h with h; rw [← h, h3]; exact hpad _ rfl
    all_goals (next h => cases h)
  have hlev : ∀ (n : Nat) (a : LEv), lstep (x.svc n) (y.peer x n).st.l a = (y.peer x n).st.l →
      lfStep (x.cfg n) (x.svc n) (y.peer x n).st (.ev a) = (y.peer x n).st := by
    intro n a h
    unfold lfStep
    dsimp only
    rw [h]
    exact ite_self _
  have hfut : ∀ n, n < (y.client c v).a.conns.length → ∀ k, (y.peer x n).st.l.futSt k ≠ some .queued ∧
      (y.peer x n).st.l.futSt k ≠ some .running := by
    intro n hn k
    unfold LSt.futSt
    cases hf : (y.peer x n).st.l.futs[k]? with
    | none => simp
    | some f =>
      have := (hpeer n hn).2.2.1 f (List.mem_of_getElem? hf)
      simpa using this
  have hactor : ∀ (a : AEv) (i : Nat), (a = .wake i ∨ a = .lock i ∨ (∃ b, a = .dialed i b) ∨ ∃ d, a = .start i d) →
      astep v (y.client c v).a a = (y.client c v).a := by
    rintro a i (rfl | rfl | ⟨b, rfl⟩ | ⟨d, rfl⟩)
    · show (y.client c v).a.wake i = _
      unfold ASt.wake
      cases hc : (y.client c v).a.calls[i]? with
      | none => rfl
      | some call =>
        rcases hcalls i call hc with ⟨r, h⟩ | ⟨ev, h, h'⟩
        · simp only [h]
        · simp only [h, h', if_false]
    · show (y.client c v).a.lockTurn i = _
      unfold ASt.lockTurn
      cases hc : (y.client c v).a.calls[i]? with
      | none => rfl
      | some call => rcases hcalls i call hc with ⟨r, h⟩ | ⟨ev, h, -⟩ <;> simp only [h]
    · show (y.client c v).a.dialed i b = _
      unfold ASt.dialed
      cases hc : (y.client c v).a.calls[i]? with
      | none => rfl
      | some call => rcases hcalls i call hc with ⟨r, h⟩ | ⟨ev, h, -⟩ <;> simp only [h]
    · show (y.client c v).a.start i d = _
      unfold ASt.start
      cases hc : (y.client c v).a.calls[i]? with
      | none => rfl
      | some call => rcases hcalls i call hc with ⟨r, h⟩ | ⟨ev, h, -⟩ <;> simp only [h]
  intro e hi
  cases e with
  | client a =>
    cases a with
    | lose n b => exact hi.elim
    | take n k =>
      refine fstill_client _ rfl ?_
      have : ((y.client c v).flows.modify n fun f => f.take c k) = (y.client c v).flows := by
        cases hf : (y.client c v).flows[n]? with
        | none => exact modify_none _ hf
        | some f =>
          obtain ⟨h1, h2⟩ := hflow f (List.mem_of_getElem? hf)
          rw [modify_is_set _ hf, show f.take c k = f from ?_, set_same hf]
          unfold CFlow.take
          rw [h2, h1]
          cases f
          dsimp only at h1 h2
          subst h1 h2
          simp
      show ({ y.client c v with flows := _ } : AFSt) = _
      rw [this]
    | turn i k =>
      refine fstill_client _ rfl ?_
      show ((y.client c v).turn c v i k).pad = _
      refine hpad _ ?_
      unfold AFSt.turn
      cases hc : (y.client c v).a.calls[i]? with
      | none => rfl
      | some call => rcases hcalls i call hc with ⟨r, h⟩ | ⟨ev, h, -⟩ <;> simp only [h, Option.bind_some, CallPc.writesOn]
    | ev a =>
      cases a with
      | call q => exact hi.elim
      | data n bs => exact hi.elim
      | cancel i => exact hi.elim
      | eof n => exact hi.elim
      | reset n => exact hi.elim
      | drained i b => exact hi.elim
      | recv n =>
        refine fstill_client _ rfl (hev _ (by simp) (by simp) ?_)
        cases hk : (y.client c v).a.conns[n]? with
        | none => show (y.client c v).a.recv n = _; unfold ASt.recv; rw [hk]
        | some k => exact (hconn n k hk).1
      | start i d => exact fstill_client _ rfl (hev _ (by simp) (by simp) (hactor _ i (.inr (.inr (.inr ⟨d, rfl⟩)))))
      | lock i => exact fstill_client _ rfl (hev _ (by simp) (by simp) (hactor _ i (.inr (.inl rfl))))
      | dialed i b => exact fstill_client _ rfl (hev _ (by simp) (by simp) (hactor _ i (.inr (.inr (.inl ⟨b, rfl⟩)))))
      | wake i => exact fstill_client _ rfl (hev _ (by simp) (by simp) (hactor _ i (.inl rfl)))
  | server n a =>
    have hn : n < (y.client c v).a.conns.length := by
      cases a with
      | ev b => cases b <;> first | exact hi | exact hi.elim
      | turn w k => exact hi
      | take k => exact hi.1
      | reset => exact hi.elim
    obtain ⟨hidle, htasks, -, hb, hp, hh, hw⟩ := hpeer n hn
    have hf := hfut n hn
    have hs : ∀ (i : Nat) (t : Task), (y.peer x n).st.l.tasks[i]? = some t → t.st = .ended := fun i t h => htasks t (List.mem_of_getElem? h)
    cases a with
    | reset => exact hi.elim
    | take k =>
      refine fstill_server n _ rfl ?_
      show (if _ then _ else if _ then _ else _) = _
      generalize (y.peer x n).st = z at hb hp ⊢
      cases z
      dsimp only at hb hp ⊢
      subst hb hp
      simp
    | turn w k =>
      refine fstill_server n _ rfl ?_
      cases w with
      | task i =>
        show (y.peer x n).st.turnTask (x.cfg n) (x.svc n) i k = _
        unfold LFSt.turnTask
        split
        · rfl
        · next t ht =>
          rw [hs i t ht]
          dsimp only
          rw [hw]
          generalize (y.peer x n).st = z at hw ⊢
          cases z
          dsimp only at hw
          subst hw
          rfl
      | reader =>
        show (y.peer x n).st.turnReader (x.cfg n) (x.svc n) k = _
        unfold LFSt.turnReader
        have : lstep (x.svc n) (y.peer x n).st.l .reader = (y.peer x n).st.l := by
          show LSt.reader _ = _
          unfold LSt.reader
          simp only [hidle.1, hidle.2]
        rw [hh, hidle.1]
        dsimp only
        rw [this]
        split
        · rfl
        · rw [if_neg (by simp), ← hh]
    | ev a =>
      cases a with
      | data bs => exact hi.elim
      | eof => exact hi.elim
      | reset => exact hi.elim
      | tick d => exact hi.elim
      | register r => exact hi.elim
      | reader => exact hi.elim
      | write i => exact hi.elim
      | run i fresh =>
        refine fstill_server n _ rfl (hlev _ _ ?_)
        simp only [lstep]
        split
        · next t ht => simp only [hs i t ht]
        · rfl
      | result i =>
        refine fstill_server n _ rfl (hlev _ _ ?_)
        simp only [lstep]
        split
        · next t ht => simp only [hs i t ht]
        · rfl
      | expire i =>
        refine fstill_server n _ rfl (hlev _ _ ?_)
        simp only [lstep]
        split
        · next t ht => simp only [hs i t ht]
        · rfl
      | futStart k =>
        refine fstill_server n _ rfl (hlev _ _ ?_)
        simp only [lstep, (hf k).1, if_false]
      | futFinish k o =>
        refine fstill_server n _ rfl (hlev _ _ ?_)
        simp only [lstep, (hf k).2, if_false]
  | there n len =>
    refine fstill_server n _ rfl (hlev _ _ ?_)
    have hnil : ∀ m, ((y.out c v n).drop (received (outsideOf (y.levs n))).length).take m = [] := by
      intro m
      have hrec : (y.peer x n).st.l.recvd = received (outsideOf (y.levs n)) := (lfRun_env (x.cfg n) (x.svc n) (x.reg n) (y.levs n)).1
      rw [← hrec]
      unfold FSys.out
      cases hk : (y.client c v).a.conns[n]? with
      | none => simp
      | some k => dsimp only; rw [(hconn n k hk).2.1]; simp
    rw [hnil]
    exact ldata_nil _ _
  | back n len =>
    refine fstill_client _ rfl (hev _ (by simp) (by simp) ?_)
    cases hk : (y.client c v).a.conns[n]? with
    | none => simp only [astep]; rw [modify_none _ hk]
    | some k =>
      have hg : y.got c v n = k.recvd := by unfold FSys.got; rw [hk]
      rw [hg, (hconn n k hk).2.2, List.drop_length, List.take_nil]
      simp only [astep]
      rw [modify_is_set _ hk]
      simp only [List.append_nil, ite_self]
      rw [set_same hk]

/-- the events of `exTightEvs` after the call has been made -/
def exTightRest : List FSysEv := exTightEvs.drop 1

/-- the schedule that goes on with nothing -/
def exTightPath (k : Nat) : FSysEv := exTightRest[k]?.getD (.there 0 0)

theorem exTight_stays (m : Nat) : ∀ y : FSys, y = fsysRun exFlowMany .from38 exTight (exTightEvs ++ List.replicate m (.there 0 0)) →
    y.client exFlowMany .from38 = exTightClient ∧ ∀ n, (y.peer exTight n).st = (exTightSys.peer exTight n).st := by
  induction m with
  | zero => rintro y rfl; simp only [List.replicate_zero, List.append_nil]; exact ⟨rfl, fun _ => rfl⟩
  | succ m ih =>
    rintro y rfl
    obtain ⟨h1, h2⟩ := ih _ rfl
    rw [List.replicate_succ', ← List.append_assoc, fsysRun_snoc]
    generalize fsysRun exFlowMany .from38 exTight (exTightEvs ++ List.replicate m (.there 0 0)) = z at h1 h2
    rw [← h1]
    refine ⟨rfl, fun n => ?_⟩
    rw [← h2 n, show fsysStep exFlowMany .from38 exTight z (.there 0 0) = z.add 0 (.ev (.data (List.take (min 0 _) _))) from rfl, fpeer_add]
    split
    · next e =>
      subst e
      rw [Nat.zero_min, List.take_zero]
      unfold lfStep
      simp only [ldata_nil, ite_self]
    · rfl

set_option maxRecDepth 40000 in
theorem exTight_facts :
    exTightClient.a.calls.map (fun c => (c.pc, c.set)) = [(.waiting 0, false)] ∧
    exTightClient.a.conns.length = 1 ∧ exTightClient.flows = [{}] ∧
    exTightClient.a.recv 0 = exTightClient.a ∧
    exTightClient.a.conns.map (fun k => (k.sent.map Prod.snd).flatten) = [exTightPeer.st.l.recvd] ∧
    exTightClient.a.conns.map AConn.recvd = [exTightPeer.st.l.wire] ∧
    (exTightPeer.st.l.tail = .reading ∧ readerIter exTightPeer.st.l.rd exTightPeer.st.l.buf exTightPeer.st.l.eof = none) ∧
    exTightPeer.st.l.tasks.map Task.st = [.ended] ∧
    exTightPeer.st.l.futs.map Fut.st = [.finished (.ret (.bytes []))] ∧
    exTightPeer.st.buf = 0 ∧ exTightPeer.st.paused = false ∧ exTightPeer.st.hold = false ∧ exTightPeer.st.woken = [] := by
  decide +kernel

theorem exTight_rests (y : FSys) (h1 : y.client exFlowMany .from38 = exTightClient)
    (h2 : ∀ n, (y.peer exTight n).st = (exTightSys.peer exTight n).st) : FAtRest 1 exFlowMany .from38 exTight y := by
  obtain ⟨e1, e2, e3, e4, e5, e6, e7, e8, e9, e10⟩ := exTight_facts
  apply fatRest_of
  · rw [h1, e2, e3]; rfl
  · intro i c hc
    rw [h1] at hc ⊢
    have h3 := congrArg (·[i]?) e1
    simp only [List.getElem?_map, hc, Option.map_some] at h3
    cases i with
    | zero =>
      right
      refine ⟨0, (Prod.mk.inj (Option.some.inj h3)).1, ?_⟩
      rw [hc]
      have := (Prod.mk.inj (Option.some.inj h3)).2
      simp [this]
    | succ i => cases h3
  · intro n k hk
    rw [h2 n]
    rw [h1] at hk ⊢
    have hn : n < 1 := by rw [← e2]; exact (List.getElem?_eq_some_iff.1 hk).1
    cases (show n = 0 by omega)
    have h4 := congrArg (·[0]?) e5
    have h5 := congrArg (·[0]?) e6
    simp only [List.getElem?_map, hk, Option.map_some] at h4 h5
    exact ⟨e4, (Option.some.inj h4).symm, Option.some.inj h5⟩
  · intro f hf
    rw [h1, e3, List.mem_singleton] at hf
    subst hf
    exact ⟨rfl, rfl⟩
  · intro n hn
    rw [h2 n]
    rw [h1, e2] at hn
    cases (show n = 0 by omega)
    refine ⟨e7, ?_, ?_, e10⟩
    · intro t ht
      have := List.mem_map_of_mem (f := Task.st) ht
      rw [show exTightSys.peer exTight 0 = exTightPeer from rfl, e8, List.mem_singleton] at this
      exact this
    · intro f hf
      have := List.mem_map_of_mem (f := Fut.st) hf
      rw [show exTightSys.peer exTight 0 = exTightPeer from rfl, e9, List.mem_singleton] at this
      rw [this]
      simp

def exTightOne : List FSysEv := [.client (.ev (.call (exAioReq exCallA)))]

theorem exTightRest_length : exTightRest.length = 21 := rfl

theorem exTightPath_rests (k : Nat) (hk : 21 ≤ k) :
    FAtRest 1 exFlowMany .from38 exTight (fsysPath exFlowMany .from38 exTight exTightOne exTightPath k) := by
  have h : exTightOne ++ (List.range k).map exTightPath = exTightEvs ++ List.replicate (k - 21) (.there 0 0) := by
    rw [show (List.range k).map exTightPath = exTightRest ++ List.replicate (k - 21) (.there 0 0) from ?_]
    · rfl
    · rw [← range_getD exTightRest (.there 0 0) (k - 21), exTightRest_length, show 21 + (k - 21) = k by omega]
      rfl
  obtain ⟨h1, h2⟩ := exTight_stays (k - 21) _ rfl
  unfold fsysPath
  rw [h]
  exact exTight_rests _ h1 h2

theorem exTightPath_get (k : Nat) : k < 21 ∨ exTightPath k = .there 0 0 := by
  by_cases h : k < 21
  · exact .inl h
  · right
    unfold exTightPath
    rw [List.getElem?_eq_none_iff.2 (by rw [exTightRest_length]; omega)]
    rfl

set_option maxRecDepth 40000 in
theorem exTightPath_noCall (k : Nat) : (exTightPath k).isCall = false := by
  rcases exTightPath_get k with h | h
  · have : ∀ k, k < 21 → (exTightPath k).isCall = false := by decide +kernel
    exact this k h
  · rw [h]; rfl

set_option maxRecDepth 40000 in
theorem exTightPath_onConn (k : Nat) : (exTightPath k).onConn exFlowMany .from38 (fsysPath exFlowMany .from38 exTight exTightOne exTightPath k) := by
  rcases exTightPath_get k with h | h
  · have hs : ∀ k, k < 21 → (exTightPath k).onConn exFlowMany .from38 (fsysPath exFlowMany .from38 exTight exTightOne exTightPath k) := by
      decide +kernel
    exact hs k h
  · rw [h]; trivial

set_option maxRecDepth 40000 in
theorem exTightPath_kept (n k : Nat) : exTightPath k ≠ .server n .reset := by
  rcases exTightPath_get k with h | h
  · have hs : ∀ k, k < 21 → (match exTightPath k with | .server _ .reset => false | _ => true) = true := by decide +kernel
    intro e
    have := hs k h
    rw [e] at this
    cases this
  · rw [h]; simp

/-- the case of `C173_comes_to_rest`: small limits on both sides, a call whose method returns `b''` -/
example : ∃ N, ∀ k, N ≤ k → (exTightPath k).passes = true ∨
    FStill exFlowMany .from38 exTight (fsysPath exFlowMany .from38 exTight exTightOne exTightPath k) (exTightPath k) :=
  C173_comes_to_rest exFlowMany (by decide) .from38 exTight (fun _ => (show (10 : Nat) ≤ 60 by decide)) exTightOne exTightPath
    exTightPath_noCall exTightPath_onConn

set_option maxRecDepth 40000 in
/-- the case of `C173_at_rest` -/
example (i : Nat) (call : ACall) (hc : exTightClient.a.calls[i]? = some call) :
    FOverOrUnanswered exFlowMany .from38 exTight exTightSys i call :=
  C173_at_rest 1 (by decide) exFlowMany (by decide) .from38 exTight (fun _ => rfl) (fun _ => (show (10 : Nat) ≤ 60 by decide)) exTightEvs
    exTight_kept (by decide +kernel) exTight_made (exTight_rests exTightSys rfl fun _ => rfl) i call hc

set_option maxRecDepth 40000 in
/-- the case of `C173_every_call_ends` -/
example : ∃ N, ∀ k, N ≤ k →
    FAtRest 1 exFlowMany .from38 exTight (fsysPath exFlowMany .from38 exTight exTightOne exTightPath k) ∧
    ∀ i call, ((fsysPath exFlowMany .from38 exTight exTightOne exTightPath k).client exFlowMany .from38).a.calls[i]? = some call →
      FOverOrUnanswered exFlowMany .from38 exTight (fsysPath exFlowMany .from38 exTight exTightOne exTightPath k) i call := by
  apply C173_every_call_ends 1 (by decide) exFlowMany (by decide) .from38 exTight (fun _ => rfl) (fun _ => (show (10 : Nat) ≤ 60 by decide))
    exTightOne exTightPath (by intro n h; simp [exTightOne] at h) exTightPath_kept (by decide +kernel) _ exTightPath_noCall exTightPath_onConn
  · intro N hN
    refine ⟨20, ?_, rfl, ?_⟩
    · apply Classical.byContradiction
      intro h
      exact hN (exTightPath_rests N (by omega))
    · intro h
      have h1 := h.2 0
      have h2 : ((fsysStep exFlowMany .from38 exTight (fsysPath exFlowMany .from38 exTight exTightOne exTightPath 20)
          (exTightPath 20)).peer exTight 0).st.l.tasks.map Task.st ≠
          ((fsysPath exFlowMany .from38 exTight exTightOne exTightPath 20).peer exTight 0).st.l.tasks.map Task.st := by decide +kernel
      exact h2 (by rw [h1])
  · intro req hr
    have : req = exAioReq exCallA := by
      have h : clientEvs (fsysRun exFlowMany .from38 exTight exTightOne).cevs = [.call (exAioReq exCallA)] := rfl
      rw [h] at hr
      simpa using hr
    rw [this]
    exact .inl ⟨exCallA, .sync, by decide +kernel⟩

end Bolt
