import Verif.Lemmas.Rest
import Verif.Props.AioDial
import Verif.Props.StopIteration
/-!
# C172: without new calls everything comes to rest, and every call ends
-/
namespace Bolt
open Spec

namespace Spec

/-- time passes, or a service is registered -/
def SysEv.passes : SysEv → Bool
  | .server _ (.tick _) => true
  | .server _ (.register _) => true
  | _ => false

/-- a call is made -/
def SysEv.isCall : SysEv → Bool
  | .client (.call _) => true
  | _ => false

/-- what happens by itself: no call is made or cancelled, nobody closes or resets a connection, no time passes -/
def SysEv.inner : SysEv → Bool
  | .client (.start _ _) => true
  | .client (.lock _) => true
  | .client (.dialed _ _) => true
  | .client (.drained _ _) => true
  | .client (.wake _) => true
  | .client (.recv _) => true
  | .client _ => false
  | .server _ (.data _) => false
  | .server _ .eof => false
  | .server _ .reset => false
  | .server _ (.tick _) => false
  | .server _ (.register _) => false
  | .server _ _ => true
  | .there _ _ => true
  | .back _ _ => true

/-- what happens on the listener's side of a connection happens on one that the client has opened -/
def SysEv.onConn (v : PyVer) (y : Sys) : SysEv → Prop
  | .server n _ => n < (y.client v).conns.length
  | _ => True

/-- the event has no effect: neither on the client nor on any listener -/
def Still (v : PyVer) (svc : Nat → Services) (reg : Nat → Registry) (y : Sys) (e : SysEv) : Prop :=
  (sysStep v svc reg y e).client v = y.client v ∧ ∀ n, ((sysStep v svc reg y e).peer svc reg n).st = (y.peer svc reg n).st

/-- The system is at rest: nothing that could happen by itself has an effect. -/
def AtRest (v : PyVer) (svc : Nat → Services) (reg : Nat → Registry) (y : Sys) : Prop :=
  ∀ e : SysEv, e.inner = true → e.onConn v y → Still v svc reg y e

/-- the system after `es` and the first `k` events of an endless schedule -/
def sysPath (v : PyVer) (svc : Nat → Services) (reg : Nat → Registry) (es : List SysEv) (f : Nat → SysEv) (k : Nat) : Sys :=
  sysRun v svc reg (es ++ (List.range k).map f)

end Spec

/-! ## The measure -/

def ASt.sentLen (s : ASt) (n : Nat) : Nat :=
  match s.conns[n]? with
  | some k => (k.sent.map Prod.snd).flatten.length
  | none => 0

def ASt.connRank (s : ASt) (n w : Nat) : Nat :=
  match s.conns[n]? with
  | some k => k.rank w
  | none => 0

/-- Further down: the calls; what the listeners have to read; the work they have; what the client has to read. -/
def sysRank (a : ASt) (l : Nat → LSt) : Nat × Nat × Nat × Nat :=
  (a.callsRank, sumTo (fun n => (l n).readRank (a.sentLen n)) a.conns.length, sumTo (fun n => (l n).workRank) a.conns.length,
   sumTo (fun n => a.connRank n (l n).wire.length) a.conns.length)

def Lower (x y : Nat × Nat × Nat × Nat) : Prop :=
  Prod.Lex (· < ·) (Prod.Lex (· < ·) (Prod.Lex (· < ·) (· < ·))) x y

theorem lower_wf : WellFounded Lower :=
  (Prod.lex Nat.lt_wfRel (Prod.lex Nat.lt_wfRel (Prod.lex Nat.lt_wfRel Nat.lt_wfRel))).wf

theorem lower1 {a b : Nat} {x y : Nat × Nat × Nat} (h : a < b) : Lower (a, x) (b, y) := Prod.Lex.left _ _ h

theorem lower2 {a a' b b' : Nat} {x y : Nat × Nat} (e : a = a') (h : b < b') : Lower (a, b, x) (a', b', y) := by
  subst e; exact Prod.Lex.right _ (Prod.Lex.left _ _ h)

theorem lower3 {a a' b b' c c' d d' : Nat} (e1 : a = a') (e2 : b = b') (h : c < c') : Lower (a, b, c, d) (a', b', c', d') := by
  subst e1; subst e2; exact Prod.Lex.right _ (Prod.Lex.right _ (Prod.Lex.left _ _ h))

theorem lower4 {a a' b b' c c' d d' : Nat} (e1 : a = a') (e2 : b = b') (e3 : c = c') (h : d < d') :
    Lower (a, b, c, d) (a', b', c', d') := by
  subst e1; subst e2; subst e3; exact Prod.Lex.right _ (Prod.Lex.right _ (Prod.Lex.right _ h))

/-- Numbers that never go up in a well-founded order stop changing. -/
theorem settles {α : Type} {r : α → α → Prop} (hr : WellFounded r) (g : Nat → α) (h : ∀ k, g (k + 1) = g k ∨ r (g (k + 1)) (g k)) :
    ∃ N, ∀ k, N ≤ k → ¬ r (g (k + 1)) (g k) := by
  suffices ∀ x, ∀ N, g N = x → ∃ N', ∀ k, N' ≤ k → ¬ r (g (k + 1)) (g k) from this (g 0) 0 rfl
  intro x
  induction x using hr.induction with
  | _ x ih =>
    intro N hN
    by_cases hex : ∃ k, N ≤ k ∧ r (g (k + 1)) (g k)
    · -- the first step down
      obtain ⟨k, hk, hlt⟩ := hex
      have hmin : ∀ d, (∃ k, k = N + d ∧ r (g (k + 1)) (g k)) → ∃ k, N ≤ k ∧ r (g (k + 1)) (g k) ∧ ∀ j, N ≤ j → j < k → ¬ r (g (j + 1)) (g j) := by
        intro d
        induction d using Nat.strongRecOn with
        | _ d ihd =>
          rintro ⟨k, rfl, hlt⟩
          by_cases hb : ∃ j, N ≤ j ∧ j < N + d ∧ r (g (j + 1)) (g j)
          · obtain ⟨j, h1, h2, h3⟩ := hb
            exact ihd (j - N) (by omega) ⟨j, by omega, h3⟩
          · exact ⟨N + d, by omega, hlt, fun j h1 h2 h3 => hb ⟨j, h1, h2, h3⟩⟩
      obtain ⟨k, h1, h2, h3⟩ := hmin (k - N) ⟨k, by omega, hlt⟩
      have hsame : ∀ j, N ≤ j → j ≤ k → g j = x := by
        intro j hj
        induction j with
        | zero => intro _; rw [← hN, show N = 0 by omega]
        | succ j ihj =>
          intro hle
          by_cases e : N = j + 1
          · rw [← e, hN]
          · rcases h j with h4 | h4
            · rw [h4]; exact ihj (by omega) (by omega)
            · exact absurd h4 (h3 j (by omega) (by omega))
      rw [hsame k h1 (Nat.le_refl _)] at h2
      exact ih _ h2 (k + 1) rfl
    · exact ⟨N, fun k hk hlt => hex ⟨k, hk, hlt⟩⟩

theorem peer_add (svc : Nat → Services) (reg : Nat → Registry) (y : Sys) (n : Nat) (e : LEv) (m : Nat) :
    ((y.add n e).peer svc reg m).st = if m = n then lstep (svc n) (y.peer svc reg n).st e else (y.peer svc reg m).st := by
  unfold Sys.add Sys.peer Peer.st
  dsimp only
  split
  · next h => subst h; exact lrun_snoc' ..
  · rfl

/-- the change of a connection makes the measure go down -/
theorem lower_conn {a a' : ASt} (l : Nat → LSt) {n : Nat} {k k' : AConn} (was : a.conns[n]? = some k) (now : a'.conns = a.conns.set n k')
    (sent : k'.sent = k.sent) (rank : k'.rank (l n).wire.length < k.rank (l n).wire.length) (calls : a'.callsRank = a.callsRank) :
    Lower (sysRank a' l) (sysRank a l) := by
  have hn := (List.getElem?_eq_some_iff.1 was).1
  have hlen : a'.conns.length = a.conns.length := by rw [now, List.length_set]
  have hself : a'.conns[n]? = some k' := by rw [now, List.getElem?_set_self hn]
  have hother : ∀ m, m ≠ n → a'.conns[m]? = a.conns[m]? := by
    intro m hm
    rw [now, List.getElem?_set_ne (Ne.symm hm)]
  unfold sysRank
  rw [hlen]
  refine lower4 calls (sumTo_congr fun m _ => ?_) rfl (sumTo_lt hn ?_ ?_)
  · congr 1
    unfold ASt.sentLen
    by_cases e : m = n
    · subst e; rw [hself, was]; dsimp only; rw [sent]
    · rw [hother m e]
  · intro m _ e
    unfold ASt.connRank
    rw [hother m e]
  · unfold ASt.connRank
    rw [hself, was]
    exact rank

theorem lower_read {a : ASt} {l l' : Nat → LSt} {n : Nat} (hn : n < a.conns.length) (other : ∀ m, m ≠ n → l' m = l m)
    (rank : (l' n).readRank (a.sentLen n) < (l n).readRank (a.sentLen n)) : Lower (sysRank a l') (sysRank a l) :=
  lower2 rfl (sumTo_lt hn (fun m _ e => by rw [other m e]) rank)

theorem lower_work {a : ASt} {l l' : Nat → LSt} {n : Nat} (hn : n < a.conns.length) (other : ∀ m, m ≠ n → l' m = l m)
    (same : SameRead (l n) (l' n)) (rank : (l' n).workRank < (l n).workRank) : Lower (sysRank a l') (sysRank a l) := by
  refine lower3 rfl (sumTo_congr fun m _ => ?_) (sumTo_lt hn (fun m _ e => by rw [other m e]) rank)
  by_cases e : m = n
  · subst e; exact same.rank _
  · rw [other m e]

def Spec.Sys.rank (v : PyVer) (svc : Nat → Services) (reg : Nat → Registry) (y : Sys) : Nat × Nat × Nat × Nat :=
  sysRank (y.client v) fun n => (y.peer svc reg n).st

theorem client_step (v : PyVer) (y : Sys) (e : AEv) : ({ y with aevs := y.aevs ++ [e] } : Sys).client v = astep v (y.client v) e := by
  unfold Sys.client
  exact arun_snoc ..

theorem ldata_nil (svc : Services) (s : LSt) : lstep svc s (.data []) = s := by
  simp [lstep]

theorem ldata_eof (svc : Services) {s : LSt} (d : Bytes) (h : s.eof = true) : lstep svc s (.data d) = s := by
  simp [lstep, h]

/-- What any event but a new call does to the measure: it has no effect, or makes it go down; time and registrations do not
change it. -/
theorem step_rank (v : PyVer) (svc : Nat → Services) (reg : Nat → Registry) (y : Sys) (e : SysEv) (hc : e.isCall = false)
    (ho : e.onConn v y) :
    Still v svc reg y e ∨ (e.passes = true ∧ (sysStep v svc reg y e).rank v svc reg = y.rank v svc reg) ∨
    Lower ((sysStep v svc reg y e).rank v svc reg) (y.rank v svc reg) := by
  have hclient : ∀ a : AEv, sysStep v svc reg y e = { y with aevs := y.aevs ++ [a] } →
      (astep v (y.client v) a = y.client v ∨ Lower (sysRank (astep v (y.client v) a) fun n => (y.peer svc reg n).st) (y.rank v svc reg)) →
      Still v svc reg y e ∨ (e.passes = true ∧ (sysStep v svc reg y e).rank v svc reg = y.rank v svc reg) ∨
      Lower ((sysStep v svc reg y e).rank v svc reg) (y.rank v svc reg) := by
    intro a hs h
    unfold Still
    rw [hs]
    rcases h with h | h
    · exact .inl ⟨by rw [client_step, h], fun n => rfl⟩
    · refine .inr (.inr ?_)
      unfold Sys.rank
      rw [client_step]
      exact h
  have hserver : ∀ (n : Nat) (a : LEv), sysStep v svc reg y e = y.add n a →
      (lstep (svc n) (y.peer svc reg n).st a = (y.peer svc reg n).st ∨ (n < (y.client v).conns.length ∧
        ((∀ w, w = (y.client v).sentLen n → (lstep (svc n) (y.peer svc reg n).st a).readRank w < (y.peer svc reg n).st.readRank w) ∨
        (SameRead (y.peer svc reg n).st (lstep (svc n) (y.peer svc reg n).st a) ∧
          (lstep (svc n) (y.peer svc reg n).st a).workRank < (y.peer svc reg n).st.workRank)))) →
      Still v svc reg y e ∨ (e.passes = true ∧ (sysStep v svc reg y e).rank v svc reg = y.rank v svc reg) ∨
      Lower ((sysStep v svc reg y e).rank v svc reg) (y.rank v svc reg) := by
    intro n a hs h
    unfold Still
    rw [hs]
    have hp := peer_add svc reg y n a
    have hother : ∀ m, m ≠ n → ((y.add n a).peer svc reg m).st = (y.peer svc reg m).st := fun m e => by rw [hp, if_neg e]
    have hself : ((y.add n a).peer svc reg n).st = lstep (svc n) (y.peer svc reg n).st a := by rw [hp, if_pos rfl]
    rcases h with h | ⟨hn, h⟩
    · refine .inl ⟨rfl, fun m => ?_⟩
      by_cases e : m = n
      · subst e; rw [hself, h]
      · exact hother m e
    · refine .inr (.inr ?_)
      unfold Sys.rank
      rw [show (y.add n a).client v = y.client v from rfl]
      rcases h with h | ⟨h1, h2⟩
      · exact lower_read hn hother (by rw [hself]; exact h _ rfl)
      · exact lower_work hn hother (by rw [hself]; exact h1) (by rw [hself]; exact h2)
  have hconn : ∀ (a' : ASt) (n : Nat), (a' = y.client v ∨ ∃ k k', Falls (y.client v) a' n k k') →
      a' = y.client v ∨ Lower (sysRank a' fun n => (y.peer svc reg n).st) (y.rank v svc reg) := by
    rintro a' n (h | ⟨k, k', h⟩)
    · exact .inl h
    · exact .inr (lower_conn _ h.was h.now h.sent (h.rank _) h.calls)
  cases e with
  | client a =>
    have hact : ∀ i, a.actor = some i → astep v (y.client v) a = y.client v ∨
        Lower (sysRank (astep v (y.client v) a) fun n => (y.peer svc reg n).st) (y.rank v svc reg) := by
      intro i hi
      rcases actor_rank v (y.client v) a hi with h | h
      · exact .inl h
      · exact .inr (lower1 h)
    cases a with
    | call q => cases hc
    | data n bs => exact .inl ⟨rfl, fun _ => rfl⟩
    | recv n => exact hclient (.recv n) rfl (hconn _ n (recv_rank _ n))
    | eof n => exact hclient (.eof n) rfl (hconn _ n (eof_rank v _ n))
    | reset n => exact hclient (.reset n) rfl (hconn _ n (reset_rank v _ n))
    | start i a => exact hclient (.start i a) rfl (hact i rfl)
    | lock i => exact hclient (.lock i) rfl (hact i rfl)
    | dialed i b => exact hclient (.dialed i b) rfl (hact i rfl)
    | drained i b => exact hclient (.drained i b) rfl (hact i rfl)
    | wake i => exact hclient (.wake i) rfl (hact i rfl)
    | cancel i => exact hclient (.cancel i) rfl (hact i rfl)
  | server n a =>
    have hn : n < (y.client v).conns.length := ho
    have hread : ∀ a, (lstep (svc n) (y.peer svc reg n).st a = (y.peer svc reg n).st ∨
        ∀ w, (lstep (svc n) (y.peer svc reg n).st a).readRank w < (y.peer svc reg n).st.readRank w) →
        (lstep (svc n) (y.peer svc reg n).st a = (y.peer svc reg n).st ∨ (n < (y.client v).conns.length ∧
        ((∀ w, w = (y.client v).sentLen n → (lstep (svc n) (y.peer svc reg n).st a).readRank w < (y.peer svc reg n).st.readRank w) ∨
        (SameRead (y.peer svc reg n).st (lstep (svc n) (y.peer svc reg n).st a) ∧
          (lstep (svc n) (y.peer svc reg n).st a).workRank < (y.peer svc reg n).st.workRank)))) := by
      rintro a (h | h)
      · exact .inl h
      · exact .inr ⟨hn, .inl fun w _ => h w⟩
    have hwork : ∀ a, (lstep (svc n) (y.peer svc reg n).st a = (y.peer svc reg n).st ∨
        SameRead (y.peer svc reg n).st (lstep (svc n) (y.peer svc reg n).st a) ∧
          (lstep (svc n) (y.peer svc reg n).st a).workRank < (y.peer svc reg n).st.workRank) →
        (lstep (svc n) (y.peer svc reg n).st a = (y.peer svc reg n).st ∨ (n < (y.client v).conns.length ∧
        ((∀ w, w = (y.client v).sentLen n → (lstep (svc n) (y.peer svc reg n).st a).readRank w < (y.peer svc reg n).st.readRank w) ∨
        (SameRead (y.peer svc reg n).st (lstep (svc n) (y.peer svc reg n).st a) ∧
          (lstep (svc n) (y.peer svc reg n).st a).workRank < (y.peer svc reg n).st.workRank)))) := by
      rintro a (h | h)
      · exact .inl h
      · exact .inr ⟨hn, .inr h⟩
    have hpass : ∀ a : LEv, sysStep v svc reg y (.server n a) = y.add n a → (SysEv.server n a).passes = true →
        (∀ s : LSt, SameRead s (lstep (svc n) s a) ∧ (lstep (svc n) s a).workRank = s.workRank ∧ (lstep (svc n) s a).wire = s.wire) →
        (sysStep v svc reg y (.server n a)).rank v svc reg = y.rank v svc reg := by
      intro a hs _ h
      rw [hs]
      unfold Sys.rank
      rw [show (y.add n a).client v = y.client v from rfl]
      unfold sysRank
      have hp := peer_add svc reg y n a
      have hm : ∀ m, SameRead (y.peer svc reg m).st ((y.add n a).peer svc reg m).st ∧
          ((y.add n a).peer svc reg m).st.workRank = (y.peer svc reg m).st.workRank ∧
          ((y.add n a).peer svc reg m).st.wire = (y.peer svc reg m).st.wire := by
        intro m
        rw [hp]
        by_cases e : m = n
        · subst e; rw [if_pos rfl]; exact h _
        · rw [if_neg e]; exact ⟨⟨rfl, rfl, rfl, rfl, rfl, rfl, rfl⟩, rfl, rfl⟩
      refine Prod.ext rfl (Prod.ext ?_ (Prod.ext ?_ ?_))
      · exact sumTo_congr fun m _ => (hm m).1.rank _
      · exact sumTo_congr fun m _ => (hm m).2.1
      · exact sumTo_congr fun m _ => by rw [(hm m).2.2]
    cases a with
    | data bs => exact .inl ⟨rfl, fun _ => rfl⟩
    | eof => exact hserver n .eof rfl (hread _ (leof_rank _ _))
    | reset => exact hserver n .reset rfl (hread _ (lreset_rank _ _))
    | reader => exact hserver n .reader rfl (hread _ (reader_rank _))
    | run i fresh => exact hserver n (.run i fresh) rfl (hwork _ (work_rank _ _ _ (.inl ⟨i, fresh, rfl⟩)))
    | result i => exact hserver n (.result i) rfl (hwork _ (work_rank _ _ _ (.inr (.inl ⟨i, rfl⟩))))
    | expire i => exact hserver n (.expire i) rfl (hwork _ (work_rank _ _ _ (.inr (.inr (.inl ⟨i, rfl⟩)))))
    | write i => exact hserver n (.write i) rfl (hwork _ (work_rank _ _ _ (.inr (.inr (.inr (.inl ⟨i, rfl⟩))))))
    | futStart k => exact hserver n (.futStart k) rfl (hwork _ (work_rank _ _ _ (.inr (.inr (.inr (.inr (.inl ⟨k, rfl⟩)))))))
    | futFinish k o => exact hserver n (.futFinish k o) rfl (hwork _ (work_rank _ _ _ (.inr (.inr (.inr (.inr (.inr ⟨k, o, rfl⟩)))))))
    | tick d => exact .inr (.inl ⟨rfl, hpass _ rfl rfl fun s => ⟨⟨rfl, rfl, rfl, rfl, rfl, rfl, rfl⟩, rfl, rfl⟩⟩)
    | register r => exact .inr (.inl ⟨rfl, hpass _ rfl rfl fun s => ⟨⟨rfl, rfl, rfl, rfl, rfl, rfl, rfl⟩, rfl, rfl⟩⟩)
  | there n len =>
    refine hserver n _ rfl ?_
    have hrec : (y.peer svc reg n).st.recvd = received (y.levs n) := (lrun_env (svc n) (reg n) (y.levs n)).1
    generalize hd : ((y.out v n).drop (received (y.levs n)).length).take len = d
    by_cases hd0 : d = []
    · subst hd0
      exact .inl (ldata_nil _ _)
    · cases he : (y.peer svc reg n).st.eof with
      | true => exact .inl (ldata_eof _ _ he)
      | false =>
        right
        have hn : n < (y.client v).conns.length := by
          apply Classical.byContradiction
          intro h
          have : (y.client v).conns[n]? = none := List.getElem?_eq_none_iff.2 (by omega)
          unfold Sys.out at hd
          rw [this] at hd
          simp at hd
          exact hd0 hd
        refine ⟨hn, .inl ?_⟩
        rintro w rfl
        have h1 : (y.client v).sentLen n = (y.out v n).length := by
          unfold ASt.sentLen Sys.out
          cases (y.client v).conns[n]? <;> rfl
        have h2 : d.length ≤ (y.out v n).length - (received (y.levs n)).length := by
          rw [← hd, List.length_take, List.length_drop]
          omega
        have h3 : 0 < d.length := List.length_pos_iff.2 hd0
        simp only [lstep, he, LSt.readRank, h1, Bool.false_eq_true, if_false, List.length_append]
        rw [hrec]
        omega
  | back n len =>
    refine hclient _ rfl ?_
    generalize hd : ((y.peer svc reg n).st.wire.drop (y.got v n).length).take len = d
    simp only [astep]
    cases hk : (y.client v).conns[n]? with
    | none => left; rw [modify_none _ hk]
    | some k =>
      rw [modify_is_set _ hk]
      have hg : y.got v n = k.recvd := by unfold Sys.got; rw [hk]
      by_cases hel : (k.eof || k.lost) = true
      · left
        rw [if_pos hel, set_same hk]
      · rw [if_neg hel]
        by_cases hd0 : d = []
        · left
          subst hd0
          simp only [List.append_nil]
          rw [set_same hk]
        · right
          refine lower_conn _ hk rfl rfl ?_ rfl
          have h2 : d.length ≤ (y.peer svc reg n).st.wire.length - k.recvd.length := by
            rw [← hd, List.length_take, List.length_drop, hg]
            omega
          have h3 : 0 < d.length := List.length_pos_iff.2 hd0
          simp only [AConn.rank, List.length_append]
          omega

theorem sysPath_succ (v : PyVer) (svc : Nat → Services) (reg : Nat → Registry) (es : List SysEv) (f : Nat → SysEv) (k : Nat) :
    sysPath v svc reg es f (k + 1) = sysStep v svc reg (sysPath v svc reg es f k) (f k) := by
  unfold sysPath
  rw [List.range_succ, List.map_append, List.map_singleton, ← List.append_assoc, sysRun_snoc]

/-- C172 (nothing goes on for ever). Along every endless schedule in which no further call is made, from some moment on
nothing has an effect any more, except that time passes and services are registered. -/
theorem C172_comes_to_rest (v : PyVer) (svc : Nat → Services) (reg : Nat → Registry) (es : List SysEv) (f : Nat → SysEv)
    (hcall : ∀ k, (f k).isCall = false) (hconn : ∀ k, (f k).onConn v (sysPath v svc reg es f k)) :
    ∃ N, ∀ k, N ≤ k → (f k).passes = true ∨ Still v svc reg (sysPath v svc reg es f k) (f k) := by
  have hstep := fun k => step_rank v svc reg (sysPath v svc reg es f k) (f k) (hcall k) (hconn k)
  have hrank : ∀ y e, Still v svc reg y e → (sysStep v svc reg y e).rank v svc reg = y.rank v svc reg := by
    intro y e h
    unfold Sys.rank
    rw [h.1]
    congr 1
    funext n
    exact h.2 n
  obtain ⟨N, hN⟩ := settles lower_wf (fun k => (sysPath v svc reg es f k).rank v svc reg) fun k => by
    rw [sysPath_succ]
    rcases hstep k with h | ⟨-, h⟩ | h
    · exact .inl (hrank _ _ h)
    · exact .inl h
    · exact .inr h
  refine ⟨N, fun k hk => ?_⟩
  rcases hstep k with h | ⟨h, -⟩ | h
  · exact .inr h
  · exact .inl h
  · have := hN k hk
    rw [sysPath_succ] at this
    exact absurd h this

/-! ## The calls of waiting tasks -/

/-- the call that a task waits for has not been cancelled -/
def WaitFut (s : LSt) : Prop :=
  ∀ (i : Nat) (t : Task) (d : Option Int) (k : Nat), s.tasks[i]? = some t → t.st = .waiting d → t.fut = some k →
    s.futSt k ≠ some .cancelled

theorem WaitFut.same {s s' : LSt} (h : WaitFut s) (e1 : s'.tasks = s.tasks) (e2 : s'.futs = s.futs) : WaitFut s' := by
  intro i t d k h1 h2 h3
  have := h i t d k (e1 ▸ h1) h2 h3
  unfold LSt.futSt at *
  rw [e2]
  exact this

theorem WaitFut.setTask {s : LSt} (h : WaitFut s) (i : Nat) (u : Task) (hu : ∀ d, u.st ≠ .waiting d) : WaitFut (s.setTask i u) := by
  intro j t d k h1 h2 h3
  have h1 : (s.tasks.set i u)[j]? = some t := h1
  rw [List.getElem?_set] at h1
  split at h1
  · split at h1
    · cases h1; exact absurd h2 (hu d)
    · cases h1
  · exact h j t d k h1 h2 h3

theorem toWrite_idle (m : Except PyExc Bytes) (d : Option Int) : toWrite m ≠ .waiting d := by
  unfold toWrite
  split <;> simp

theorem afterCall_idle (id : Int) (o : Outcome) (d : Option Int) : afterCall id o ≠ .waiting d := by
  unfold afterCall
  split
  · exact toWrite_idle _ _
  · exact toWrite_idle _ _
  · exact toWrite_idle _ _
  · split
    · exact toWrite_idle _ _
    · simp

theorem WaitFut.newFut {s : LSt} (h : WaitFut s) (hf : ∀ (i : Nat) (t : Task) (k : Nat), s.tasks[i]? = some t → t.fut = some k → k < s.futs.length)
    (f : Fut) (hq : f.st = .queued) : WaitFut { s with futs := s.futs ++ [f] } ∧
      ({ s with futs := s.futs ++ [f] } : LSt).futSt s.futs.length = some .queued := by
  constructor
  · intro i t d k h1 h2 h3
    have := h i t d k h1 h2 h3
    have hlt := hf i t k h1 h3
    unfold LSt.futSt at *
    rw [show ({ s with futs := s.futs ++ [f] } : LSt).futs = s.futs ++ [f] from rfl, List.getElem?_append_left hlt]
    exact this
  · unfold LSt.futSt
    rw [show ({ s with futs := s.futs ++ [f] } : LSt).futs = s.futs ++ [f] from rfl, List.getElem?_append_right (Nat.le_refl _)]
    simp [hq]

theorem futs_bound {svc : Services} {s : LSt} (h : LInv svc s) {i : Nat} {t : Task} {k : Nat} (ht : s.tasks[i]? = some t)
    (hk : t.fut = some k) : k < s.futs.length := by
  have htk := h.task i t ht
  unfold TaskOk at htk
  split at htk
  · rw [hk] at htk; cases htk.1
  · obtain ⟨f, _, _, _, _, _, hf, _⟩ := htk.2.2 k hk
    exact (List.getElem?_eq_some_iff.1 hf).1

theorem WaitFut.snoc {s : LSt} (h : WaitFut s) (t : Task) (ht : ∀ d, t.st ≠ .waiting d) : WaitFut { s with tasks := s.tasks ++ [t] } := by
  intro i u d k h1 h2 h3
  have h1 : (s.tasks ++ [t])[i]? = some u := h1
  rw [List.getElem?_append] at h1
  split at h1
  · exact h i u d k h1 h2 h3
  · cases hx : i - s.tasks.length with
    | zero => rw [hx] at h1; cases h1; exact absurd h2 (ht d)
    | succ x => rw [hx] at h1; cases h1

theorem WaitFut.reader {s : LSt} (h : WaitFut s) : WaitFut s.reader := by
  have hw : ∀ o m, WaitFut (s.write o m) := fun o m => by unfold LSt.write; split <;> exact h.same rfl rfl
  unfold LSt.reader
  split
  · split
    · exact h
    · exact h.same rfl rfl
    · next rd buf a _ =>
      unfold LSt.perform
      dsimp only
      split
      · exact (h.snoc _ (by simp)).same rfl rfl
      · split
        · exact (h.snoc _ (by simp)).same rfl rfl
        · exact h.same rfl rfl
      · split <;> exact h.same rfl rfl
      · exact h.same rfl rfl
      · exact h.same rfl rfl
  · exact (hw _ _).same rfl rfl
  · exact h.same rfl rfl
  · exact (hw _ _).same rfl rfl

theorem WaitFut.dispatch {svc : Services} {s : LSt} (hi : LInv svc s) (h : WaitFut s) (i : Nat) (t : Task) (r : Req) (fresh : PyStr) :
    WaitFut (s.dispatch svc i t r fresh) := by
  unfold LSt.dispatch
  split
  · exact h.setTask i _ (fun d => toWrite_idle _ d)
  · split
    · exact h.setTask i _ (fun d => toWrite_idle _ d)
    · split
      · exact h.setTask i _ (by simp)
      · next heap ctx _ =>
        dsimp only
        have h' : WaitFut { s with heap := heap } := h.same rfl rfl
        split
        · exact h'.setTask i _ (fun d => toWrite_idle _ d)
        · exact h'.setTask i _ (fun d => toWrite_idle _ d)
        · next func _ =>
          obtain ⟨h1, h2⟩ := h'.newFut (fun i t k ht hk => futs_bound hi ht hk)
            ({ func := func, body := r.body, ctx := ctx, heap := heap } : Fut) rfl
          split
          · exact h1.setTask i _ (by simp)
          · intro j u d k g1 g2 g3
            have g1 : (s.tasks.set i _)[j]? = some u := g1
            rw [List.getElem?_set] at g1
            split at g1
            · split at g1
              · cases g1
                cases g3
                exact fun hx => by
                  have h2 : LSt.futSt _ s.futs.length = some FutSt.queued := h2
                  have hx : LSt.futSt { s with heap := heap, futs := s.futs ++ [({ func := func, body := r.body, ctx := ctx, heap := heap } : Fut)] }
                    s.futs.length = some .cancelled := hx
                  rw [h2] at hx
                  cases hx
              · cases g1
            · exact h1 j u d k g1 g2 g3

theorem WaitFut.setFut {s : LSt} (h : WaitFut s) (k : Nat) (st : FutSt)
    (hst : st = .cancelled → ∀ (i : Nat) (t : Task) (d : Option Int), s.tasks[i]? = some t → t.st = .waiting d → t.fut ≠ some k) : WaitFut (s.setFut k st) := by
  intro i t d j h1 h2 h3 hx
  have h0 := h i t d j h1 h2 h3
  unfold LSt.futSt LSt.setFut at hx
  dsimp only at hx
  rw [List.getElem?_modify] at hx
  unfold LSt.futSt at h0
  by_cases e : k = j
  · subst e
    cases hf : s.futs[k]? with
    | none => rw [hf] at hx; cases hx
    | some f =>
      rw [hf] at hx
      have : st = .cancelled := by simpa [hf] using hx
      exact hst this i t d h1 h2 h3
  · simp only [e, if_false] at hx
    apply h0
    simpa using hx

theorem WaitFut.step {svc : Services} {s : LSt} (hi : LInv svc s) (h : WaitFut s) (e : LEv) : WaitFut (lstep svc s e) := by
  cases e with
  | data bs =>
    simp only [lstep]
    split
    · exact h
    · exact h.same rfl rfl
  | eof => exact h.same rfl rfl
  | reset => exact h.same rfl rfl
  | tick d => exact h.same rfl rfl
  | register r => exact h.same rfl rfl
  | reader => exact h.reader
  | run i fresh =>
    simp only [lstep]
    split
    · split
      · exact h.dispatch hi _ _ _ _
      · exact h
    · exact h
  | result i =>
    simp only [lstep]
    split
    · split
      · split
        · exact h
        · exact h.setTask i _ (fun d => afterCall_idle _ _ d)
        · exact h
      · exact h
    · exact h
  | expire i =>
    simp only [lstep]
    split
    · next t ht =>
      split
      · next d r k hst hk hf =>
        split
        · -- the task itself waits no longer
          have hs := h.setTask i { t with st := toWrite (failMsg r.id .timeout), fate := some .expired } (fun d => toWrite_idle _ d)
          unfold LSt.cancelFut
          split
          · refine WaitFut.same (hs.setFut k .cancelled ?_) rfl rfl
            intro _ j u d' hj hu huk
            have hj : (s.tasks.set i _)[j]? = some u := hj
            rw [List.getElem?_set] at hj
            split at hj
            · split at hj
              · cases hj; exact toWrite_idle _ _ hu
              · cases hj
            · next hne => exact hne (hi.futInj i j t u k ht hj hf huk)
          · exact hs
        · exact h
      · exact h
    · exact h
  | write i =>
    simp only [lstep]
    split
    · split
      · next m _ =>
        have hw : WaitFut (s.write (.task i) m) := by unfold LSt.write; split <;> exact h.same rfl rfl
        exact hw.setTask i _ (by simp)
      · exact h
    · exact h
  | futStart k =>
    simp only [lstep]
    split
    · exact h.setFut k _ (by simp)
    · exact h
  | futFinish k o =>
    simp only [lstep]
    split
    · exact h.setFut k _ (by simp)
    · exact h

theorem WaitFut.run (svc : Services) (reg : Registry) (evs : List LEv) : WaitFut (lrun svc reg evs) := by
  induction evs using snoc_induct with
  | nil => intro i t d k h; cases h
  | snoc evs e ih =>
    rw [lrun_snoc']
    exact ih.step (LInv.run svc reg evs) e

/-! ## What is true at rest -/

namespace Spec

/-- nobody has closed, reset or given up connection `n` -/
structure ConnOpen (s : LSt) (k : AConn) : Prop where
  client : k.cancelled = false ∧ k.lost = false ∧ k.eof = false
  listener : s.eof = false ∧ s.lost = false ∧ s.closed = false

/-- The listener has a task for the request of the call and has not answered it: it could not read the trace context of the
request, or the method returned something that is not a non-empty `bytes` of a size that fits, or it raised StopIteration. -/
def Unanswered (s : LSt) (c : ACall) : Prop :=
  ∃ (j : Nat) (t : Task) (r : Req), s.tasks[j]? = some t ∧ t.kind = .dispatch r ∧ c.req.requestId = .int r.id ∧
    (t.fate = some .badCarrier ∨
     (∃ x, t.fate = some (.answered (.ret x)) ∧ ¬ ∃ b, x = .bytes b ∧ b ≠ [] ∧ b.length < 4294967296) ∨
     ((∃ d, t.st = .waiting d) ∧ callOver s t (.raised .stopIteration)))

/-- the call is over; or it waits, and if its connection is open, the listener has not answered it for one of three reasons -/
def OverOrUnanswered (v : PyVer) (svc : Nat → Services) (reg : Nat → Registry) (y : Sys) (i : Nat) (c : ACall) : Prop :=
  (∃ r, c.pc = .done r) ∨
  ∃ (ev n : Nat) (k : AConn), c.pc = .waiting ev ∧ lastConn (y.client v) i = some n ∧ (y.client v).conns[n]? = some k ∧
    (ConnOpen (y.peer svc reg n).st k → Unanswered (y.peer svc reg n).st c)

end Spec

theorem Spec.AtRest.client {v : PyVer} {svc : Nat → Services} {reg : Nat → Registry} {y : Sys} (h : AtRest v svc reg y) (e : AEv)
    (hi : (SysEv.client e).inner = true) (hs : sysStep v svc reg y (.client e) = { y with aevs := y.aevs ++ [e] }) :
    astep v (y.client v) e = y.client v := by
  have := (h (.client e) hi trivial).1
  rw [hs, client_step] at this
  exact this

theorem Spec.AtRest.server {v : PyVer} {svc : Nat → Services} {reg : Nat → Registry} {y : Sys} (h : AtRest v svc reg y) {n : Nat} (e : LEv)
    (hn : n < (y.client v).conns.length) (hi : (SysEv.server n e).inner = true) (hs : sysStep v svc reg y (.server n e) = y.add n e) :
    lstep (svc n) (y.peer svc reg n).st e = (y.peer svc reg n).st := by
  have := (h (.server n e) hi hn).2 n
  rw [hs, peer_add, if_pos rfl] at this
  exact this

/-- at rest, a call is over or waits -/
theorem rest_call {v : PyVer} {svc : Nat → Services} {reg : Nat → Registry} {y : Sys} (h : AtRest v svc reg y) {i : Nat} {c : ACall}
    (hc : (y.client v).calls[i]? = some c) :
    (∃ r, c.pc = .done r) ∨ ∃ ev, c.pc = .waiting ev ∧ (y.client v).wake i = y.client v := by
  have hdial : ∀ (j : Nat) (d : ACall) (r l : Nat) (a : Addr), (y.client v).calls[j]? = some d → d.pc = .dialing r a l → False := by
    intro j d r l a hj hp
    have h1 := dialed_rank true hj hp
    have h2 := h.client (.dialed j true) rfl rfl
    have h2 : (y.client v).dialed j true = y.client v := h2
    rw [h2] at h1
    exact Nat.lt_irrefl _ h1
  cases hp : c.pc with
  | done r => exact .inl ⟨r, rfl⟩
  | waiting ev => exact .inr ⟨ev, rfl, h.client (.wake i) rfl rfl⟩
  | new =>
    exfalso
    have h1 := start_rank (([], 0) : Addr) hc hp
    have h2 : (y.client v).start i (([], 0) : Addr) = y.client v := h.client (.start i ([], 0)) rfl rfl
    rw [h2] at h1
    exact Nat.lt_irrefl _ h1
  | dialing r a l => exact (hdial i c r l a hc hp).elim
  | drain1 r a n =>
    exfalso
    have h1 := drained1_rank true hc hp
    have h2 : (y.client v).drained i true = y.client v := h.client (.drained i true) rfl rfl
    rw [h2] at h1
    exact Nat.lt_irrefl _ h1
  | drain2 r a n =>
    exfalso
    have h1 := drained2_rank true hc hp
    have h2 : (y.client v).drained i true = y.client v := h.client (.drained i true) rfl rfl
    rw [h2] at h1
    exact Nat.lt_irrefl _ h1
  | locking r a l =>
    exfalso
    rcases C95_nobody_stuck v y.aevs i r a l c hc hp with ⟨c', h1, h2⟩ | ⟨j, d, r', a', h1, h2, -⟩
    · have h3 : astep v (arun v y.aevs) (.lock i) = arun v y.aevs := h.client (.lock i) rfl rfl
      rw [h3] at h1
      rw [show (arun v y.aevs).calls[i]? = some c from hc] at h1
      cases h1
      rw [hp] at h2
      rcases h2 with ⟨n, -, h2⟩ | h2 <;> cases h2
    · exact hdial j d r' l a' h1 h2

theorem drop_nil_of_prefix {l m : List UInt8} (h : l <+: m) (hd : m.drop l.length = []) : l = m := by
  obtain ⟨t, rfl⟩ := h
  rw [List.drop_left] at hd
  rw [hd, List.append_nil]

/-- at rest, the reading task of a connection has nothing to do, and all bytes have arrived -/
theorem rest_conn {v : PyVer} {svc : Nat → Services} {reg : Nat → Registry} {y : Sys} (hok : SysOk v svc reg y) (h : AtRest v svc reg y)
    {n : Nat} {k : AConn} (hk : (y.client v).conns[n]? = some k) (ho : ConnOpen (y.peer svc reg n).st k) :
    Settled (y.client v) n ∧ received (y.levs n) = (k.sent.map Prod.snd).flatten ∧ k.recvd = (y.peer svc reg n).st.wire := by
  have hrecv : (y.client v).recv n = y.client v := h.client (.recv n) rfl rfl
  refine ⟨⟨k, hk, ?_, hrecv⟩, ?_, ?_⟩
  · intro hp
    unfold ASt.recv at hrecv
    simp only [hk, hp, ho.client.1, Bool.false_eq_true, if_false] at hrecv
    have := congrArg (fun s : ASt => s.conns[n]?) hrecv
    dsimp only [ASt.setConn] at this
    rw [List.getElem?_set_self (List.getElem?_eq_some_iff.1 hk).1, hk] at this
    have := congrArg AConn.pc (Option.some.inj this)
    rw [hp] at this
    cases this
  · have hout : y.out v n = (k.sent.map Prod.snd).flatten := by unfold Sys.out; rw [hk]
    rw [← hout]
    apply drop_nil_of_prefix (hok.there n)
    have hs := (h (.there n (y.out v n).length) rfl trivial).2 n
    rw [show sysStep v svc reg y (.there n (y.out v n).length) =
      y.add n (.data (((y.out v n).drop (received (y.levs n)).length).take (y.out v n).length)) from rfl, peer_add, if_pos rfl] at hs
    have := congrArg LSt.recvd hs
    simp only [lstep, ho.listener.1, Bool.false_eq_true, if_false] at this
    rw [List.append_right_eq_self, List.take_of_length_le (by rw [List.length_drop]; omega)] at this
    exact this
  · apply drop_nil_of_prefix
    · have := hok.back n
      unfold Sys.got at this
      rw [hk] at this
      exact this
    · have hg : y.got v n = k.recvd := by unfold Sys.got; rw [hk]
      have hs := (h (.back n (y.peer svc reg n).st.wire.length) rfl trivial).1
      rw [show sysStep v svc reg y (.back n (y.peer svc reg n).st.wire.length) =
        { y with aevs := y.aevs ++ [.data n (((y.peer svc reg n).st.wire.drop (y.got v n).length).take (y.peer svc reg n).st.wire.length)] } from rfl,
        client_step, hg] at hs
      have := congrArg (fun s : ASt => s.conns[n]?) hs
      simp only [astep] at this
      rw [modify_self hk, hk] at this
      have := congrArg AConn.recvd (Option.some.inj this)
      simp only [ho.client.2.1, ho.client.2.2, Bool.or_false, Bool.false_eq_true, if_false] at this
      rw [List.append_right_eq_self, List.take_of_length_le (by rw [List.length_drop]; omega)] at this
      exact this

/-- when nothing that a task or the pool could do has an effect, each task has ended or waits for a call that raised
StopIteration -/
theorem rest_tasks {svc : Services} {s : LSt} (hinv : LInv svc s) (hwf : WaitFut s) {j : Nat} {t : Task} (ht : s.tasks[j]? = some t)
    (hrun : lstep svc s (.run j []) = s) (hres : lstep svc s (.result j) = s) (hwr : lstep svc s (.write j) = s)
    (hst : ∀ k, lstep svc s (.futStart k) = s) (hfi : ∀ k, lstep svc s (.futFinish k (.ret .none)) = s) :
    t.st = .ended ∨ ((∃ d, t.st = .waiting d) ∧ callOver s t (.raised .stopIteration)) := by
  have htk := hinv.task j t ht
  unfold TaskOk at htk
  have hlt := (List.getElem?_eq_some_iff.1 ht).1
  cases hkd : t.kind with
  | heartbeat id =>
    rw [hkd] at htk
    rcases htk.2 with h1 | h1
    · exact .inl h1
    · exfalso
      simp only [lstep, ht, h1] at hwr
      have h2 := setTask_work (s := s) (s' := s.write (.task j) (heartbeatAck id)) (u := { t with st := .ended })
        (by unfold LSt.write; split <;> rfl) ht
      rw [hwr, h1, show (s.write (.task j) (heartbeatAck id)).futs = s.futs by unfold LSt.write; split <;> rfl] at h2
      have e1 : (TaskSt.writing (heartbeatAck id)).rank = 1 := rfl
      have e2 : TaskSt.ended.rank = 0 := rfl
      simp only [e1, e2] at h2
      omega
  | dispatch r =>
    rw [hkd] at htk
    cases hs : t.st with
    | ended => exact .inl rfl
    | new =>
      exfalso
      simp only [lstep, ht, hs, hkd] at hrun
      have := (dispatch_rank svc s r [] ht hs).2
      rw [hrun] at this
      exact Nat.lt_irrefl _ this
    | writing m =>
      exfalso
      simp only [lstep, ht, hs] at hwr
      have h2 := setTask_work (s := s) (s' := s.write (.task j) m) (u := { t with st := .ended })
        (by unfold LSt.write; split <;> rfl) ht
      rw [hwr, hs, show (s.write (.task j) m).futs = s.futs by unfold LSt.write; split <;> rfl] at h2
      have e1 : (TaskSt.writing m).rank = 1 := rfl
      have e2 : TaskSt.ended.rank = 0 := rfl
      simp only [e1, e2] at h2
      omega
    | waiting d =>
      right
      refine ⟨⟨d, rfl⟩, ?_⟩
      rw [hs] at htk
      obtain ⟨k, hk⟩ := Option.isSome_iff_exists.1 htk.1.2.2.1
      obtain ⟨f, _, _, _, _, _, hf, -⟩ := htk.2.2 k hk
      have hfs : s.futSt k = some f.st := by unfold LSt.futSt; rw [hf]; rfl
      have hset : ∀ b : FutSt, s.setFut k b = s → b.rank = f.st.rank := by
        intro b hb
        have := setFut_rank (b := b) hfs
        rw [hb] at this
        omega
      cases hq : f.st with
      | queued =>
        exfalso
        have h1 := hst k
        simp only [lstep, hfs, hq, if_true] at h1
        have := hset _ h1
        rw [hq] at this
        cases this
      | running =>
        exfalso
        have h1 := hfi k
        simp only [lstep, hfs, hq, if_true] at h1
        have := hset _ h1
        rw [hq] at this
        cases this
      | cancelled => exact absurd (by rw [hfs, hq]) (hwf j t d k ht hs hk)
      | finished o =>
        have ho : callOver s t o := ⟨k, f, hk, hf, hq⟩
        rcases spent_ended hinv ht hkd ho ⟨hres, hwr⟩ with h1 | ⟨-, h1⟩
        · rw [hs] at h1; cases h1
        · rw [← h1]; exact ho

/-- at rest, the listener's reader waits for bytes, and each task has ended or waits for a call that raised StopIteration -/
theorem rest_peer {v : PyVer} {svc : Nat → Services} {reg : Nat → Registry} {y : Sys} (h : AtRest v svc reg y) {n : Nat}
    (hn : n < (y.client v).conns.length) :
    (y.peer svc reg n).st.idle ∧ ∀ (j : Nat) (t : Task), (y.peer svc reg n).st.tasks[j]? = some t →
      t.st = .ended ∨ ((∃ d, t.st = .waiting d) ∧ callOver (y.peer svc reg n).st t (.raised .stopIteration)) := by
  constructor
  · have hr : (y.peer svc reg n).st.reader = (y.peer svc reg n).st := h.server .reader hn rfl rfl
    rcases idle_or_rank (y.peer svc reg n).st with h1 | h1
    · exact h1
    · have := h1 0
      rw [hr] at this
      exact absurd this (Nat.lt_irrefl _)
  · intro j t ht
    have hinv : LInv (svc n) (y.peer svc reg n).st := LInv.run ..
    have hwf : WaitFut (y.peer svc reg n).st := WaitFut.run (svc n) (reg n) (y.levs n)
    have hrun := h.server (.run j []) hn rfl rfl
    have hres := h.server (.result j) hn rfl rfl
    have hwr := h.server (.write j) hn rfl rfl
    have hst := fun k => h.server (.futStart k) hn rfl rfl
    have hfi := fun k => h.server (.futFinish k (.ret .none)) hn rfl rfl
    exact rest_tasks hinv hwf ht hrun hres hwr hst hfi

/-- C172 (what rest means for the calls). When the system is at rest, every call is over, or waits for a response that the
listener will not send for one of three reasons, or its connection has been closed, reset or given up. -/
theorem C172_at_rest (v : PyVer) (svc : Nat → Services) (reg : Nat → Registry) (es : List SysEv)
    (hd : DistinctIds (sysRun v svc reg es).aevs)
    (hreq : ∀ c ∈ ((sysRun v svc reg es).client v).calls, AioMade c.req) (hr : AtRest v svc reg (sysRun v svc reg es))
    (i : Nat) (c : ACall) (hc : ((sysRun v svc reg es).client v).calls[i]? = some c) :
    OverOrUnanswered v svc reg (sysRun v svc reg es) i c := by
  rcases rest_call hr hc with h1 | ⟨ev, hw, hstuck⟩
  · exact .inl h1
  · right
    obtain ⟨n, hn, k, hk, -⟩ := (arun_put v _).wait i c ev hc hw
    refine ⟨ev, n, k, hw, hn, hk, fun ho => ?_⟩
    have hk : ((sysRun v svc reg es).client v).conns[n]? = some k := hk
    obtain ⟨h1, h2, h3⟩ := rest_conn (SysOk.run v svc reg es) hr hk ho
    obtain ⟨h4, h5⟩ := rest_peer hr (List.getElem?_eq_some_iff.1 hk).1
    obtain ⟨j, t, r, g1, g2, g3, -, g4⟩ := who_waits v svc reg es i c ev n k hd hreq hc hw hn hk h2 h3 h1 ⟨ho.client.1, ho.client.2.1⟩ h4
      (fun t ht m hm => by
        obtain ⟨j, hj⟩ := List.getElem?_of_mem ht
        rcases h5 j t hj with h6 | ⟨⟨d, h6⟩, -⟩ <;> (rw [h6] at hm; cases hm))
      ⟨ho.listener.2.2, ho.listener.2.1⟩ hstuck
    refine ⟨j, t, r, g1, g2, g3, ?_⟩
    rcases h5 j t g1 with h6 | h6
    · obtain ⟨f, hf, h7⟩ := g4 h6
      rcases h7 with rfl | ⟨x, rfl, hx⟩
      · exact .inl hf
      · exact .inr (.inl ⟨x, hf, hx⟩)
    · exact .inr (.inr h6)

theorem sysStep_requests (v : PyVer) (svc : Nat → Services) (reg : Nat → Registry) (y : Sys) (e : SysEv) (h : e.isCall = false) :
    requests (sysStep v svc reg y e).aevs = requests y.aevs := by
  have key : ∀ a : AEv, (∀ q, a ≠ .call q) → requests (y.aevs ++ [a]) = requests y.aevs := by
    intro a ha
    rw [requests_append]
    cases a <;> first | exact absurd rfl (ha _) | simp [requests]
  cases e with
  | client a =>
    cases a with
    | call q => cases h
    | data n bs => rfl
    | _ => exact key _ (by simp)
  | server n a => cases a <;> rfl
  | there n len => rfl
  | back n len => exact key _ (by simp)

theorem sysPath_requests (v : PyVer) (svc : Nat → Services) (reg : Nat → Registry) (es : List SysEv) (f : Nat → SysEv)
    (hcall : ∀ k, (f k).isCall = false) (k : Nat) : requests (sysPath v svc reg es f k).aevs = requests (sysRun v svc reg es).aevs := by
  induction k with
  | zero => unfold sysPath; simp
  | succ k ih => rw [sysPath_succ, sysStep_requests _ _ _ _ _ (hcall k), ih]

/-- C172 (every call ends). Along every endless schedule in which no further call is made, and which does not stop while there
is something to do, from some moment on the system is at rest. Then every call is over, or waits for a response that
the listener will not send for one of three reasons, or its connection has been closed, reset or given up. -/
theorem C172_every_call_ends (v : PyVer) (svc : Nat → Services) (reg : Nat → Registry) (es : List SysEv) (f : Nat → SysEv)
    (hd : DistinctIds (sysRun v svc reg es).aevs) (hreq : ∀ c ∈ ((sysRun v svc reg es).client v).calls, AioMade c.req)
    (hcall : ∀ k, (f k).isCall = false) (hconn : ∀ k, (f k).onConn v (sysPath v svc reg es f k))
    (hlive : ∀ N, ¬ AtRest v svc reg (sysPath v svc reg es f N) →
      ∃ k, N ≤ k ∧ (f k).passes = false ∧ ¬ Still v svc reg (sysPath v svc reg es f k) (f k)) :
    ∃ N, ∀ k, N ≤ k → AtRest v svc reg (sysPath v svc reg es f k) ∧
      ∀ i c, ((sysPath v svc reg es f k).client v).calls[i]? = some c → OverOrUnanswered v svc reg (sysPath v svc reg es f k) i c := by
  obtain ⟨N, hN⟩ := C172_comes_to_rest v svc reg es f hcall hconn
  refine ⟨N, fun k hk => ?_⟩
  have hr : AtRest v svc reg (sysPath v svc reg es f k) := by
    apply Classical.byContradiction
    intro h
    obtain ⟨j, h1, h2, h3⟩ := hlive k h
    rcases hN j (by omega) with h4 | h4
    · rw [h2] at h4; cases h4
    · exact h3 h4
  refine ⟨hr, fun i c hc => C172_at_rest v svc reg _ ?_ ?_ hr i c hc⟩
  · have := sysPath_requests v svc reg es f hcall k
    unfold DistinctIds at hd ⊢
    show ((requests (sysPath v svc reg es f k).aevs).map Pkg.requestId).Nodup
    rw [this]
    exact hd
  · intro d hdm
    have h1 : d.req ∈ ((sysPath v svc reg es f k).client v).calls.map ACall.req := List.mem_map_of_mem hdm
    have h2 : ((sysPath v svc reg es f k).client v).calls.map ACall.req = ((sysRun v svc reg es).client v).calls.map ACall.req := by
      unfold Sys.client
      rw [arun_requests, arun_requests, sysPath_requests v svc reg es f hcall k]
    rw [h2] at h1
    obtain ⟨d', h3, h4⟩ := List.mem_map.1 h1
    rw [← h4]
    exact hreq d' h3

/-! ## Examples -/

instance (v : PyVer) (y : Sys) (e : SysEv) : Decidable (e.onConn v y) := by
  unfold SysEv.onConn
  split <;> infer_instance

theorem still_client {v : PyVer} {svc : Nat → Services} {reg : Nat → Registry} {y : Sys} {e : SysEv} (a : AEv)
    (hs : sysStep v svc reg y e = { y with aevs := y.aevs ++ [a] }) (h : astep v (y.client v) a = y.client v) : Still v svc reg y e := by
  unfold Still
  rw [hs]
  exact ⟨by rw [client_step, h], fun _ => rfl⟩

theorem still_server {v : PyVer} {svc : Nat → Services} {reg : Nat → Registry} {y : Sys} {e : SysEv} (n : Nat) (a : LEv)
    (hs : sysStep v svc reg y e = y.add n a) (h : lstep (svc n) (y.peer svc reg n).st a = (y.peer svc reg n).st) : Still v svc reg y e := by
  unfold Still
  rw [hs]
  refine ⟨rfl, fun m => ?_⟩
  rw [peer_add]
  split
  · next e => subst e; exact h
  · rfl

/-- a system in which every call is over or waits, all bytes have arrived and been read, and all tasks and calls of methods
have ended is at rest -/
theorem atRest_of {v : PyVer} {svc : Nat → Services} {reg : Nat → Registry} {y : Sys}
    (hcalls : ∀ (i : Nat) (c : ACall), (y.client v).calls[i]? = some c →
      (∃ r, c.pc = .done r) ∨ ∃ ev, c.pc = .waiting ev ∧ ((y.client v).calls[ev]?.map ACall.set) ≠ some true)
    (hconn : ∀ (n : Nat) (k : AConn), (y.client v).conns[n]? = some k → (y.client v).recv n = y.client v ∧
      (y.peer svc reg n).st.recvd = (k.sent.map Prod.snd).flatten ∧ k.recvd = (y.peer svc reg n).st.wire)
    (hpeer : ∀ n, n < (y.client v).conns.length → (y.peer svc reg n).st.idle ∧ (∀ t ∈ (y.peer svc reg n).st.tasks, t.st = .ended) ∧
      ∀ f ∈ (y.peer svc reg n).st.futs, f.st ≠ .queued ∧ f.st ≠ .running) : AtRest v svc reg y := by
  have hfut : ∀ n, n < (y.client v).conns.length → ∀ k, (y.peer svc reg n).st.futSt k ≠ some .queued ∧
      (y.peer svc reg n).st.futSt k ≠ some .running := by
    intro n hn k
    unfold LSt.futSt
    cases hf : (y.peer svc reg n).st.futs[k]? with
    | none => simp
    | some f =>
      have := (hpeer n hn).2.2 f (List.mem_of_getElem? hf)
      simpa using this
  intro e hi ho
  cases e with
  | client a =>
    cases a with
    | call q => cases hi
    | data n bs => cases hi
    | cancel i => cases hi
    | eof n => cases hi
    | reset n => cases hi
    | recv n =>
      refine still_client _ rfl ?_
      cases hk : (y.client v).conns[n]? with
      | none => show (y.client v).recv n = _; unfold ASt.recv; rw [hk]
      | some k => exact (hconn n k hk).1
    | start i a =>
      refine still_client _ rfl ?_
      show (y.client v).start i a = _
      unfold ASt.start
      cases hc : (y.client v).calls[i]? with
      | none => rfl
      | some c => rcases hcalls i c hc with ⟨r, h⟩ | ⟨ev, h, -⟩ <;> simp only [h]
    | lock i =>
      refine still_client _ rfl ?_
      show (y.client v).lockTurn i = _
      unfold ASt.lockTurn
      cases hc : (y.client v).calls[i]? with
      | none => rfl
      | some c => rcases hcalls i c hc with ⟨r, h⟩ | ⟨ev, h, -⟩ <;> simp only [h]
    | dialed i b =>
      refine still_client _ rfl ?_
      show (y.client v).dialed i b = _
      unfold ASt.dialed
      cases hc : (y.client v).calls[i]? with
      | none => rfl
      | some c => rcases hcalls i c hc with ⟨r, h⟩ | ⟨ev, h, -⟩ <;> simp only [h]
    | drained i b =>
      refine still_client _ rfl ?_
      show (y.client v).drained i b = _
      unfold ASt.drained
      cases hc : (y.client v).calls[i]? with
      | none => rfl
      | some c => rcases hcalls i c hc with ⟨r, h⟩ | ⟨ev, h, -⟩ <;> simp only [h]
    | wake i =>
      refine still_client _ rfl ?_
      show (y.client v).wake i = _
      unfold ASt.wake
      cases hc : (y.client v).calls[i]? with
      | none => rfl
      | some c =>
        rcases hcalls i c hc with ⟨r, h⟩ | ⟨ev, h, h'⟩
        · simp only [h]
        · simp only [h, h', if_false]
  | server n a =>
    have hn : n < (y.client v).conns.length := ho
    obtain ⟨hidle, htasks, -⟩ := hpeer n hn
    have hf := hfut n hn
    have hs : ∀ (i : Nat) (t : Task), (y.peer svc reg n).st.tasks[i]? = some t → t.st = .ended := fun i t h => htasks t (List.mem_of_getElem? h)
    cases a with
    | data bs => cases hi
    | eof => cases hi
    | reset => cases hi
    | tick d => cases hi
    | register r => cases hi
    | reader =>
      refine still_server n _ rfl ?_
      show LSt.reader _ = _
      unfold LSt.reader
      simp only [hidle.1, hidle.2]
    | run i fresh =>
      refine still_server n _ rfl ?_
      simp only [lstep]
      split
      · next t ht => simp only [hs i t ht]
      · rfl
    | result i =>
      refine still_server n _ rfl ?_
      simp only [lstep]
      split
      · next t ht => simp only [hs i t ht]
      · rfl
    | expire i =>
      refine still_server n _ rfl ?_
      simp only [lstep]
      split
      · next t ht => simp only [hs i t ht]
      · rfl
    | write i =>
      refine still_server n _ rfl ?_
      simp only [lstep]
      split
      · next t ht => simp only [hs i t ht]
      · rfl
    | futStart k =>
      refine still_server n _ rfl ?_
      simp only [lstep, (hf k).1, if_false]
    | futFinish k o =>
      refine still_server n _ rfl ?_
      simp only [lstep, (hf k).2, if_false]
  | there n len =>
    refine still_server n _ rfl ?_
    have hnil : ((y.out v n).drop (received (y.levs n)).length).take len = [] := by
      have hrec : (y.peer svc reg n).st.recvd = received (y.levs n) := (lrun_env (svc n) (reg n) (y.levs n)).1
      rw [← hrec]
      unfold Sys.out
      cases hk : (y.client v).conns[n]? with
      | none => simp
      | some k => dsimp only; rw [(hconn n k hk).2.1]; simp
    rw [hnil]
    exact ldata_nil _ _
  | back n len =>
    refine still_client _ rfl ?_
    cases hk : (y.client v).conns[n]? with
    | none => simp only [astep]; rw [modify_none _ hk]
    | some k =>
      have hg : y.got v n = k.recvd := by unfold Sys.got; rw [hk]
      rw [hg, (hconn n k hk).2.2, List.drop_length, List.take_nil]
      simp only [astep]
      rw [modify_is_set _ hk]
      simp only [List.append_nil, ite_self]
      rw [set_same hk]

/-- the events of `exEmptyEvs` that have an effect, after the call has been made -/
def exEmptyRest : List SysEv := (exEmptyEvs.drop 1).take 18

/-- the schedule that goes on with nothing -/
def exEmptyPath (k : Nat) : SysEv := exEmptyRest[k]?.getD (.there 0 0)

theorem range_getD {α : Type} (l : List α) (d : α) (m : Nat) :
    (List.range (l.length + m)).map (fun k => l[k]?.getD d) = l ++ List.replicate m d := by
  apply List.ext_getElem?
  intro i
  rw [List.getElem?_map, List.getElem?_append]
  by_cases h : i < l.length
  · rw [if_pos h, List.getElem?_range (by omega), Option.map_some, List.getElem?_eq_getElem h]
    rfl
  · rw [if_neg h, List.getElem?_replicate]
    by_cases h' : i < l.length + m
    · rw [List.getElem?_range h', if_pos (by omega), Option.map_some, List.getElem?_eq_none_iff.2 (by omega)]
      rfl
    · rw [if_neg (by omega), List.getElem?_eq_none_iff.2 (by rw [List.length_range]; omega)]
      rfl

def exEmptyEnd : Sys := sysRun .from38 (fun _ => exServices) (fun _ => exReg) ([.client (.call (exAioReq exCallA))] ++ exEmptyRest)

theorem exEmpty_stays (m : Nat) : ∀ y : Sys, y = sysRun .from38 (fun _ => exServices) (fun _ => exReg)
      ([.client (.call (exAioReq exCallA))] ++ (exEmptyRest ++ List.replicate m (.there 0 0))) →
    y.client .from38 = exEmptyEnd.client .from38 ∧
    ∀ n, (y.peer (fun _ => exServices) (fun _ => exReg) n).st = (exEmptyEnd.peer (fun _ => exServices) (fun _ => exReg) n).st := by
  induction m with
  | zero => rintro y rfl; simp only [List.replicate_zero, List.append_nil]; exact ⟨rfl, fun _ => rfl⟩
  | succ m ih =>
    rintro y rfl
    obtain ⟨h1, h2⟩ := ih _ rfl
    rw [List.replicate_succ', ← List.append_assoc, ← List.append_assoc, sysRun_snoc, List.append_assoc]
    generalize sysRun .from38 (fun _ => exServices) (fun _ => exReg)
      ([.client (.call (exAioReq exCallA))] ++ (exEmptyRest ++ List.replicate m (.there 0 0))) = z at h1 h2
    rw [← h1]
    refine ⟨rfl, fun n => ?_⟩
    rw [← h2 n, show sysStep .from38 (fun _ => exServices) (fun _ => exReg) z (.there 0 0) = z.add 0 (.data (List.take 0 _)) from rfl, peer_add]
    split
    · next e => subst e; rw [List.take_zero, ldata_nil]
    · rfl

set_option maxRecDepth 40000 in
theorem exEmptyEnd_facts :
    (exEmptyEnd.client .from38).calls.map (fun c => (c.pc, c.set)) = [(.waiting 0, false)] ∧
    (exEmptyEnd.client .from38).conns.length = 1 ∧
    (exEmptyEnd.client .from38).recv 0 = exEmptyEnd.client .from38 ∧
    (exEmptyEnd.client .from38).conns.map (fun k => (k.sent.map Prod.snd).flatten) =
      [(exEmptyEnd.peer (fun _ => exServices) (fun _ => exReg) 0).st.recvd] ∧
    (exEmptyEnd.client .from38).conns.map AConn.recvd = [(exEmptyEnd.peer (fun _ => exServices) (fun _ => exReg) 0).st.wire] ∧
    ((exEmptyEnd.peer (fun _ => exServices) (fun _ => exReg) 0).st.tail = .reading ∧
      readerIter (exEmptyEnd.peer (fun _ => exServices) (fun _ => exReg) 0).st.rd (exEmptyEnd.peer (fun _ => exServices) (fun _ => exReg) 0).st.buf
        (exEmptyEnd.peer (fun _ => exServices) (fun _ => exReg) 0).st.eof = none) ∧
    (exEmptyEnd.peer (fun _ => exServices) (fun _ => exReg) 0).st.tasks.map Task.st = [.ended] ∧
    (exEmptyEnd.peer (fun _ => exServices) (fun _ => exReg) 0).st.futs.map Fut.st = [.finished (.ret (.bytes []))] := by
  decide +kernel

theorem exEmpty_rests (y : Sys) (h1 : y.client .from38 = exEmptyEnd.client .from38)
    (h2 : ∀ n, (y.peer (fun _ => exServices) (fun _ => exReg) n).st = (exEmptyEnd.peer (fun _ => exServices) (fun _ => exReg) n).st) :
    AtRest .from38 (fun _ => exServices) (fun _ => exReg) y := by
  obtain ⟨e1, e2, e3, e4, e5, e6, e7, e8⟩ := exEmptyEnd_facts
  apply atRest_of
  · intro i c hc
    rw [h1] at hc ⊢
    have h3 := congrArg (·[i]?) e1
    simp only [List.getElem?_map, hc, Option.map_some] at h3
    have h0 := congrArg (·[0]?) e1
    simp only [List.getElem?_map] at h0
    cases i with
    | zero =>
      right
      refine ⟨0, (Prod.mk.inj (Option.some.inj h3)).1, ?_⟩
      rw [hc]
      have := (Prod.mk.inj (Option.some.inj h3)).2
      simp [this]
    | succ i => cases h3
  · intro n k hk
    rw [h2 n]
    rw [h1] at hk ⊢
    have hn : n < 1 := by rw [← e2]; exact (List.getElem?_eq_some_iff.1 hk).1
    cases (show n = 0 by omega)
    have h4 := congrArg (·[0]?) e4
    have h5 := congrArg (·[0]?) e5
    simp only [List.getElem?_map, hk, Option.map_some] at h4 h5
    exact ⟨e3, (Option.some.inj h4).symm, Option.some.inj h5⟩
  · intro n hn
    rw [h2 n]
    rw [h1, e2] at hn
    cases (show n = 0 by omega)
    refine ⟨e6, ?_, ?_⟩
    · intro t ht
      have := List.mem_map_of_mem (f := Task.st) ht
      rw [e7, List.mem_singleton] at this
      exact this
    · intro f hf
      have := List.mem_map_of_mem (f := Fut.st) hf
      rw [e8, List.mem_singleton] at this
      rw [this]
      simp

theorem exEmptyPath_rests (k : Nat) (hk : 18 ≤ k) :
    AtRest .from38 (fun _ => exServices) (fun _ => exReg)
      (sysPath .from38 (fun _ => exServices) (fun _ => exReg) [.client (.call (exAioReq exCallA))] exEmptyPath k) := by
  have h : (List.range k).map exEmptyPath = exEmptyRest ++ List.replicate (k - 18) (.there 0 0) := by
    rw [← range_getD exEmptyRest (.there 0 0) (k - 18), show exEmptyRest.length + (k - 18) = k from by
      have : exEmptyRest.length = 18 := rfl
      omega]
    rfl
  obtain ⟨h1, h2⟩ := exEmpty_stays (k - 18) _ rfl
  unfold sysPath
  rw [h]
  exact exEmpty_rests _ h1 h2

theorem exEmptyPath_get (k : Nat) : k < 18 ∨ exEmptyPath k = .there 0 0 := by
  by_cases h : k < 18
  · exact .inl h
  · right
    unfold exEmptyPath
    rw [List.getElem?_eq_none_iff.2 (by show 18 ≤ k; omega)]
    rfl

set_option maxRecDepth 40000 in
theorem exEmptyPath_noCall (k : Nat) : (exEmptyPath k).isCall = false := by
  rcases exEmptyPath_get k with h | h
  · have : ∀ k, k < 18 → (exEmptyPath k).isCall = false := by decide +kernel
    exact this k h
  · rw [h]; rfl

set_option maxRecDepth 40000 in
theorem exEmptyPath_onConn (k : Nat) : (exEmptyPath k).onConn .from38 (sysPath .from38 (fun _ => exServices) (fun _ => exReg) [.client (.call (exAioReq exCallA))] exEmptyPath k) := by
  rcases exEmptyPath_get k with h | h
  · have hs : ∀ k, k < 18 → (exEmptyPath k).onConn .from38 (sysPath .from38 (fun _ => exServices) (fun _ => exReg)
        [.client (.call (exAioReq exCallA))] exEmptyPath k) := by decide +kernel
    exact hs k h
  · rw [h]; trivial

/-- the case of `C172_comes_to_rest`: a call whose method returns `b''` -/
example : ∃ N, ∀ k, N ≤ k → (exEmptyPath k).passes = true ∨
    Still .from38 (fun _ => exServices) (fun _ => exReg) (sysPath .from38 (fun _ => exServices) (fun _ => exReg) [.client (.call (exAioReq exCallA))] exEmptyPath k) (exEmptyPath k) :=
  C172_comes_to_rest _ _ _ _ _ exEmptyPath_noCall exEmptyPath_onConn

set_option maxRecDepth 40000 in
/-- the case of `C172_at_rest` -/
example (i : Nat) (c : ACall) (hc : (exEmptyEnd.client .from38).calls[i]? = some c) :
    OverOrUnanswered .from38 (fun _ => exServices) (fun _ => exReg) exEmptyEnd i c := by
  refine C172_at_rest _ _ _ _ (by decide +kernel) ?_ (exEmpty_rests exEmptyEnd rfl fun _ => rfl) i c hc
  have h : (exEmptyEnd.client .from38).calls.map ACall.req = [exAioReq exCallA] := by decide +kernel
  intro c hc
  have := List.mem_map_of_mem (f := ACall.req) hc
  rw [show (sysRun .from38 (fun _ => exServices) (fun _ => exReg) ([.client (.call (exAioReq exCallA))] ++ exEmptyRest)) = exEmptyEnd from rfl, h, List.mem_singleton] at this
  rw [this]
  exact .inl ⟨exCallA, .sync, by decide +kernel⟩

set_option maxRecDepth 40000 in
/-- the case of `C172_every_call_ends` -/
example : ∃ N, ∀ k, N ≤ k →
    AtRest .from38 (fun _ => exServices) (fun _ => exReg) (sysPath .from38 (fun _ => exServices) (fun _ => exReg) [.client (.call (exAioReq exCallA))] exEmptyPath k) ∧
    ∀ i c, ((sysPath .from38 (fun _ => exServices) (fun _ => exReg) [.client (.call (exAioReq exCallA))] exEmptyPath k).client .from38).calls[i]? = some c →
      OverOrUnanswered .from38 (fun _ => exServices) (fun _ => exReg) (sysPath .from38 (fun _ => exServices) (fun _ => exReg) [.client (.call (exAioReq exCallA))] exEmptyPath k) i c := by
  apply C172_every_call_ends _ _ _ _ _ (by decide +kernel) _ exEmptyPath_noCall exEmptyPath_onConn
  · intro N hN
    refine ⟨17, ?_, rfl, ?_⟩
    · apply Classical.byContradiction
      intro h
      exact hN (exEmptyPath_rests N (by omega))
    · intro h
      have h1 := h.2 0
      have h2 : ((sysStep .from38 (fun _ => exServices) (fun _ => exReg)
          (sysPath .from38 (fun _ => exServices) (fun _ => exReg) [.client (.call (exAioReq exCallA))] exEmptyPath 17)
          (exEmptyPath 17)).peer (fun _ => exServices) (fun _ => exReg) 0).st.tasks.map Task.st ≠
          ((sysPath .from38 (fun _ => exServices) (fun _ => exReg) [.client (.call (exAioReq exCallA))] exEmptyPath 17).peer
            (fun _ => exServices) (fun _ => exReg) 0).st.tasks.map Task.st := by decide +kernel
      exact h2 (by rw [h1])
  · have h : ((sysRun .from38 (fun _ => exServices) (fun _ => exReg) [.client (.call (exAioReq exCallA))]).client .from38).calls.map ACall.req = [exAioReq exCallA] := by decide +kernel
    intro c hc
    have := List.mem_map_of_mem (f := ACall.req) hc
    rw [h, List.mem_singleton] at this
    rw [this]
    exact .inl ⟨exCallA, .sync, by decide +kernel⟩

end Bolt
