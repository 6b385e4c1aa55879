import Verif.Props.ComesToRest
import Verif.Props.FlowQuiet
/-!
# The measure of `Lemmas/Rest.lean`, with flow control

An event changes the client or a listener as it would without flow control, and their measure goes down; or it only changes
who waits for which buffer. Then bytes are taken, or a connection is lost; or somebody joins the waiters; or somebody who
was woken runs.
-/
namespace Bolt
open Spec

/-! ## Three numbers -/

def Less3 (x y : Nat × Nat × Nat) : Prop := Prod.Lex (· < ·) (Prod.Lex (· < ·) (· < ·)) x y

theorem less3_1 {a b : Nat} {x y : Nat × Nat} (h : a < b) : Less3 (a, x) (b, y) := Prod.Lex.left _ _ h

theorem less3_2 {a a' b b' x y : Nat} (e : a = a') (h : b < b') : Less3 (a, b, x) (a', b', y) := by
  subst e; exact Prod.Lex.right _ (Prod.Lex.left _ _ h)

theorem less3_3 {a a' b b' x y : Nat} (e : a = a') (e' : b = b') (h : x < y) : Less3 (a, b, x) (a', b', y) := by
  subst e; subst e'; exact Prod.Lex.right _ (Prod.Lex.right _ h)

theorem less3_cases {x y : Nat × Nat × Nat} (h : Less3 x y) :
    x.1 < y.1 ∨ x.1 = y.1 ∧ (x.2.1 < y.2.1 ∨ x.2.1 = y.2.1 ∧ x.2.2 < y.2.2) := by
  cases h with
  | left _ _ h => exact .inl h
  | right _ h =>
    refine .inr ⟨rfl, ?_⟩
    cases h with
    | left _ _ h => exact .inl h
    | right _ h => exact .inr ⟨rfl, h⟩

def add3 (x y : Nat × Nat × Nat) : Nat × Nat × Nat := (x.1 + y.1, x.2.1 + y.2.1, x.2.2 + y.2.2)

theorem less3_add_left {x y : Nat × Nat × Nat} (z : Nat × Nat × Nat) (h : Less3 x y) : Less3 (add3 x z) (add3 y z) := by
  rcases less3_cases h with h | ⟨h1, h | ⟨h2, h⟩⟩
  · exact less3_1 (by omega)
  · exact less3_2 (by omega) (by omega)
  · exact less3_3 (by omega) (by omega) (by omega)

theorem less3_add_right {x y : Nat × Nat × Nat} (z : Nat × Nat × Nat) (h : Less3 x y) : Less3 (add3 z x) (add3 z y) := by
  rcases less3_cases h with h | ⟨h1, h | ⟨h2, h⟩⟩
  · exact less3_1 (by omega)
  · exact less3_2 (by omega) (by omega)
  · exact less3_3 (by omega) (by omega) (by omega)

def sum3 (f : Nat → Nat × Nat × Nat) (N : Nat) : Nat × Nat × Nat :=
  (sumTo (fun n => (f n).1) N, sumTo (fun n => (f n).2.1) N, sumTo (fun n => (f n).2.2) N)

theorem sum3_congr {f g : Nat → Nat × Nat × Nat} {N : Nat} (h : ∀ m, m < N → g m = f m) : sum3 g N = sum3 f N := by
  have eq : ∀ (p : Nat × Nat × Nat → Nat), sumTo (fun n => p (g n)) N = sumTo (fun n => p (f n)) N :=
    fun p => sumTo_congr fun m hm => by rw [h m hm]
  exact Prod.ext (eq fun x => x.1) (Prod.ext (eq fun x => x.2.1) (eq fun x => x.2.2))

theorem sum3_less {f g : Nat → Nat × Nat × Nat} {N n : Nat} (hn : n < N) (other : ∀ m, m < N → m ≠ n → g m = f m)
    (h : Less3 (g n) (f n)) : Less3 (sum3 g N) (sum3 f N) := by
  have eq : ∀ (p : Nat × Nat × Nat → Nat), p (g n) = p (f n) → sumTo (fun n => p (g n)) N = sumTo (fun n => p (f n)) N := by
    intro p hp
    refine sumTo_congr fun m hm => ?_
    by_cases e : m = n
    · subst e; exact hp
    · rw [other m hm e]
  have lt : ∀ (p : Nat × Nat × Nat → Nat), p (g n) < p (f n) → sumTo (fun n => p (g n)) N < sumTo (fun n => p (f n)) N := by
    intro p hp
    exact sumTo_lt hn (fun m hm e => by rw [other m hm e]) hp
  rcases less3_cases h with h | ⟨h1, h | ⟨h2, h⟩⟩
  · exact less3_1 (lt (fun x => x.1) h)
  · exact less3_2 (eq (fun x => x.1) h1) (lt (fun x => x.2.1) h)
  · exact less3_3 (eq (fun x => x.1) h1) (eq (fun x => x.2.1) h2) (lt (fun x => x.2.2) h)

theorem sumTo_le {f g : Nat → Nat} {N : Nat} (h : ∀ m, m < N → g m ≤ f m) : sumTo g N ≤ sumTo f N := by
  induction N with
  | zero => exact Nat.le_refl _
  | succ N ih =>
    simp only [sumTo]
    have := ih fun m hm => h m (by omega)
    have := h N (by omega)
    omega

theorem sumTo_le_lt {f g : Nat → Nat} {N n : Nat} (hn : n < N) (h : ∀ m, m < N → g m ≤ f m) (hlt : g n < f n) :
    sumTo g N < sumTo f N := by
  induction N with
  | zero => omega
  | succ N ih =>
    simp only [sumTo]
    by_cases e : n = N
    · subst e
      have := sumTo_le (f := f) (g := g) (N := n) fun m hm => h m (by omega)
      omega
    · have := ih (by omega) fun m hm => h m (by omega)
      have := h N (by omega)
      omega

def isOn (b : Bool) : Nat := if b then 1 else 0

theorem isOn_true : isOn true = 1 := rfl
theorem isOn_false : isOn false = 0 := rfl
theorem flag_true : flag true = 0 := rfl
theorem flag_false : flag false = 1 := rfl

/-- fewer satisfy a condition that one less satisfies -/
theorem countP_drop {α : Type} {l : List α} {p q : α → Bool} (h : ∀ x ∈ l, q x = true → p x = true) {x : α} (hx : x ∈ l)
    (hp : p x = true) (hq : q x = false) : l.countP q < l.countP p := by
  induction l with
  | nil => cases hx
  | cons y l ih =>
    have hle : l.countP q ≤ l.countP p := List.countP_mono_left fun z hz => h z (List.mem_cons_of_mem _ hz)
    simp only [List.countP_cons]
    rcases List.mem_cons.1 hx with rfl | hx
    · rw [hp, hq]; simp; omega
    · have := ih (fun z hz => h z (List.mem_cons_of_mem _ hz)) hx
      have := h y (List.mem_cons_self ..)
      cases hqy : q y with
      | false => simp; split <;> omega
      | true => rw [this hqy]; omega

/-! ## The client -/

/-- bytes buffered, and whether writing is paused and the connection there; calls that do not wait; calls that were woken -/
def CFlow.rank3 (calls : Nat) (f : CFlow) : Nat × Nat × Nat :=
  (f.buf + isOn f.paused + flag f.lost, (List.range calls).countP (fun i => decide (i ∉ f.waiters)), f.woken.length)

/-- What an event does on the client: nothing; or the client's measure goes down; or only the flow control of one connection
changes, and its measure goes down; or call `i`, which does not wait, is struck from the lists. -/
inductive CStep (s s' : AFSt) : Prop where
  | same (h : s' = s)
  | client (h : ∀ l, Lower (sysRank s'.a l) (sysRank s.a l))
  | flow (n : Nat) (f f' : CFlow) (was : s.flows[n]? = some f) (now : s' = { s with flows := s.flows.set n f' })
      (rank : Less3 (f'.rank3 s.a.calls.length) (f.rank3 s.a.calls.length))
  | forget (i : Nat) (h : ∀ f ∈ s.flows, i ∉ f.waiters) (now : s' = { s with flows := s.flows.map fun f => f.forget i })

theorem pad_same {s : AFSt} (h : s.a.conns.length ≤ s.flows.length) : s.pad = s := by
  unfold AFSt.pad
  rw [Nat.sub_eq_zero_of_le h]
  simp

theorem pad_a (s : AFSt) : s.pad.a = s.a := rfl

theorem take_rank (c : FlowCfg) (L k : Nat) (f : CFlow) : f.take c k = f ∨ Less3 ((f.take c k).rank3 L) (f.rank3 L) := by
  unfold CFlow.take
  split
  · exact .inl rfl
  · split
    · next h =>
      right
      have : f.paused = true := by simp at h; exact h.1
      refine less3_1 ?_
      dsimp only
      rw [this, isOn_true, isOn_false]
      omega
    · by_cases e : f.buf - k = f.buf
      · left; rw [e]
      · right
        refine less3_1 ?_
        dsimp only
        omega

theorem lose_rank (L : Nat) (exc : Bool) (f : CFlow) : f.lose exc = f ∨ Less3 ((f.lose exc).rank3 L) (f.rank3 L) := by
  unfold CFlow.lose
  split
  · exact .inl rfl
  · next h =>
    right
    refine less3_1 ?_
    have : f.lost = false := by simpa using h
    rw [this, flag_true, flag_false]
    dsimp only
    omega

theorem modify_flow {s : AFSt} (n : Nat) (g : CFlow → CFlow)
    (hg : ∀ f, s.flows[n]? = some f → g f = f ∨ Less3 ((g f).rank3 s.a.calls.length) (f.rank3 s.a.calls.length)) :
    CStep s { s with flows := s.flows.modify n g } := by
  cases hf : s.flows[n]? with
  | none => exact .same (by rw [modify_none _ hf])
  | some f =>
    rw [modify_is_set _ hf]
    rcases hg f hf with h | h
    · exact .same (by rw [h, set_same hf])
    · exact .flow n f _ hf rfl h

/-- a `drain` ends -/
theorem resume_rank (c : FlowCfg) (v : PyVer) (s s₀ : AFSt) (hs : s.a = s₀.a) (i n : Nat) (ok : Bool) (k : Nat)
    (h : (s.a.calls[i]?.bind fun call => call.pc.writesOn) = some n) :
    ∀ l, Lower (sysRank (s.resume c v i n ok k).pad.a l) (sysRank s₀.a l) := by
  intro l
  rw [pad_a, show (s.resume c v i n ok k).a = s.a.drained i ok from rfl, ← hs]
  refine lower1 ?_
  cases hc : s.a.calls[i]? with
  | none => rw [hc] at h; cases h
  | some call =>
    rw [hc] at h
    have h : call.pc.writesOn = some n := h
    cases hp : call.pc with
    | drain1 r a m => exact drained1_rank ok hc hp
    | drain2 r a m => exact drained2_rank ok hc hp
    | _ => rw [hp] at h; cases h

theorem turn_rank (c : FlowCfg) (v : PyVer) (s : AFSt) (hlen : s.a.conns.length ≤ s.flows.length) (i k : Nat) :
    CStep s (s.turn c v i k).pad := by
  have hsame : ∀ s' : AFSt, s' = s → CStep s s'.pad := by
    rintro s' rfl
    exact .same (pad_same hlen)
  unfold AFSt.turn
  split
  · exact hsame _ rfl
  · next n hn =>
    split
    · exact hsame _ rfl
    · next f hf =>
      split
      · next w hw =>
        exact .client (resume_rank c v { s with flows := s.flows.modify n fun f => { f with woken := f.woken.filter fun w => w.1 != i } }
          s rfl i n _ k hn)
      · split
        · exact hsame _ rfl
        · next hni =>
          split
          · exact .client (resume_rank c v s s rfl i n _ k hn)
          · split
            · split
              · rw [pad_same (by dsimp only; rw [List.length_modify]; exact hlen)]
                refine modify_flow n _ fun f' hf' => .inr ?_
                rw [hf] at hf'
                cases hf'
                refine less3_2 rfl ?_
                have hi : i < s.a.calls.length := by
                  cases hc : s.a.calls[i]? with
                  | none => rw [hc] at hn; cases hn
                  | some call => exact (List.getElem?_eq_some_iff.1 hc).1
                refine countP_drop (x := i) ?_ (List.mem_range.2 hi) ?_ ?_
                · intro x _ hx
                  simp only [List.mem_append, List.mem_singleton, not_or, decide_eq_true_eq] at hx ⊢
                  exact hx.1
                · simpa using hni
                · simp
              · exact .client (resume_rank c v s s rfl i n _ k hn)
            · exact .client (resume_rank c v s s rfl i n _ k hn)

/-- What any event but a call or the arrival of bytes does on the client. -/
theorem afStep_rank (c : FlowCfg) (v : PyVer) (s : AFSt) (hinv : AFInv s) (hlen : s.flows.length = s.a.conns.length) (e : AFEv)
    (hcall : ∀ q, e ≠ .ev (.call q)) (hdata : ∀ n bs, e ≠ .ev (.data n bs)) : CStep s (afStep c v s e) := by
  have hact : ∀ (a : AEv) (i : Nat), a.actor = some i → CStep s ({ s with a := astep v s.a a } : AFSt).pad := by
    intro a i hi
    rcases actor_rank v s.a a hi with h | h
    · rw [h]; exact .same (pad_same (Nat.le_of_eq hlen.symm))
    · exact .client fun l => lower1 h
  have hconn : ∀ (a : AEv) (n : Nat), (astep v s.a a = s.a ∨ ∃ k k', Falls s.a (astep v s.a a) n k k') →
      CStep s ({ s with a := astep v s.a a } : AFSt).pad := by
    rintro a n (h | ⟨k, k', h⟩)
    · rw [h]; exact .same (pad_same (Nat.le_of_eq hlen.symm))
    · exact .client fun l => lower_conn _ h.was h.now h.sent (h.rank _) h.calls
  cases e with
  | ev e =>
    cases e with
    | call q => exact absurd rfl (hcall q)
    | data n bs => exact absurd rfl (hdata n bs)
    | drained i ok => exact .same rfl
    | cancel i =>
      rcases actor_rank v s.a (.cancel i) (i := i) rfl with h | h
      · refine .forget i ?_ ?_
        · intro f hf hi
          obtain ⟨n, hn⟩ := List.getElem?_of_mem hf
          have hw := hinv.wait n f i hn hi
          unfold ASt.pcOf at hw
          cases hc : s.a.calls[i]? with
          | none => rw [hc] at hw; cases hw
          | some call =>
            rw [hc] at hw
            have hw : call.pc.writesOn = some n := hw
            have hlt : (s.a.cancel v i).callsRank < s.a.callsRank := by
              unfold ASt.cancel
              cases hp : call.pc with
              | drain1 r a m =>
                simp only [hc, hp]
                split
                · exact broken_rank a m rfl hc (by rw [hp]; simp only [CallPc.rank]; omega)
                · exact setPc_rank rfl hc (by simp [hp, CallPc.rank])
              | drain2 r a m =>
                simp only [hc, hp]
                split
                · exact broken_rank a m rfl hc (by rw [hp]; simp only [CallPc.rank]; omega)
                · exact setPc_rank rfl hc (by simp [hp, CallPc.rank])
              | _ => rw [hp] at hw; cases hw
            rw [show s.a.cancel v i = s.a from h] at hlt
            exact Nat.lt_irrefl _ hlt
        · show AFSt.pad _ = _
          rw [h]
          exact pad_same (by dsimp only; rw [List.length_map]; omega)
      · exact .client fun l => lower1 h
    | recv n => exact hconn (.recv n) n (recv_rank _ n)
    | eof n => exact hconn (.eof n) n (eof_rank v _ n)
    | reset n => exact hconn (.reset n) n (reset_rank v _ n)
    | start i a => exact hact (.start i a) i rfl
    | lock i => exact hact (.lock i) i rfl
    | dialed i b => exact hact (.dialed i b) i rfl
    | wake i => exact hact (.wake i) i rfl
  | turn i k => exact turn_rank c v s (by omega) i k
  | take n k => exact modify_flow n _ fun f _ => take_rank c _ k f
  | lose n exc =>
    have hr : astep v s.a (if exc then .reset n else .eof n) = s.a ∨
        ∃ k k', Falls s.a (astep v s.a (if exc then .reset n else .eof n)) n k k' := by
      split
      · exact reset_rank v _ n
      · exact eof_rank v _ n
    rcases hr with h | ⟨k, k', h⟩
    · show CStep s { a := astep v s.a (if exc then .reset n else .eof n), flows := s.flows.modify n fun f => f.lose exc }
      rw [h]
      exact modify_flow n _ fun f _ => lose_rank _ exc f
    · exact .client fun l => lower_conn _ h.was h.now h.sent (h.rank _) h.calls

/-! ## A listener -/

/-- the same on the listener's side: also whether the reader is in its second `drain`, and whether it has not died -/
def LFSt.rank3 (s : LFSt) : Nat × Nat × Nat :=
  (s.buf + isOn s.paused + isOn s.hold + flag s.dead,
   (List.range s.l.tasks.length).countP (fun i => decide (LWho.task i ∉ s.waiters)) + flag (decide (LWho.reader ∈ s.waiters)),
   s.woken.length)

/-- What an event does on the listener's side of a connection. -/
inductive LStep (s s' : LFSt) : Prop where
  | same (h : s' = s)
  | read (h : ∀ w, s'.l.readRank w < s.l.readRank w)
  | work (h : SameRead s.l s'.l) (rank : s'.l.workRank < s.l.workRank)
  | flow (h : s'.l = s.l) (rank : Less3 s'.rank3 s.rank3)

/-- a `drain` that suspends: the coroutine was suspended before, or it joins the waiters -/
theorem drain_none {c : FlowCfg} {s s' : LFSt} {w : LWho} (h : s.drain c w = (s', none))
    (hw : ∀ i, w = .task i → i < s.l.tasks.length) : LStep s s' := by
  unfold LFSt.drain at h
  split at h
  · cases h
  · split at h
    · cases h; exact .same rfl
    · next hn =>
      split at h
      · cases h
      · split at h
        · split at h
          · cases h
            refine .flow rfl (less3_2 rfl ?_)
            dsimp only
            cases w with
            | task i =>
              have := countP_drop (l := List.range s.l.tasks.length) (p := fun j => decide (LWho.task j ∉ s.waiters))
                (q := fun j => decide (LWho.task j ∉ s.waiters ++ [.task i])) (x := i)
                (by intro x _ hx; simp only [List.mem_append, not_or, decide_eq_true_eq] at hx ⊢; exact hx.1)
                (List.mem_range.2 (hw i rfl)) (by simpa using hn) (by simp)
              have e : decide (LWho.reader ∈ s.waiters ++ [.task i]) = decide (LWho.reader ∈ s.waiters) := by simp
              rw [e]
              omega
            | reader =>
              have e1 : flag (decide (LWho.reader ∈ s.waiters ++ [.reader])) = 0 := by simp [flag]
              have e2 : flag (decide (LWho.reader ∈ s.waiters)) = 1 := by simp [flag, hn]
              have e3 : (List.range s.l.tasks.length).countP (fun j => decide (LWho.task j ∉ s.waiters ++ [.reader])) =
                  (List.range s.l.tasks.length).countP (fun j => decide (LWho.task j ∉ s.waiters)) := by
                congr 1
                funext j
                simp
              rw [e1, e2, e3]
              omega
          · cases h
        · cases h

theorem die_rank (l : LSt) : ({ l with tail := .reading, rd := { l.rd with phase := .stopped } } : LSt) = l ∨
    ∀ w, ({ l with tail := .reading, rd := { l.rd with phase := .stopped } } : LSt).readRank w < l.readRank w := by
  by_cases h : l.tail = .reading ∧ l.rd.phase = .stopped
  · left
    obtain ⟨h3, h4⟩ := h
    obtain ⟨recvd, buf, eof, ⟨phase, last⟩, tail, acts, tasks, futs, out, closed, lost, now, heap, reg⟩ := l
    cases h3; cases h4
    rfl
  · right
    intro w
    have e3 : l.tail.rank = 0 → l.tail = .reading := by unfold RTail.rank; split <;> simp_all
    have e4 : l.rd.phase.rank = 0 → l.rd.phase = .stopped := by unfold RPhase.rank; split <;> simp_all
    have e6 : RTail.reading.rank = 0 := rfl
    have e7 : RPhase.stopped.rank = 0 := rfl
    simp only [LSt.readRank, e6, e7]
    have h5 : ¬ (l.tail.rank = 0 ∧ l.rd.phase.rank = 0) := fun ⟨c, d⟩ => h ⟨e3 c, e4 d⟩
    omega

theorem die_rank_le (l : LSt) (w : Nat) :
    ({ l with tail := .reading, rd := { l.rd with phase := .stopped } } : LSt).readRank w ≤ l.readRank w := by
  rcases die_rank l with h | h
  · rw [h]; exact Nat.le_refl _
  · exact Nat.le_of_lt (h w)

theorem reader_busy {l : LSt} (h : l.tail ≠ .reading) (w : Nat) : l.reader.readRank w < l.readRank w := by
  rcases idle_or_rank l with h1 | h1
  · exact absurd h1.1 h
  · exact h1 w

/-- nobody, or the elements that fail the test, are struck from the list -/
theorem filter_woken (s : LFSt) (p : LWho × Bool → Bool) : LStep s { s with woken := s.woken.filter p } := by
  by_cases e : (s.woken.filter p).length = s.woken.length
  · exact .same (by rw [List.Sublist.eq_of_length List.filter_sublist e])
  · refine .flow rfl (less3_3 rfl rfl ?_)
    have := List.length_filter_le p s.woken
    dsimp only
    omega

theorem turnTask_rank (c : FlowCfg) (svc : Services) (s : LFSt) (i k : Nat) : LStep s (s.turnTask c svc i k) := by
  unfold LFSt.turnTask
  split
  · exact .same rfl
  · next t ht =>
    have hlt := (List.getElem?_eq_some_iff.1 ht).1
    split
    · next m hm =>
      have e1 : t.st.rank = 1 := by rw [hm]; rfl
      have e2 : TaskSt.ended.rank = 0 := rfl
      have hf := s.drain_frame c (.task i)
      split
      · next s' h => exact drain_none h fun j hj => by cases hj; exact hlt
      · next s' h =>
        rw [h] at hf
        dsimp only at hf
        refine .work ?_ ?_
        · dsimp only; rw [hf.1]; exact ⟨rfl, rfl, rfl, rfl, rfl, rfl, rfl⟩
        · dsimp only
          rw [hf.1]
          have := setTask_work (s := s.l) (s' := s.l) (u := { t with st := .ended }) rfl ht
          dsimp only at this
          omega
      · next s' h =>
        rw [h] at hf
        dsimp only at hf
        have hw : SameRead s.l (lstep svc s.l (.write i)) ∧ (lstep svc s.l (.write i)).workRank < s.l.workRank := by
          simp only [lstep, ht, hm]
          have hfr : (s.l.write (.task i) m).tasks = s.l.tasks ∧ (s.l.write (.task i) m).futs = s.l.futs := by
            unfold LSt.write; split <;> exact ⟨rfl, rfl⟩
          refine ⟨SameRead.write (.task i) m, ?_⟩
          have := setTask_work (s := s.l) (s' := s.l.write (.task i) m) (u := { t with st := .ended }) hfr.1 ht
          rw [hfr.2] at this
          dsimp only at this
          omega
        dsimp only
        split
        · refine .work ?_ ?_ <;> dsimp only <;> rw [hf.1]
          · exact hw.1
          · exact hw.2
        · have hf2 := LFSt.drain_frame c { s'.buffer c m.length k with l := lstep svc s'.l (.write i) } (.task i)
          refine .work ?_ ?_ <;> rw [hf2.1] <;> dsimp only <;> rw [hf.1]
          · exact hw.1
          · exact hw.2
    · exact filter_woken s _

theorem turnReader_rank (c : FlowCfg) (svc : Services) (s : LFSt) (k : Nat) : LStep s (s.turnReader c svc k) := by
  have hf := s.drain_frame c .reader
  unfold LFSt.turnReader
  split
  · exact .same rfl
  · next hd =>
    have hd : s.dead = false := by simpa using hd
    split
    · next hh =>
      split
      · next s' h => exact drain_none h fun j hj => by cases hj
      · next s' h =>
        rw [h] at hf
        obtain ⟨f1, f2, f3, f4, f5⟩ := hf
        dsimp only at f1 f2 f3 f4 f5
        refine .flow f1 (less3_1 ?_)
        dsimp only
        rw [f2, f3, f5, hh, isOn_true, isOn_false]
        omega
      · next s' h =>
        rw [h] at hf
        obtain ⟨f1, f2, f3, f4, f5⟩ := hf
        dsimp only at f1 f2 f3 f4 f5
        rcases die_rank s.l with h1 | h1
        · refine .flow ?_ (less3_1 ?_)
          · show ({ s'.l with tail := .reading, rd := { s'.l.rd with phase := .stopped } } : LSt) = s.l
            rw [f1]; exact h1
          · show s'.buf + isOn s'.paused + isOn false + flag true < _
            rw [f2, f3, hd, hh, isOn_true, isOn_false, flag_true, flag_false]
            omega
        · refine .read fun w => ?_
          show ({ s'.l with tail := .reading, rd := { s'.l.rd with phase := .stopped } } : LSt).readRank w < _
          rw [f1]; exact h1 w
    · split
      · rcases reader_rank s.l with h | h
        · exact .same (by rw [show lstep svc s.l .reader = s.l from h])
        · exact .read h
      · next m ht =>
        have hne : s.l.tail ≠ .reading := by rw [ht]; simp
        split
        · next s' h => exact drain_none h fun j hj => by cases hj
        · next s' h =>
          rw [h] at hf
          refine .read fun w => ?_
          show ({ s'.l with tail := .reading, rd := { s'.l.rd with phase := .stopped } } : LSt).readRank w < _
          rw [hf.1]
          rcases die_rank s.l with h1 | h1
          · exact absurd (by rw [← h1]) hne
          · exact h1 w
        · next s' h =>
          rw [h] at hf
          have hf2 := LFSt.drain_frame c { s'.buffer c m.length k with l := lstep svc s'.l .reader } .reader
          have hl : ∀ w, ((LFSt.drain c { s'.buffer c m.length k with l := lstep svc s'.l .reader } .reader).1).l.readRank w <
              s.l.readRank w := by
            intro w
            rw [hf2.1]
            show (LSt.reader s'.l).readRank w < _
            rw [hf.1]
            exact reader_busy hne w
          refine .read fun w => ?_
          have := hl w
          split
          · next s2 h2 => rw [h2] at this; exact this
          · next s2 h2 => rw [h2] at this; exact this
          · next s2 h2 =>
            rw [h2] at this
            exact Nat.lt_of_le_of_lt (die_rank_le s2.l w) this
      · next m ht =>
        have hne : s.l.tail ≠ .reading := by rw [ht]; simp
        split
        · next s' h => exact drain_none h fun j hj => by cases hj
        · next s' h =>
          rw [h] at hf
          refine .read fun w => ?_
          show (LSt.reader { s'.l with tail := .closing none }).readRank w < _
          rw [hf.1]
          have h1 := reader_busy (l := { s.l with tail := .closing none }) (by simp) w
          have h2 : ({ s.l with tail := .closing none } : LSt).readRank w = s.l.readRank w := by
            have : s.l.tail.rank = 1 := by rw [ht]; rfl
            simp only [LSt.readRank, this]
            rfl
          omega
        · next s' h =>
          rw [h] at hf
          refine .read fun w => ?_
          show (LSt.reader s'.l).readRank w < _
          rw [hf.1]
          exact reader_busy hne w

/-- What any event does on the listener's side, but for the arrival of bytes, time and registrations. -/
theorem lfStep_rank (c : FlowCfg) (svc : Services) (s : LFSt) (hs : LFlow c s) (e : LFEv) (hdata : ∀ bs, e ≠ .ev (.data bs))
    (htick : ∀ d, e ≠ .ev (.tick d)) (hreg : ∀ r, e ≠ .ev (.register r)) : LStep s (lfStep c svc s e) := by
  cases e with
  | ev e =>
    have hread : (lstep svc s.l e = s.l ∨ ∀ w, (lstep svc s.l e).readRank w < s.l.readRank w) → LStep s { s with l := lstep svc s.l e } := by
      rintro (h | h)
      · rw [h]; exact .same rfl
      · exact .read h
    have hwork : (lstep svc s.l e = s.l ∨ SameRead s.l (lstep svc s.l e) ∧ (lstep svc s.l e).workRank < s.l.workRank) →
        LStep s { s with l := lstep svc s.l e } := by
      rintro (h | h)
      · rw [h]; exact .same rfl
      · exact .work h.1 h.2
    cases e with
    | data bs => exact absurd rfl (hdata bs)
    | tick d => exact absurd rfl (htick d)
    | register r => exact absurd rfl (hreg r)
    | reader => exact .same rfl
    | write i => exact .same rfl
    | reset => exact .same rfl
    | eof => exact hread (leof_rank _ _)
    | run i fresh => exact hwork (work_rank _ _ _ (.inl ⟨i, fresh, rfl⟩))
    | result i => exact hwork (work_rank _ _ _ (.inr (.inl ⟨i, rfl⟩)))
    | expire i => exact hwork (work_rank _ _ _ (.inr (.inr (.inl ⟨i, rfl⟩))))
    | futStart k => exact hwork (work_rank _ _ _ (.inr (.inr (.inr (.inr (.inl ⟨k, rfl⟩))))))
    | futFinish k o => exact hwork (work_rank _ _ _ (.inr (.inr (.inr (.inr (.inr ⟨k, o, rfl⟩))))))
  | turn w k =>
    cases w with
    | task i => exact turnTask_rank c svc s i k
    | reader => exact turnReader_rank c svc s k
  | take k =>
    unfold lfStep
    dsimp only
    split
    · exact .same rfl
    · split
      · next h =>
        have : s.paused = true := by simp at h; exact h.1
        refine .flow rfl (less3_1 ?_)
        dsimp only
        rw [this, isOn_true, isOn_false]
        omega
      · by_cases e : s.buf - k = s.buf
        · exact .same (by rw [e])
        · refine .flow rfl (less3_1 ?_)
          dsimp only
          omega
  | reset =>
    unfold lfStep
    dsimp only
    rcases lreset_rank svc s.l with h | h
    · have hl : s.l.lost = true := by rw [← h]; rfl
      have hw : s.waiters = [] := by
        apply Classical.byContradiction
        intro hx
        have := (hs.wait hx).1
        rw [hl] at this
        cases this
      by_cases e : s.buf = 0 ∧ s.hold = false
      · refine .same ?_
        rw [h, hw]
        obtain ⟨l, buf, paused, waiters, woken, hold, dead⟩ := s
        obtain ⟨e1, e2⟩ := e
        dsimp only at e1 e2 hw
        subst e1; subst e2; subst hw
        simp
      · refine .flow h (less3_1 ?_)
        dsimp only
        have : isOn s.hold = 0 → s.hold = false := by unfold isOn; cases s.hold <;> simp
        rw [isOn_false]
        have : ¬ (s.buf = 0 ∧ isOn s.hold = 0) := fun ⟨a, b⟩ => e ⟨a, this b⟩
        omega
    · exact .read h

/-! ## What has arrived -/

theorem received_sawEof_snoc (evs : List LEv) (e : LEv) : received (evs ++ [e]) =
    received evs ++ (if sawEof evs then [] else match e with | .data bs => bs | _ => []) := by
  induction evs with
  | nil => cases e <;> simp [received, sawEof]
  | cons a evs ih =>
    cases a <;> simp_all [received, sawEof]

/-- the bytes and the end of the stream are the schedule's -/
theorem lfRun_env (c : FlowCfg) (svc : Services) (reg : Registry) (evs : List LFEv) :
    (lfRun c svc reg evs).l.recvd = received (outsideOf evs) ∧ (lfRun c svc reg evs).l.eof = sawEof (outsideOf evs) := by
  induction evs using snoc_induct with
  | nil => exact ⟨rfl, rfl⟩
  | snoc evs e ih =>
    rw [lfRun_snoc, outsideOf_append]
    generalize lfRun c svc reg evs = s at *
    have hwr : ∀ (l : LSt) i, (lstep svc l (.write i)).recvd = l.recvd ∧ (lstep svc l (.write i)).eof = l.eof := by
      intro l i
      have := lstep_same svc l (.write i) rfl
      exact ⟨this.recvd, this.eof⟩
    have hrd : ∀ l : LSt, (lstep svc l .reader).recvd = l.recvd ∧ (lstep svc l .reader).eof = l.eof := by
      intro l
      have := reader_fields l
      exact ⟨this.1, this.2.1⟩
    have hsame : ∀ s' : LFSt, s'.l.recvd = s.l.recvd ∧ s'.l.eof = s.l.eof → outsideOf [e] = [] →
        s'.l.recvd = received (outsideOf evs ++ outsideOf [e]) ∧ s'.l.eof = sawEof (outsideOf evs ++ outsideOf [e]) := by
      intro s' h1 h2
      rw [h2, List.append_nil, h1.1, h1.2]
      exact ih
    cases e with
    | ev e =>
      cases ho : e.outside with
      | false =>
        have : outsideOf [.ev e] = [] := by simp [outsideOf, ho]
        exact hsame _ (by simp [lfStep, ho]) this
      | true =>
        have h1 : outsideOf [.ev e] = [e] := by simp [outsideOf, ho]
        have h2 : (lfStep c svc s (.ev e)).l = lstep svc s.l e := by simp [lfStep, ho]
        rw [h1, h2, received_sawEof_snoc, ← ih.1, ← ih.2]
        have h3 : sawEof (outsideOf evs ++ [e]) = (sawEof (outsideOf evs) || decide (e = .eof)) := by
          unfold sawEof
          rw [List.contains_eq_any_beq, List.any_append, ← List.contains_eq_any_beq]
          cases e <;> simp
        rw [h3, ← ih.2]
        cases hev : e.isReader with
        | false =>
          have h4 := lstep_same svc s.l e hev
          rw [h4.recvd, h4.eof]
          cases e <;> first | (cases hev; done) | simp
        | true =>
          cases e with
          | data bs =>
            cases heof : s.l.eof <;> simp [lstep, heof]
          | eof => simp [lstep]
          | reset => cases ho
          | reader => cases ho
          | _ => cases hev
    | turn w k =>
      refine hsame _ ?_ rfl
      cases w with
      | task i =>
        show (s.turnTask c svc i k).l.recvd = _ ∧ (s.turnTask c svc i k).l.eof = _
        have hf := s.drain_frame c (.task i)
        unfold LFSt.turnTask
        split
        · exact ⟨rfl, rfl⟩
        · split
          · next m hm =>
            split
            · next s' h => rw [h] at hf; rw [hf.1]; exact ⟨rfl, rfl⟩
            · next s' h => rw [h] at hf; dsimp only; rw [hf.1]; exact ⟨rfl, rfl⟩
            · next s' h =>
              rw [h] at hf
              have hf2 := LFSt.drain_frame c { s'.buffer c m.length k with l := lstep svc s'.l (.write i) } (.task i)
              dsimp only
              split
              · dsimp only; rw [hf.1]; exact hwr _ i
              · rw [hf2.1]; dsimp only; rw [hf.1]; exact hwr _ i
          · exact ⟨rfl, rfl⟩
      | reader =>
        show (s.turnReader c svc k).l.recvd = _ ∧ (s.turnReader c svc k).l.eof = _
        have hf := s.drain_frame c .reader
        unfold LFSt.turnReader
        split
        · exact ⟨rfl, rfl⟩
        · split
          · split
            · next s' h => rw [h] at hf; rw [hf.1]; exact ⟨rfl, rfl⟩
            · next s' h => rw [h] at hf; dsimp only; rw [hf.1]; exact ⟨rfl, rfl⟩
            · next s' h => rw [h] at hf; show s'.l.recvd = _ ∧ s'.l.eof = _; rw [hf.1]; exact ⟨rfl, rfl⟩
          · split
            · exact hrd _
            · next m _ =>
              split
              · next s' h => rw [h] at hf; rw [hf.1]; exact ⟨rfl, rfl⟩
              · next s' h => rw [h] at hf; show s'.l.recvd = _ ∧ s'.l.eof = _; rw [hf.1]; exact ⟨rfl, rfl⟩
              · next s' h =>
                rw [h] at hf
                have hf2 := LFSt.drain_frame c { s'.buffer c m.length k with l := lstep svc s'.l .reader } .reader
                have hl : (LFSt.drain c { s'.buffer c m.length k with l := lstep svc s'.l .reader } .reader).1.l = lstep svc s.l .reader := by
                  rw [hf2.1]; dsimp only; rw [hf.1]
                split
                · next s2 h2 => rw [h2] at hl; dsimp only at hl ⊢; rw [hl]; exact hrd _
                · next s2 h2 => rw [h2] at hl; dsimp only at hl ⊢; rw [hl]; exact hrd _
                · next s2 h2 => rw [h2] at hl; dsimp only at hl; show s2.l.recvd = _ ∧ s2.l.eof = _; rw [hl]; exact hrd _
            · split
              · next s' h => rw [h] at hf; rw [hf.1]; exact ⟨rfl, rfl⟩
              · next s' h => rw [h] at hf; dsimp only at hf ⊢; rw [hf.1]; exact hrd { s.l with tail := .closing none }
              · next s' h => rw [h] at hf; dsimp only at hf ⊢; rw [hf.1]; exact hrd _
    | take k =>
      refine hsame _ ?_ rfl
      unfold lfStep
      dsimp only
      repeat' split
      all_goals exact ⟨rfl, rfl⟩
    | reset => exact hsame _ ⟨rfl, rfl⟩ rfl

end Bolt
