import Verif.Model.Drain
import Verif.Lemmas.AioClient
/-!
# C139-C141: writers of one connection under back pressure
-/
namespace Bolt

/-! ## What the claims speak of -/

/-- the coroutine is over: it ran to its end or a `drain` raised -/
def Spec.FlowEnded : FlowPhase → Prop
  | .done => True
  | .failed _ _ => True
  | _ => False

/-- the coroutine is suspended in a `drain` -/
def Spec.FlowWaiting : FlowPhase → Prop
  | .wait1 => True
  | .wait2 => True
  | _ => False

/-- the connection is not lost during these events -/
def Spec.FlowKept (evs : List FlowEv) : Prop := ∀ b, FlowEv.lose b ∉ evs

/-- what coroutine `i` gave to the transport -/
def Spec.writtenBy (s : FlowSt) (i : Nat) : List (Nat × Bytes) := s.log.filter fun e => e.1 == i

/-- a coroutine is created only when the ones before are over -/
def Spec.FlowOneAtATime (c : FlowCfg) (evs : List FlowEv) : Prop :=
  ∀ pre m post, evs = pre ++ .spawn m :: post → ∀ t ∈ (flowRun c pre).tasks, Spec.FlowEnded t.phase

/-- the event is the loop's or the network's doing: no coroutine is created, the connection is kept -/
def Spec.FlowProgress : FlowEv → Prop
  | .step _ _ => True
  | .take _ => True
  | _ => False

/-- no message is longer than `L` -/
def Spec.FlowShort (L : Nat) (evs : List FlowEv) : Prop := ∀ m, FlowEv.spawn m ∈ evs → m.length ≤ L

open Spec

instance (p : FlowPhase) : Decidable (FlowEnded p) := by cases p <;> unfold FlowEnded <;> infer_instance
instance (p : FlowPhase) : Decidable (FlowWaiting p) := by cases p <;> unfold FlowWaiting <;> infer_instance

/-- the number of coroutines that are not over -/
def Spec.flowLive (s : FlowSt) : Nat := s.tasks.countP fun t => !decide (FlowEnded t.phase)

/-! ## The invariant -/

/-- nothing has been given to the transport in this phase -/
def FlowPhase.before : FlowPhase → Prop
  | .start | .wait1 | .woke1 | .failed false _ => True
  | _ => False

/-- the message has been given to the transport in this phase -/
def FlowPhase.after : FlowPhase → Prop
  | .wait2 | .woke2 | .done | .failed true .assertion => True
  | _ => False

structure FlowInv (c : FlowCfg) (s : FlowSt) : Prop where
  wl : ∀ i, i ∈ s.waiters → ∃ t : FlowTask, s.tasks[i]? = some t ∧ FlowWaiting t.phase
  lw : ∀ (i : Nat) (t : FlowTask), s.tasks[i]? = some t → FlowWaiting t.phase → i ∈ s.waiters
  wp : s.waiters ≠ [] → s.paused = true ∧ s.lost = false
  one : c.many = false → s.waiters.length ≤ 1
  held : c.many = false → s.paused = true → s.lost = false → s.waiters ≠ []
  pb : s.paused = true → s.lost = false → c.low < s.buf
  nb : s.paused = false → s.lost = false → s.buf ≤ c.high
  old : c.many = false → ∀ (i : Nat) (t : FlowTask), s.tasks[i]? = some t →
    t.phase ≠ .wait1 ∧ t.phase ≠ .woke1 ∧ t.phase ≠ .failed true .assertion
  new : c.many = true → ∀ (i : Nat) (t : FlowTask), s.tasks[i]? = some t → ∀ b, t.phase ≠ .failed b .assertion
  kept : s.lost = false → ∀ (i : Nat) (t : FlowTask), s.tasks[i]? = some t → ∀ b, t.phase ≠ .failed b .reset
  lb : ∀ (i : Nat) (t : FlowTask), s.tasks[i]? = some t → t.phase.before → writtenBy s i = []
  la : ∀ (i : Nat) (t : FlowTask), s.tasks[i]? = some t → t.phase.after → writtenBy s i = [(i, t.msg)]
  lr : ∀ (i : Nat) (t : FlowTask), s.tasks[i]? = some t → t.phase = .failed true .reset → writtenBy s i = [] ∨ writtenBy s i = [(i, t.msg)]
  lo : ∀ e, e ∈ s.log → e.1 < s.tasks.length

theorem FlowInv.init (c : FlowCfg) : FlowInv c .init := by
  constructor <;> simp [FlowSt.init]

theorem flow_setPhase_get (s : FlowSt) (i : Nat) (p : FlowPhase) (j : Nat) :
    (s.setPhase i p).tasks[j]? = if i = j then s.tasks[j]?.map (fun t => { t with phase := p }) else s.tasks[j]? := by
  simp only [FlowSt.setPhase, List.getElem?_modify]
  split <;> simp

theorem flow_wakeAll_get (s : FlowSt) (f : FlowPhase → FlowPhase) (j : Nat) :
    (s.wakeAll f).tasks[j]? =
      s.tasks[j]?.map (fun t => if s.waiters.contains j then { t with phase := f t.phase } else t) := by
  simp [FlowSt.wakeAll, List.getElem?_mapIdx]

theorem writtenBy_append (s : FlowSt) (i : Nat) (m : Bytes) (j : Nat) :
    (s.log ++ [(i, m)]).filter (fun e => e.1 == j) = writtenBy s j ++ if i = j then [(i, m)] else [] := by
  rw [List.filter_append]
  by_cases h : i = j <;> simp [h, writtenBy]

theorem writtenBy_fresh {s : FlowSt} (h : ∀ e, e ∈ s.log → e.1 < s.tasks.length) : writtenBy s s.tasks.length = [] := by
  simp only [writtenBy, List.filter_eq_nil_iff]
  intro e he
  have := h e he
  simp; omega

theorem FlowInv.spawn {c : FlowCfg} {s : FlowSt} (h : FlowInv c s) (m : Bytes) :
    FlowInv c { s with tasks := s.tasks ++ [⟨m, .start⟩] } := by
  have hg : ∀ (i : Nat) (t : FlowTask), (s.tasks ++ [⟨m, .start⟩])[i]? = some t →
      s.tasks[i]? = some t ∨ (i = s.tasks.length ∧ t = ⟨m, .start⟩) := by
    intro i t ht
    grind
  have hw := writtenBy_fresh h.lo
  constructor
  · intro i hi
    obtain ⟨t, ht, hp⟩ := h.wl i hi
    exact ⟨t, by grind, hp⟩
  · intro i t ht hp
    rcases hg i t ht with h1 | ⟨h1, h2⟩
    · exact h.lw i t h1 hp
    · subst h2; exact hp.elim
  · exact h.wp
  · exact h.one
  · exact h.held
  · exact h.pb
  · exact h.nb
  · intro hc i t ht
    rcases hg i t ht with h1 | ⟨h1, h2⟩
    · exact h.old hc i t h1
    · subst h2; simp
  · intro hc i t ht
    rcases hg i t ht with h1 | ⟨h1, h2⟩
    · exact h.new hc i t h1
    · subst h2; simp
  · intro hc i t ht
    rcases hg i t ht with h1 | ⟨h1, h2⟩
    · exact h.kept hc i t h1
    · subst h2; simp
  · intro i t ht hp
    rcases hg i t ht with h1 | ⟨h1, h2⟩
    · exact h.lb i t h1 hp
    · subst h1; exact hw
  · intro i t ht hp
    rcases hg i t ht with h1 | ⟨h1, h2⟩
    · exact h.la i t h1 hp
    · subst h2; exact hp.elim
  · intro i t ht hp
    rcases hg i t ht with h1 | ⟨h1, h2⟩
    · exact h.lr i t h1 hp
    · subst h2; simp at hp
  · intro e he
    have := h.lo e he
    simp; omega

/-- a coroutine that is not waiting changes its phase without writing or waiting -/
theorem FlowInv.phase {c : FlowCfg} {s : FlowSt} (h : FlowInv c s) {i : Nat} {t : FlowTask}
    (ht : s.tasks[i]? = some t) (hn : ¬ FlowWaiting t.phase) {p : FlowPhase} (hp : ¬ FlowWaiting p)
    (h1 : p ≠ .woke1) (h2 : c.many = false → p ≠ .failed true .assertion) (h3 : c.many = true → ∀ b, p ≠ .failed b .assertion)
    (h4 : s.lost = false → ∀ b, p ≠ .failed b .reset)
    (h5 : p.before → writtenBy s i = []) (h6 : p.after → writtenBy s i = [(i, t.msg)])
    (h7 : p = .failed true .reset → writtenBy s i = [] ∨ writtenBy s i = [(i, t.msg)]) :
    FlowInv c (s.setPhase i p) := by
  have hg := flow_setPhase_get s i p
  have hg' : ∀ (j : Nat) (t' : FlowTask), (s.setPhase i p).tasks[j]? = some t' →
      (j ≠ i ∧ s.tasks[j]? = some t') ∨ (j = i ∧ t' = { t with phase := p }) := by
    intro j t' h'
    rw [hg j] at h'
    grind
  constructor
  · intro j hj
    obtain ⟨t', ht', hp'⟩ := h.wl j hj
    have : i ≠ j := by intro e; subst e; rw [ht] at ht'; cases ht'; exact hn hp'
    exact ⟨t', by rw [hg j, if_neg this]; exact ht', hp'⟩
  · intro j t' h' hp'
    rcases hg' j t' h' with ⟨_, h1⟩ | ⟨_, h1⟩
    · exact h.lw j t' h1 hp'
    · subst h1; exact (hp hp').elim
  · exact h.wp
  · exact h.one
  · exact h.held
  · exact h.pb
  · exact h.nb
  · intro hc j t' h'
    rcases hg' j t' h' with ⟨_, h1⟩ | ⟨_, h1⟩
    · exact h.old hc j t' h1
    · subst h1
      refine ⟨?_, by assumption, h2 hc⟩
      intro e
      exact hp (by show FlowWaiting p; rw [show p = .wait1 from e]; trivial)
  · intro hc j t' h'
    rcases hg' j t' h' with ⟨_, h1⟩ | ⟨_, h1⟩
    · exact h.new hc j t' h1
    · subst h1; exact h3 hc
  · intro hc j t' h'
    rcases hg' j t' h' with ⟨_, h1⟩ | ⟨_, h1⟩
    · exact h.kept hc j t' h1
    · subst h1; exact h4 hc
  · intro j t' h' hp'
    rcases hg' j t' h' with ⟨_, h1⟩ | ⟨e, h1⟩
    · exact h.lb j t' h1 hp'
    · subst e h1; exact h5 hp'
  · intro j t' h' hp'
    rcases hg' j t' h' with ⟨_, h1⟩ | ⟨e, h1⟩
    · exact h.la j t' h1 hp'
    · subst e h1; exact h6 hp'
  · intro j t' h' hp'
    rcases hg' j t' h' with ⟨_, h1⟩ | ⟨e, h1⟩
    · exact h.lr j t' h1 hp'
    · subst e h1; exact h7 hp'
  · intro e he
    have := h.lo e he
    simpa [FlowSt.setPhase] using this

/-- a coroutine that is not waiting starts to wait -/
theorem FlowInv.wait {c : FlowCfg} {s : FlowSt} (h : FlowInv c s) {i : Nat} {t : FlowTask}
    (ht : s.tasks[i]? = some t) {p : FlowPhase} (hp : FlowWaiting p)
    (hd : s.drain c = .waits) (hw : c.many = false → p ≠ .wait1)
    (h5 : p.before → writtenBy s i = []) (h6 : p.after → writtenBy s i = [(i, t.msg)]) :
    FlowInv c { s.setPhase i p with waiters := s.waiters ++ [i] } := by
  have hg := flow_setPhase_get s i p
  have hg' : ∀ (j : Nat) (t' : FlowTask), (s.setPhase i p).tasks[j]? = some t' →
      (j ≠ i ∧ s.tasks[j]? = some t') ∨ (j = i ∧ t' = { t with phase := p }) := by
    intro j t' h'
    rw [hg j] at h'
    grind
  have hl : s.lost = false := by unfold FlowSt.drain at hd; grind
  have hpa : s.paused = true := by unfold FlowSt.drain at hd; grind
  have hc1 : c.many = false → s.waiters = [] := by
    intro hc; unfold FlowSt.drain at hd; simp [hl, hpa, hc] at hd; exact hd
  constructor
  · intro j hj
    simp only [List.mem_append, List.mem_singleton] at hj
    by_cases e : i = j
    · exact ⟨{ t with phase := p }, by show (s.setPhase i p).tasks[j]? = _; rw [hg j, if_pos e, ← e, ht]; rfl, hp⟩
    · obtain ⟨t', ht', hp'⟩ := h.wl j (by grind)
      exact ⟨t', by show (s.setPhase i p).tasks[j]? = _; rw [hg j, if_neg e]; exact ht', hp'⟩
  · intro j t' h' hp'
    rcases hg' j t' h' with ⟨_, h1⟩ | ⟨e, h1⟩
    · simp [h.lw j t' h1 hp']
    · simp [e]
  · intro _; exact ⟨hpa, hl⟩
  · intro hc; simp [hc1 hc]
  · intro _ _ _; simp
  · exact h.pb
  · exact h.nb
  · intro hc j t' h'
    rcases hg' j t' h' with ⟨_, h1⟩ | ⟨_, h1⟩
    · exact h.old hc j t' h1
    · subst h1
      refine ⟨hw hc, ?_, ?_⟩ <;> intro e <;> (have e' : p = _ := e; rw [e'] at hp; exact hp)
  · intro hc j t' h'
    rcases hg' j t' h' with ⟨_, h1⟩ | ⟨_, h1⟩
    · exact h.new hc j t' h1
    · subst h1; intro b e; have e' : p = _ := e; rw [e'] at hp; exact hp
  · intro hc j t' h'
    rcases hg' j t' h' with ⟨_, h1⟩ | ⟨_, h1⟩
    · exact h.kept hc j t' h1
    · subst h1; intro b e; have e' : p = _ := e; rw [e'] at hp; exact hp
  · intro j t' h' hp'
    rcases hg' j t' h' with ⟨_, h1⟩ | ⟨e, h1⟩
    · exact h.lb j t' h1 hp'
    · subst e h1; exact h5 hp'
  · intro j t' h' hp'
    rcases hg' j t' h' with ⟨_, h1⟩ | ⟨e, h1⟩
    · exact h.la j t' h1 hp'
    · subst e h1; exact h6 hp'
  · intro j t' h' hp'
    rcases hg' j t' h' with ⟨_, h1⟩ | ⟨e, h1⟩
    · exact h.lr j t' h1 hp'
    · subst e h1; have e' : p = _ := hp'; rw [e'] at hp; exact hp.elim
  · intro e he
    have := h.lo e he
    simpa [FlowSt.setPhase] using this

/-- a coroutine writes its message on a live connection and is over or waits -/
theorem FlowInv.wrote {c : FlowCfg} {s : FlowSt} (hlh : c.low ≤ c.high) (h : FlowInv c s) {i : Nat} {t : FlowTask}
    (ht : s.tasks[i]? = some t) (hb : t.phase.before) (hn : ¬ FlowWaiting t.phase) (hl : s.lost = false)
    (hold : c.many = false → s.paused = false)
    (rest : Nat) (pa : Bool)
    (hpa : pa = (s.paused || (decide (rest ≠ 0) && decide (c.high < s.buf + rest))))
    (p : FlowPhase) (w : List Nat)
    (hpw : (pa = false ∧ p = .done ∧ w = s.waiters) ∨ (pa = true ∧ p = .wait2 ∧ w = s.waiters ++ [i])) :
    FlowInv c { s.setPhase i p with buf := s.buf + rest, paused := pa, log := s.log ++ [(i, t.msg)], waiters := w } := by
  have hg := flow_setPhase_get s i p
  have hg' : ∀ (j : Nat) (t' : FlowTask), (s.setPhase i p).tasks[j]? = some t' →
      (j ≠ i ∧ s.tasks[j]? = some t') ∨ (j = i ∧ t' = { t with phase := p }) := by
    intro j t' h'
    rw [hg j] at h'
    grind
  have hwr : ∀ j, j ≠ i → (s.log ++ [(i, t.msg)]).filter (fun e => e.1 == j) = writtenBy s j := by
    intro j hj
    rw [writtenBy_append, if_neg (fun e => hj e.symm), List.append_nil]
  have hwi : (s.log ++ [(i, t.msg)]).filter (fun e => e.1 == i) = [(i, t.msg)] := by
    rw [writtenBy_append, if_pos rfl, h.lb i t ht hb, List.nil_append]
  have hpd : p = .done ∨ p = .wait2 := by rcases hpw with ⟨_, a, _⟩ | ⟨_, a, _⟩ <;> simp [a]
  have hwe : c.many = false → s.waiters = [] := by
    intro hc
    by_cases e : s.waiters = []
    · exact e
    · have := (h.wp e).1; rw [hold hc] at this; cases this
  have hil : i < s.tasks.length := by grind
  constructor
  · intro j hj
    have hj : j ∈ w := hj
    by_cases e : i = j
    · refine ⟨{ t with phase := p }, by show (s.setPhase i p).tasks[j]? = _; rw [hg j, if_pos e, ← e, ht]; rfl, ?_⟩
      rcases hpw with ⟨_, _, b⟩ | ⟨_, a, _⟩
      · rw [b] at hj
        obtain ⟨t', ht', hp'⟩ := h.wl j hj
        rw [← e, ht] at ht'; cases ht'; exact (hn hp').elim
      · show FlowWaiting p
        rw [a]; trivial
    · have hjw : j ∈ s.waiters := by
        rcases hpw with ⟨_, _, b⟩ | ⟨_, _, b⟩
        · rwa [b] at hj
        · rw [b] at hj
          rcases List.mem_append.1 hj with x | x
          · exact x
          · exact (e (List.mem_singleton.1 x).symm).elim
      obtain ⟨t', ht', hp'⟩ := h.wl j hjw
      exact ⟨t', by show (s.setPhase i p).tasks[j]? = _; rw [hg j, if_neg e]; exact ht', hp'⟩
  · intro j t' h' hp'
    show j ∈ w
    rcases hg' j t' h' with ⟨_, h1⟩ | ⟨e, h1⟩
    · have := h.lw j t' h1 hp'
      rcases hpw with ⟨_, _, b⟩ | ⟨_, a, b⟩ <;> simp [b, this]
    · subst h1
      rcases hpw with ⟨_, a, b⟩ | ⟨_, a, b⟩
      · have : FlowWaiting p := hp'
        rw [a] at this; exact this.elim
      · simp [b, e]
  · intro hw
    refine ⟨?_, hl⟩
    show pa = true
    rcases hpw with ⟨a, _, b⟩ | ⟨a, _, _⟩
    · have hw : w ≠ [] := hw
      rw [b] at hw
      rw [hpa, (h.wp hw).1, Bool.true_or]
    · exact a
  · intro hc
    show w.length ≤ 1
    have := hwe hc
    rcases hpw with ⟨_, _, b⟩ | ⟨_, _, b⟩ <;> simp [b, this]
  · intro hc hp' _
    show w ≠ []
    have hp' : pa = true := hp'
    rcases hpw with ⟨a, _, b⟩ | ⟨_, _, b⟩
    · rw [a] at hp'; cases hp'
    · simp [b]
  · intro hp' _
    have hp' : pa = true := hp'
    show c.low < s.buf + rest
    by_cases e : s.paused = true
    · have := h.pb e hl; omega
    · rw [hpa] at hp'
      simp at hp'
      rcases hp' with e' | ⟨_, e'⟩
      · exact (e e').elim
      · omega
  · intro hp' _
    have hp' : pa = false := hp'
    show s.buf + rest ≤ c.high
    rw [hpa] at hp'
    simp at hp'
    have := h.nb hp'.1 hl
    by_cases e : rest = 0
    · omega
    · exact hp'.2 e
  · intro hc j t' h'
    rcases hg' j t' h' with ⟨_, h1⟩ | ⟨_, h1⟩
    · exact h.old hc j t' h1
    · subst h1; rcases hpd with e | e <;> simp [e]
  · intro hc j t' h'
    rcases hg' j t' h' with ⟨_, h1⟩ | ⟨_, h1⟩
    · exact h.new hc j t' h1
    · subst h1; rcases hpd with e | e <;> simp [e]
  · intro hc j t' h'
    rcases hg' j t' h' with ⟨_, h1⟩ | ⟨_, h1⟩
    · exact h.kept hc j t' h1
    · subst h1; rcases hpd with e | e <;> simp [e]
  · intro j t' h' hp'
    rcases hg' j t' h' with ⟨a, h1⟩ | ⟨e, h1⟩
    · exact (hwr j a).trans (h.lb j t' h1 hp')
    · subst e h1
      have hp' : p.before := hp'
      rcases hpd with e | e <;> (rw [e] at hp'; exact hp'.elim)
  · intro j t' h' hp'
    rcases hg' j t' h' with ⟨a, h1⟩ | ⟨e, h1⟩
    · exact (hwr j a).trans (h.la j t' h1 hp')
    · subst e h1; exact hwi
  · intro j t' h' hp'
    rcases hg' j t' h' with ⟨a, h1⟩ | ⟨e, h1⟩
    · rcases h.lr j t' h1 hp' with x | x
      · exact .inl ((hwr j a).trans x)
      · exact .inr ((hwr j a).trans x)
    · subst e h1; exact .inr hwi
  · intro e he
    simp only [List.mem_append, List.mem_singleton] at he
    show e.1 < (s.setPhase i p).tasks.length
    have hlen : (s.setPhase i p).tasks.length = s.tasks.length := by simp [FlowSt.setPhase]
    rw [hlen]
    rcases he with he | he
    · exact h.lo e he
    · rw [he]; exact hil

/-- the second half of the coroutine, spelled out -/
theorem flow_finish_cases {c : FlowCfg} {s : FlowSt} (h : FlowInv c s) (i : Nat) (m : Bytes) (k : Nat)
    (hold : c.many = false → s.paused = false) :
    (s.lost = true ∧ s.finish c i m k = s.setPhase i (.failed true .reset)) ∨
    (s.lost = false ∧ ∃ rest pa p w, rest = (if s.buf = 0 then m.length - k else m.length) ∧
      pa = (s.paused || (decide (rest ≠ 0) && decide (c.high < s.buf + rest))) ∧
      ((pa = false ∧ p = .done ∧ w = s.waiters) ∨ (pa = true ∧ p = .wait2 ∧ w = s.waiters ++ [i])) ∧
      s.finish c i m k = { s.setPhase i p with buf := s.buf + rest, paused := pa, log := s.log ++ [(i, m)], waiters := w }) := by
  cases hl : s.lost with
  | true =>
    left
    refine ⟨rfl, ?_⟩
    simp [FlowSt.finish, FlowSt.write, FlowSt.drain, hl]
  | false =>
    right
    refine ⟨rfl, if s.buf = 0 then m.length - k else m.length, ?_⟩
    cases hpa : (s.paused || (decide ((if s.buf = 0 then m.length - k else m.length) ≠ 0) &&
        decide (c.high < s.buf + (if s.buf = 0 then m.length - k else m.length)))) with
    | false =>
      refine ⟨false, .done, s.waiters, rfl, rfl, .inl ⟨rfl, rfl, rfl⟩, ?_⟩
      simp only [FlowSt.finish, FlowSt.write, hl, hpa, FlowSt.drain, FlowSt.setPhase]
      simp
    | true =>
      have hw : (c.many || s.waiters.isEmpty) = true := by
        cases hc : c.many with
        | true => rfl
        | false =>
          by_cases e : s.waiters = []
          · simp [e]
          · have := (h.wp e).1; rw [hold hc] at this; cases this
      refine ⟨true, .wait2, s.waiters ++ [i], rfl, rfl, .inr ⟨rfl, rfl, rfl⟩, ?_⟩
      have hw' : c.many = true ∨ s.waiters = [] := by simpa using hw
      simp only [FlowSt.finish, FlowSt.write, hl, hpa, FlowSt.drain, FlowSt.setPhase]
      simp [hw']

theorem FlowInv.finish {c : FlowCfg} {s : FlowSt} (hlh : c.low ≤ c.high) (h : FlowInv c s) {i : Nat} {t : FlowTask}
    (ht : s.tasks[i]? = some t) (hb : t.phase.before) (hn : ¬ FlowWaiting t.phase)
    (hold : c.many = false → s.paused = false) (k : Nat) : FlowInv c (s.finish c i t.msg k) := by
  rcases flow_finish_cases h i t.msg k hold with ⟨hl, e⟩ | ⟨hl, rest, pa, p, w, hr, hpa, hpw, e⟩
  · rw [e]
    refine h.phase ht hn (by simp [FlowWaiting]) (by simp) (by simp) (by simp) (by simp [hl]) ?_ ?_ ?_
    · intro x; exact x.elim
    · intro x; exact x.elim
    · intro _; exact .inl (h.lb i t ht hb)
  · rw [e]
    exact h.wrote hlh ht hb hn hl hold rest pa hpa p w hpw

theorem FlowInv.run1 {c : FlowCfg} {s : FlowSt} (hlh : c.low ≤ c.high) (h : FlowInv c s) (i k : Nat) :
    FlowInv c (s.run1 c i k) := by
  unfold FlowSt.run1
  cases ht : s.tasks[i]? with
  | none => exact h
  | some t =>
    dsimp only
    cases hp : t.phase with
    | start =>
      dsimp only
      have hb : t.phase.before := by rw [hp]; trivial
      have hn : ¬ FlowWaiting t.phase := by rw [hp]; exact id
      cases hd : s.drain c with
      | returned =>
        dsimp only
        exact h.finish hlh ht hb hn (fun _ => by unfold FlowSt.drain at hd; grind) k
      | waits =>
        dsimp only
        have hpa : s.paused = true := by unfold FlowSt.drain at hd; grind
        have hl : s.lost = false := by unfold FlowSt.drain at hd; grind
        refine h.wait ht (p := .wait1) trivial hd ?_ (fun _ => h.lb i t ht hb) (fun x => x.elim)
        intro hc
        have := h.held hc hpa hl
        unfold FlowSt.drain at hd
        simp [hl, hpa, hc] at hd
        exact (this hd).elim
      | raised e =>
        dsimp only
        refine h.phase ht hn (p := .failed false e) (by simp [FlowWaiting]) (by simp) (by simp) ?_ ?_
          (fun _ => h.lb i t ht hb) (fun x => x.elim) (by simp)
        · intro hc b x
          unfold FlowSt.drain at hd
          simp [hc] at hd
          grind
        · intro hl b x
          unfold FlowSt.drain at hd
          simp [hl] at hd
          grind
    | woke1 =>
      dsimp only
      exact h.finish hlh ht (by rw [hp]; trivial) (by rw [hp]; exact id) (fun hc => ((h.old hc i t ht).2.1 hp).elim) k
    | woke2 =>
      dsimp only
      exact h.phase ht (by rw [hp]; exact id) (p := .done) id (by simp) (by simp) (by simp) (by simp)
        (fun x => x.elim) (fun _ => h.la i t ht (by rw [hp]; trivial)) (by simp)
    | _ => exact h

theorem FlowInv.wakeAll {c : FlowCfg} {s : FlowSt} (h : FlowInv c s) (f : FlowPhase → FlowPhase) (buf' : Nat) (pa lo : Bool)
    (hf : f = FlowPhase.wake ∨ (f = FlowPhase.break ∧ lo = true)) (hlo : lo = false → s.lost = false)
    (hpa : lo = false → pa = false) (hb : lo = false → buf' ≤ c.high) :
    FlowInv c { s.wakeAll f with buf := buf', paused := pa, lost := lo } := by
  have hg := flow_wakeAll_get s f
  have hg' : ∀ (j : Nat) (t' : FlowTask), (s.wakeAll f).tasks[j]? = some t' →
      ∃ t : FlowTask, s.tasks[j]? = some t ∧ t'.msg = t.msg ∧ t'.phase = f t.phase := by
    intro j t' h'
    rw [hg j] at h'
    cases hj : s.tasks[j]? with
    | none => rw [hj] at h'; cases h'
    | some t =>
      rw [hj] at h'
      refine ⟨t, rfl, ?_⟩
      simp only [Option.map_some, Option.some.injEq] at h'
      by_cases hc : j ∈ s.waiters
      · simp [hc] at h'
        subst h'; exact ⟨rfl, rfl⟩
      · simp [hc] at h'
        subst h'
        refine ⟨rfl, ?_⟩
        have : ¬ FlowWaiting t.phase := fun x => hc (h.lw j t hj x)
        rcases hf with e | ⟨e, _⟩ <;> subst e <;> cases hp : t.phase <;> simp [hp, FlowPhase.wake, FlowPhase.break, FlowWaiting] at this ⊢
  have hlog : (s.wakeAll f).log = s.log := rfl
  constructor
  · intro j hj; simp [FlowSt.wakeAll] at hj
  · intro j t' h' hp'
    obtain ⟨t, ht, _, e⟩ := hg' j t' h'
    rw [e] at hp'
    rcases hf with e | ⟨e, _⟩ <;> subst e <;> cases hp : t.phase <;> rw [hp] at hp' <;> exact hp'.elim
  · intro hw; simp [FlowSt.wakeAll] at hw
  · intro _; simp [FlowSt.wakeAll]
  · intro _ hp' hl'
    have := hpa hl'
    have hp' : pa = true := hp'
    rw [this] at hp'; cases hp'
  · intro hp' hl'
    have := hpa hl'
    have hp' : pa = true := hp'
    rw [this] at hp'; cases hp'
  · intro _ hl'; exact hb hl'
  · intro hc j t' h'
    obtain ⟨t, ht, _, e⟩ := hg' j t' h'
    have := h.old hc j t ht
    rw [e]
    rcases hf with e | ⟨e, _⟩ <;> subst e <;> cases hp : t.phase <;> simp [hp, FlowPhase.wake, FlowPhase.break] at this ⊢ <;> grind
  · intro hc j t' h'
    obtain ⟨t, ht, _, e⟩ := hg' j t' h'
    have := h.new hc j t ht
    rw [e]
    rcases hf with e | ⟨e, _⟩ <;> subst e <;> cases hp : t.phase <;> simp [hp, FlowPhase.wake, FlowPhase.break] at this ⊢ <;> grind
  · intro hl' j t' h'
    obtain ⟨t, ht, _, e⟩ := hg' j t' h'
    have hl' : lo = false := hl'
    have := h.kept (hlo hl') j t ht
    rw [e]
    rcases hf with e | ⟨e, e2⟩
    · subst e; cases hp : t.phase <;> simp [hp, FlowPhase.wake] at this ⊢ <;> grind
    · rw [hl'] at e2; cases e2
  · intro j t' h' hp'
    obtain ⟨t, ht, _, e⟩ := hg' j t' h'
    have := h.lb j t ht
    rw [e] at hp'
    refine this ?_
    rcases hf with e | ⟨e, _⟩ <;> subst e <;> cases hp : t.phase <;> simp [hp, FlowPhase.wake, FlowPhase.break, FlowPhase.before] at hp' ⊢ <;> grind
  · intro j t' h' hp'
    obtain ⟨t, ht, em, e⟩ := hg' j t' h'
    have := h.la j t ht
    rw [e] at hp'
    rw [em]
    refine this ?_
    rcases hf with e | ⟨e, _⟩ <;> subst e <;> cases hp : t.phase <;> simp [hp, FlowPhase.wake, FlowPhase.break, FlowPhase.after] at hp' ⊢ <;> grind
  · intro j t' h' hp'
    obtain ⟨t, ht, em, e⟩ := hg' j t' h'
    rw [e] at hp'
    rw [em]
    by_cases h2 : t.phase = .failed true .reset
    · exact h.lr j t ht h2
    · refine .inr (h.la j t ht ?_)
      rcases hf with e | ⟨e, _⟩ <;> subst e <;> cases hp : t.phase <;> simp [hp, FlowPhase.wake, FlowPhase.break, FlowPhase.after] at hp' h2 ⊢ <;> grind
  · intro e he
    have := h.lo e he
    simpa [FlowSt.wakeAll] using this

theorem FlowInv.step {c : FlowCfg} {s : FlowSt} (hlh : c.low ≤ c.high) (h : FlowInv c s) (ev : FlowEv) :
    FlowInv c (flowStep c s ev) := by
  cases ev with
  | spawn m => exact h.spawn m
  | step i k => exact h.run1 hlh i k
  | take k =>
    unfold flowStep
    dsimp only
    split
    · exact h
    · rename_i hl
      simp only [Bool.not_eq_true] at hl
      split
      · rename_i hc
        simp only [Bool.and_eq_true, decide_eq_true_eq] at hc
        exact h.wakeAll FlowPhase.wake (s.buf - k) false s.lost (.inl rfl) id (fun _ => rfl) (fun _ => by omega)
      · rename_i hc
        simp only [Bool.and_eq_true, decide_eq_true_eq] at hc
        constructor
        · exact h.wl
        · exact h.lw
        · exact h.wp
        · exact h.one
        · exact h.held
        · intro hp' hl'
          show c.low < s.buf - k
          have hp' : s.paused = true := hp'
          grind
        · intro hp' hl'
          show s.buf - k ≤ c.high
          have := h.nb hp' hl'
          omega
        · exact h.old
        · exact h.new
        · exact h.kept
        · exact h.lb
        · exact h.la
        · exact h.lr
        · exact h.lo
  | lose b =>
    unfold flowStep
    dsimp only
    split
    · exact h
    · rename_i hl
      simp only [Bool.not_eq_true] at hl
      split
      · rename_i hp'
        have := h.wakeAll (if b then FlowPhase.break else FlowPhase.wake) 0 s.paused true (by cases b <;> simp) (by simp) (by simp) (by simp)
        exact this
      · rename_i hp'
        have hw : s.waiters = [] := by
          by_cases e : s.waiters = []
          · exact e
          · exact (hp' (h.wp e).1).elim
        constructor
        · exact h.wl
        · exact h.lw
        · intro e; exact (e hw).elim
        · exact h.one
        · intro _ _ x; cases x
        · intro _ x; cases x
        · intro _ x; cases x
        · exact h.old
        · exact h.new
        · intro x; cases x
        · exact h.lb
        · exact h.la
        · exact h.lr
        · exact h.lo

theorem FlowInv.foldl {c : FlowCfg} (hlh : c.low ≤ c.high) (evs : List FlowEv) :
    ∀ {s : FlowSt}, FlowInv c s → FlowInv c (evs.foldl (flowStep c) s) := by
  induction evs with
  | nil => intro s h; exact h
  | cons e evs ih => intro s h; exact ih (h.step hlh e)

theorem flowRun_inv {c : FlowCfg} (hlh : c.low ≤ c.high) (evs : List FlowEv) : FlowInv c (flowRun c evs) :=
  FlowInv.foldl hlh evs (FlowInv.init c)


/-! ## C139: back pressure loses no message -/

theorem flow_kept_lost {c : FlowCfg} {evs : List FlowEv} (hk : FlowKept evs) : (flowRun c evs).lost = false := by
  induction evs using snoc_induct with
  | nil => rfl
  | snoc evs e ih =>
    have ih := ih (fun b hb => hk b (by simp [hb]))
    unfold flowRun at ih ⊢
    rw [List.foldl_append]
    cases e with
    | spawn m => exact ih
    | step i k =>
      show (FlowSt.run1 c _ i k).lost = false
      unfold FlowSt.run1
      split
      · exact ih
      · split
        · split
          · unfold FlowSt.finish; dsimp only; split <;> simp [FlowSt.setPhase, FlowSt.write, ih]
          · exact ih
          · exact ih
        · unfold FlowSt.finish; dsimp only; split <;> simp [FlowSt.setPhase, FlowSt.write, ih]
        · exact ih
        · exact ih
    | take k =>
      show (flowStep c _ (.take k)).lost = false
      unfold flowStep
      dsimp only
      split
      · exact ih
      · split <;> exact ih
    | lose b => exact (hk b (by simp)).elim

/-- as long as the connection is kept, every coroutine that is over has written its message once, and
nothing else -/
def C139_full : Prop :=
  ∀ c : FlowCfg, c.low ≤ c.high → ∀ evs, FlowKept evs →
    ∀ (i : Nat) (t : FlowTask), (flowRun c evs).tasks[i]? = some t → FlowEnded t.phase →
      t.phase = .done ∧ writtenBy (flowRun c evs) i = [(i, t.msg)]

/-- a message above the limit, of which the socket takes nothing yet, and a second message -/
def flowBurst : List FlowEv :=
  [.spawn (List.replicate 70000 7), .step 0 0, .spawn [1, 2, 3], .step 1 0]

/-- Python 3.5-3.7: the second of two coroutines fails and its message is never written -/
theorem C139_violated : ¬ C139_full := by
  intro h
  have h1 := h ⟨2, 1, false⟩ (by decide) [.spawn [1, 2, 3], .step 0 0, .spawn [4], .step 1 0]
    (by intro b; simp) 1 ⟨[4], .failed false .assertion⟩ (by decide) trivial
  exact absurd h1.1 (by decide)

/-- the same with asyncio's default limits and the single waiter of Python 3.5-3.7, and the exact point from
which it fails: the second coroutine is lost iff the socket left more than 65536 bytes of the first message -/
theorem C139_default_violated :
    (¬ ∀ evs, FlowKept evs → ∀ (i : Nat) (t : FlowTask), (flowRun flowOld evs).tasks[i]? = some t →
      FlowEnded t.phase → t.phase = .done ∧ writtenBy (flowRun flowOld evs) i = [(i, t.msg)]) ∧
    ∀ (m n : Bytes) (k j : Nat),
      ((flowRun flowOld [.spawn m, .step 0 k, .spawn n, .step 1 j]).tasks[1]? = some ⟨n, .failed false .assertion⟩ ↔
        65536 < m.length - k) ∧
      (flowRun flowNew [.spawn m, .step 0 k, .spawn n, .step 1 j]).tasks[1]? ≠ some ⟨n, .failed false .assertion⟩ ∧
      ((flowRun flowNew [.spawn m, .step 0 k, .spawn n, .step 1 j]).tasks[1]? = some ⟨n, .wait1⟩ ↔
        65536 < m.length - k) := by
  constructor
  · intro h
    have h1 := h flowBurst (by intro b; simp [flowBurst, -List.reduceReplicate]) 1 ⟨[1, 2, 3], .failed false .assertion⟩
      (by decide +kernel) trivial
    exact absurd h1.1 (by decide)
  · intro m n k j
    simp only [flowRun, flowStep, FlowSt.init, List.foldl, FlowSt.run1, FlowSt.finish, FlowSt.write, FlowSt.drain,
      FlowSt.setPhase, flowOld, flowNew]
    by_cases h : 65536 < m.length - k
    · have h0 : m.length - k ≠ 0 := by omega
      simp [h, h0]
    · by_cases h0 : m.length - k = 0 <;> simp [h, h0] <;> split <;> simp_all <;> grind

/-- C140 with asyncio's default limits: a coroutine whose message left more than 65536 bytes waits until at most 16384 are
left, and then goes on -/
theorem C140_default (m : Bytes) (j k : Nat) (h : 65536 < m.length - j) :
    ∀ c, c = flowOld ∨ c = flowNew →
      (flowRun c [.spawn m, .step 0 j]).tasks = [⟨m, .wait2⟩] ∧
      ((flowRun c [.spawn m, .step 0 j, .take k, .step 0 0]).tasks = [⟨m, .done⟩] ↔ m.length - j - k ≤ 16384) ∧
      ((flowRun c [.spawn m, .step 0 j, .take k, .step 0 0]).tasks = [⟨m, .wait2⟩] ↔ 16384 < m.length - j - k) := by
  intro c hc
  have h0 : m.length - j ≠ 0 := by omega
  rcases hc with rfl | rfl <;>
    simp only [flowRun, flowStep, FlowSt.init, List.foldl, FlowSt.run1, FlowSt.finish, FlowSt.write, FlowSt.drain,
      FlowSt.setPhase, flowOld, flowNew] <;>
    by_cases h2 : m.length - j - k ≤ 16384 <;>
    simp [h, h0, h2, FlowSt.wakeAll, FlowPhase.wake] <;> omega

/-- what is written, in every version and however the connection fares: a coroutine writes its own
message or nothing; a coroutine that ran to its end wrote it once; one whose first `drain` raised wrote
nothing; the AssertionError is never raised after the message was written -/
theorem C139_written_partial (c : FlowCfg) (hc : c.low ≤ c.high) (evs : List FlowEv) (i : Nat) (t : FlowTask)
    (ht : (flowRun c evs).tasks[i]? = some t) :
    (writtenBy (flowRun c evs) i = [] ∨ writtenBy (flowRun c evs) i = [(i, t.msg)]) ∧
    (t.phase = .done → writtenBy (flowRun c evs) i = [(i, t.msg)]) ∧
    (∀ e, t.phase = .failed false e → writtenBy (flowRun c evs) i = []) ∧
    t.phase ≠ .failed true .assertion := by
  have h := flowRun_inv hc evs
  refine ⟨?_, ?_, ?_, ?_⟩
  · cases hp : t.phase with
    | start => exact .inl (h.lb i t ht (by rw [hp]; trivial))
    | wait1 => exact .inl (h.lb i t ht (by rw [hp]; trivial))
    | woke1 => exact .inl (h.lb i t ht (by rw [hp]; trivial))
    | wait2 => exact .inr (h.la i t ht (by rw [hp]; trivial))
    | woke2 => exact .inr (h.la i t ht (by rw [hp]; trivial))
    | done => exact .inr (h.la i t ht (by rw [hp]; trivial))
    | failed b e =>
      cases b with
      | false => exact .inl (h.lb i t ht (by rw [hp]; trivial))
      | true =>
        cases e with
        | assertion => exact .inr (h.la i t ht (by rw [hp]; trivial))
        | reset => exact h.lr i t ht hp
  · intro hp; exact h.la i t ht (by rw [hp]; trivial)
  · intro e hp; exact h.lb i t ht (by rw [hp]; trivial)
  · cases hm : c.many with
    | true => exact h.new hm i t ht true
    | false => exact (h.old hm i t ht).2.2

/-- where the protocol keeps all waiters, the claim holds -/
theorem C139_delivered_partial (c : FlowCfg) (hc : c.low ≤ c.high) (hm : c.many = true) (evs : List FlowEv)
    (hk : FlowKept evs) (i : Nat) (t : FlowTask) (ht : (flowRun c evs).tasks[i]? = some t) (he : FlowEnded t.phase) :
    t.phase = .done ∧ writtenBy (flowRun c evs) i = [(i, t.msg)] := by
  have h := flowRun_inv hc evs
  have hd : t.phase = .done := by
    cases hp : t.phase with
    | done => rfl
    | failed b e =>
      cases e with
      | assertion => exact (h.new hm i t ht b hp).elim
      | reset => exact (h.kept (flow_kept_lost hk) i t ht b hp).elim
    | _ => rw [hp] at he; exact he.elim
  exact ⟨hd, (C139_written_partial c hc evs i t ht).2.1 hd⟩

theorem flowRun_snoc (c : FlowCfg) (evs : List FlowEv) (e : FlowEv) :
    flowRun c (evs ++ [e]) = flowStep c (flowRun c evs) e := by
  simp [flowRun, List.foldl_append]

/-- in Python 3.5-3.7, exactly: while the connection is kept, a coroutine that starts to write fails if
another one is suspended in its `drain`, and writes at once otherwise -/
theorem C139_assertion_partial (c : FlowCfg) (hc : c.low ≤ c.high) (hm : c.many = false) (evs : List FlowEv)
    (hk : FlowKept evs) (i k : Nat) (m : Bytes) (ht : (flowRun c evs).tasks[i]? = some ⟨m, .start⟩) :
    ((∃ (j : Nat) (t : FlowTask), (flowRun c evs).tasks[j]? = some t ∧ FlowWaiting t.phase) →
      (flowRun c (evs ++ [.step i k])).tasks[i]? = some ⟨m, .failed false .assertion⟩) ∧
    ((¬ ∃ (j : Nat) (t : FlowTask), (flowRun c evs).tasks[j]? = some t ∧ FlowWaiting t.phase) →
      writtenBy (flowRun c (evs ++ [.step i k])) i = [(i, m)]) := by
  have h := flowRun_inv hc evs
  have hl := flow_kept_lost (c := c) hk
  rw [flowRun_snoc]
  generalize flowRun c evs = s at *
  constructor
  · rintro ⟨j, t, hj, hw⟩
    have hjw := h.lw j t hj hw
    have hne : s.waiters ≠ [] := by intro e; rw [e] at hjw; cases hjw
    have hd : s.drain c = .raised .assertion := by
      simp [FlowSt.drain, hl, (h.wp hne).1, hm, hne]
    show (s.run1 c i k).tasks[i]? = _
    simp only [FlowSt.run1, ht, hd]
    rw [flow_setPhase_get, if_pos rfl, ht]
    rfl
  · intro hno
    have hw : s.waiters = [] := by
      cases hw : s.waiters with
      | nil => rfl
      | cons j _ =>
        obtain ⟨t, h1, h2⟩ := h.wl j (by simp [hw])
        exact (hno ⟨j, t, h1, h2⟩).elim
    have hp : s.paused = false := by
      cases hp : s.paused with
      | false => rfl
      | true => exact (h.held hm hp hl hw).elim
    have hd : s.drain c = .returned := by simp [FlowSt.drain, hl, hp]
    show writtenBy (s.run1 c i k) i = _
    simp only [FlowSt.run1, ht, hd]
    rcases flow_finish_cases h i m k (fun _ => hp) with ⟨e, _⟩ | ⟨_, rest, pa, p, w, _, _, _, e⟩
    · rw [hl] at e; cases e
    · rw [e]
      show (s.log ++ [(i, m)]).filter (fun e => e.1 == i) = _
      rw [writtenBy_append, if_pos rfl, h.lb i _ ht trivial, List.nil_append]

/-- how far a coroutine is from its end -/
def FlowPhase.rank : FlowPhase → Nat
  | .start => 5
  | .wait1 => 4
  | .woke1 => 3
  | .wait2 => 2
  | .woke2 => 1
  | _ => 0

theorem flow_rank_zero (p : FlowPhase) : p.rank = 0 ↔ FlowEnded p := by
  cases p <;> simp [FlowPhase.rank, FlowEnded]

/-- coroutine `j` is kept, with its message, and stays as it is or comes closer to its end -/
def FlowSt.carries (s s' : FlowSt) : Prop :=
  ∀ (j : Nat) (t : FlowTask), s.tasks[j]? = some t →
    ∃ t' : FlowTask, s'.tasks[j]? = some t' ∧ t'.msg = t.msg ∧ (t' = t ∨ t'.phase.rank < t.phase.rank)

theorem FlowSt.carries.refl (s : FlowSt) : s.carries s := fun _ t h => ⟨t, h, rfl, .inl rfl⟩

theorem flow_setPhase_carries {s : FlowSt} {i : Nat} {t : FlowTask} (ht : s.tasks[i]? = some t) {p : FlowPhase}
    (hp : p.rank < t.phase.rank) {s' : FlowSt} (e : s'.tasks = (s.setPhase i p).tasks) : s.carries s' := by
  intro j t' h'
  rw [e, flow_setPhase_get]
  by_cases x : i = j
  · subst x
    rw [ht] at h'; cases h'
    rw [if_pos rfl, ht]
    exact ⟨_, rfl, rfl, .inr hp⟩
  · rw [if_neg x]
    exact ⟨t', h', rfl, .inl rfl⟩

theorem flow_finish_tasks (c : FlowCfg) (s : FlowSt) (i : Nat) (m : Bytes) (k : Nat) :
    ∃ p : FlowPhase, p.rank ≤ 2 ∧ (s.finish c i m k).tasks = (s.setPhase i p).tasks := by
  have e : (s.write c i m k).tasks = s.tasks := by unfold FlowSt.write; split <;> rfl
  unfold FlowSt.finish
  dsimp only
  split
  · exact ⟨.done, by decide, by simp [FlowSt.setPhase, e]⟩
  · exact ⟨.wait2, by decide, by simp [FlowSt.setPhase, e]⟩
  · rename_i x _; exact ⟨.failed true x, by cases x <;> decide, by simp [FlowSt.setPhase, e]⟩

theorem flow_wakeAll_carries {s : FlowSt} {f : FlowPhase → FlowPhase} (hf : ∀ p, f p = p ∨ (f p).rank < p.rank)
    {s' : FlowSt} (e : s'.tasks = (s.wakeAll f).tasks) : s.carries s' := by
  intro j t h
  rw [e, flow_wakeAll_get, h]
  refine ⟨_, rfl, ?_⟩
  by_cases hc : j ∈ s.waiters
  · have hc' : s.waiters.contains j = true := by simpa using hc
    dsimp only
    rw [if_pos hc']
    refine ⟨rfl, ?_⟩
    rcases hf t.phase with x | x
    · exact .inl (by rw [x])
    · exact .inr x
  · simp [hc]

theorem flow_wake_rank (p : FlowPhase) : p.wake = p ∨ p.wake.rank < p.rank := by
  cases p <;> simp [FlowPhase.wake, FlowPhase.rank]

theorem flow_break_rank (p : FlowPhase) : p.break = p ∨ p.break.rank < p.rank := by
  cases p <;> simp [FlowPhase.break, FlowPhase.rank]

theorem flowStep_carries (c : FlowCfg) (s : FlowSt) (ev : FlowEv) : s.carries (flowStep c s ev) := by
  cases ev with
  | spawn m =>
    intro j t h
    exact ⟨t, by show (s.tasks ++ _)[j]? = _; grind, rfl, .inl rfl⟩
  | step i k =>
    show s.carries (s.run1 c i k)
    unfold FlowSt.run1
    cases ht : s.tasks[i]? with
    | none => exact .refl s
    | some t =>
      dsimp only
      cases hp : t.phase with
      | start =>
        dsimp only
        cases hd : s.drain c with
        | returned =>
          obtain ⟨p, h1, h2⟩ := flow_finish_tasks c s i t.msg k
          exact flow_setPhase_carries ht (by rw [hp]; show _ < 5; omega) h2
        | waits => exact flow_setPhase_carries ht (p := .wait1) (by rw [hp]; decide) rfl
        | raised e => exact flow_setPhase_carries ht (p := .failed false e) (by rw [hp]; show 0 < 5; omega) rfl
      | woke1 =>
        obtain ⟨p, h1, h2⟩ := flow_finish_tasks c s i t.msg k
        exact flow_setPhase_carries ht (by rw [hp]; show _ < 3; omega) h2
      | woke2 => exact flow_setPhase_carries ht (p := .done) (by rw [hp]; decide) rfl
      | _ => exact .refl s
  | take k =>
    unfold flowStep
    dsimp only
    split
    · exact .refl s
    · split
      · exact flow_wakeAll_carries flow_wake_rank rfl
      · exact fun j t h => ⟨t, h, rfl, .inl rfl⟩
  | lose b =>
    unfold flowStep
    dsimp only
    split
    · exact .refl s
    · split
      · cases b
        · exact flow_wakeAll_carries flow_wake_rank rfl
        · exact flow_wakeAll_carries flow_break_rank rfl
      · exact fun j t h => ⟨t, h, rfl, .inl rfl⟩

theorem flowStep_length (c : FlowCfg) (s : FlowSt) (ev : FlowEv) (h : ∀ m, ev ≠ .spawn m) :
    (flowStep c s ev).tasks.length = s.tasks.length := by
  cases ev with
  | spawn m => exact (h m rfl).elim
  | step i k =>
    show (s.run1 c i k).tasks.length = _
    unfold FlowSt.run1
    split
    · rfl
    · split
      · split
        · obtain ⟨p, _, h2⟩ := flow_finish_tasks c s i (by assumption : FlowTask).msg k
          rw [h2]; simp [FlowSt.setPhase]
        · simp [FlowSt.setPhase]
        · simp [FlowSt.setPhase]
      · obtain ⟨p, _, h2⟩ := flow_finish_tasks c s i (by assumption : FlowTask).msg k
        rw [h2]; simp [FlowSt.setPhase]
      · simp [FlowSt.setPhase]
      · rfl
  | take k =>
    unfold flowStep
    dsimp only
    split
    · rfl
    · split <;> simp [FlowSt.wakeAll]
  | lose b =>
    unfold flowStep
    dsimp only
    split
    · rfl
    · split <;> simp [FlowSt.wakeAll]

/-- a coroutine gets the AssertionError only when it starts to write while another one waits -/
theorem flowStep_assertion {c : FlowCfg} {s : FlowSt} {ev : FlowEv} {j : Nat} {t0 t : FlowTask}
    (h0 : s.tasks[j]? = some t0) (h1 : (flowStep c s ev).tasks[j]? = some t) (hf : t.phase = .failed false .assertion) :
    t0.phase = .failed false .assertion ∨ (t0.phase = .start ∧ s.waiters ≠ []) := by
  have hset : ∀ (i : Nat) (p : FlowPhase), (s.setPhase i p).tasks[j]? = some t →
      t0.phase = .failed false .assertion ∨ (i = j ∧ p = .failed false .assertion) := by
    intro i p h
    rw [flow_setPhase_get] at h
    by_cases e : i = j
    · rw [if_pos e, h0] at h
      cases h
      exact .inr ⟨e, hf⟩
    · rw [if_neg e, h0] at h
      cases h
      exact .inl hf
  have hwk : ∀ f : FlowPhase → FlowPhase, (∀ p, f p = .failed false .assertion → p = .failed false .assertion) →
      (s.wakeAll f).tasks[j]? = some t → t0.phase = .failed false .assertion := by
    intro f hff h
    rw [flow_wakeAll_get, h0] at h
    simp only [Option.map_some, Option.some.injEq] at h
    subst h
    split at hf
    · exact hff _ hf
    · exact hf
  have hwake : ∀ p : FlowPhase, p.wake = .failed false .assertion → p = .failed false .assertion := by
    intro p; cases p <;> simp [FlowPhase.wake]
  have hbrk : ∀ p : FlowPhase, p.break = .failed false .assertion → p = .failed false .assertion := by
    intro p; cases p <;> simp [FlowPhase.break]
  have same : s.tasks[j]? = some t → t0.phase = .failed false .assertion := by
    intro h; rw [h0] at h; cases h; exact hf
  cases ev with
  | spawn m =>
    have h1 : (s.tasks ++ [⟨m, .start⟩])[j]? = some t := h1
    have hjl : j < s.tasks.length := by grind
    rw [List.getElem?_append_left hjl] at h1
    exact .inl (same h1)
  | step i k =>
    have h1 : (s.run1 c i k).tasks[j]? = some t := h1
    unfold FlowSt.run1 at h1
    have hfin : ∀ m, (s.finish c i m k).tasks[j]? = some t → t0.phase = .failed false .assertion := by
      intro m h
      have e : (s.write c i m k).tasks = s.tasks := by unfold FlowSt.write; split <;> rfl
      have hs' : ∀ p, ((s.write c i m k).setPhase i p).tasks = (s.setPhase i p).tasks := by
        intro p; simp [FlowSt.setPhase, e]
      unfold FlowSt.finish at h
      dsimp only at h
      split at h
      · rw [hs'] at h
        rcases hset i _ h with x | ⟨_, x⟩
        · exact x
        · cases x
      · have h : ((s.write c i m k).setPhase i .wait2).tasks[j]? = some t := h
        rw [hs'] at h
        rcases hset i _ h with x | ⟨_, x⟩
        · exact x
        · cases x
      · rw [hs'] at h
        rcases hset i _ h with x | ⟨_, x⟩
        · exact x
        · cases x
    split at h1
    · exact .inl (same h1)
    · rename_i ti hti
      split at h1
      · rename_i hph
        split at h1
        · exact .inl (hfin _ h1)
        · rcases hset i .wait1 h1 with x | ⟨_, x⟩
          · exact .inl x
          · cases x
        · rename_i e hd
          rcases hset i _ h1 with x | ⟨e1, x⟩
          · exact .inl x
          · subst e1
            rw [h0] at hti; cases hti
            refine .inr ⟨hph, ?_⟩
            intro hw
            cases x
            unfold FlowSt.drain at hd
            simp [hw] at hd
            grind
      · exact .inl (hfin _ h1)
      · rcases hset i _ h1 with x | ⟨_, x⟩
        · exact .inl x
        · cases x
      · exact .inl (same h1)
  | take k =>
    unfold flowStep at h1
    dsimp only at h1
    split at h1
    · exact .inl (same h1)
    · split at h1
      · exact .inl (hwk _ hwake h1)
      · exact .inl (same h1)
  | lose b =>
    unfold flowStep at h1
    dsimp only at h1
    split at h1
    · exact .inl (same h1)
    · split at h1
      · cases b
        · exact .inl (hwk _ hwake h1)
        · exact .inl (hwk _ hbrk h1)
      · exact .inl (same h1)

/-- writing one after the other is safe in every version: no message is lost while the connection is kept -/
theorem C139_alone_partial (c : FlowCfg) (hc : c.low ≤ c.high) (evs : List FlowEv) (hk : FlowKept evs)
    (h1 : FlowOneAtATime c evs) (i : Nat) (t : FlowTask) (ht : (flowRun c evs).tasks[i]? = some t)
    (he : FlowEnded t.phase) : t.phase = .done ∧ writtenBy (flowRun c evs) i = [(i, t.msg)] := by
  have key : (∀ (j : Nat) (t : FlowTask), (flowRun c evs).tasks[j]? = some t → ¬ FlowEnded t.phase → j + 1 = (flowRun c evs).tasks.length) ∧
      ∀ (j : Nat) (t : FlowTask), (flowRun c evs).tasks[j]? = some t → ∀ b, t.phase ≠ .failed b .assertion := by
    clear ht he
    induction evs using snoc_induct with
    | nil => simp [flowRun, FlowSt.init]
    | snoc evs e ih =>
      have hk' : FlowKept evs := fun b hb => hk b (by simp [hb])
      obtain ⟨ih1, ih2⟩ := ih hk' (fun pre m post x => h1 pre m (post ++ [e]) (by rw [x]; simp))
      have hinv := flowRun_inv hc evs
      have hinv' := flowRun_inv hc (evs ++ [e])
      rw [flowRun_snoc] at hinv' ⊢
      by_cases hs : ∃ m, e = .spawn m
      · obtain ⟨m, rfl⟩ := hs
        have hall := h1 evs m [] rfl
        have htk : (flowStep c (flowRun c evs) (.spawn m)).tasks = (flowRun c evs).tasks ++ [⟨m, .start⟩] := rfl
        rw [htk]
        constructor
        · intro j t hj hne
          have : ∀ t', (flowRun c evs).tasks[j]? = some t' → FlowEnded t'.phase := fun t' ht' => hall t' (List.mem_of_getElem? ht')
          simp only [List.length_append, List.length_singleton]
          grind
        · intro j t hj b
          have := ih2 j
          have : ∀ t', (flowRun c evs).tasks[j]? = some t' → ∀ b, t'.phase ≠ .failed b .assertion := fun t' ht' => ih2 j t' ht'
          by_cases hjl : j < (flowRun c evs).tasks.length
          · rw [List.getElem?_append_left hjl] at hj
            exact this t hj b
          · grind
      · have hlen := flowStep_length c (flowRun c evs) e (fun m x => hs ⟨m, x⟩)
        have hcar := flowStep_carries c (flowRun c evs) e
        have hback : ∀ (j : Nat) (t : FlowTask), (flowStep c (flowRun c evs) e).tasks[j]? = some t →
            ∃ t0 : FlowTask, (flowRun c evs).tasks[j]? = some t0 ∧ (t = t0 ∨ t.phase.rank < t0.phase.rank) := by
          intro j t hj
          have hjl : j < (flowRun c evs).tasks.length := by rw [← hlen]; grind
          obtain ⟨t', a, _, b⟩ := hcar j _ (List.getElem?_eq_getElem hjl)
          rw [hj] at a; cases a
          exact ⟨_, List.getElem?_eq_getElem hjl, b⟩
        constructor
        · intro j t hj hne
          rw [hlen]
          obtain ⟨t0, a, b⟩ := hback j t hj
          refine ih1 j t0 a ?_
          intro he
          rcases b with rfl | b
          · exact hne he
          · rw [(flow_rank_zero t0.phase).2 he] at b; omega
        · intro j t hj b hf
          obtain ⟨t0, a, hb⟩ := hback j t hj
          rcases hb with rfl | hb
          · exact ih2 j t a b hf
          · cases hm : c.many with
            | true => exact hinv'.new hm j t hj b hf
            | false =>
              have hlive : ¬ FlowEnded t0.phase := by
                intro x; rw [(flow_rank_zero t0.phase).2 x] at hb; omega
              have hj1 := ih1 j t0 a hlive
              cases b with
              | true => exact (hinv'.old hm j t hj).2.2 hf
              | false =>
                rcases flowStep_assertion a hj hf with x | ⟨x, y⟩
                · rw [x] at hlive; exact hlive trivial
                · cases hw : (flowRun c evs).waiters with
                  | nil => exact y hw
                  | cons i _ =>
                    obtain ⟨t1, p1, p2⟩ := hinv.wl i (by simp [hw])
                    have hi1 := ih1 i t1 p1 (by cases hq : t1.phase <;> simp [hq, FlowWaiting, FlowEnded] at p2 ⊢)
                    have : i = j := by omega
                    subst this
                    rw [a] at p1; cases p1
                    rw [x] at p2; exact p2
  have hinv := flowRun_inv hc evs
  have hd : t.phase = .done := by
    cases hp : t.phase with
    | done => rfl
    | failed b e =>
      cases e with
      | assertion => exact (key.2 i t ht b hp).elim
      | reset => exact (hinv.kept (flow_kept_lost hk) i t ht b hp).elim
    | _ => rw [hp] at he; exact he.elim
  exact ⟨hd, (C139_written_partial c hc evs i t ht).2.1 hd⟩


/-- the hypotheses are met: the second message starts when the first is over, the third meets back pressure alone -/
example : FlowOneAtATime ⟨2, 1, false⟩ [.spawn [1], .step 0 0, .spawn [4, 5], .step 1 0, .take 3, .step 1 0] ∧
    (flowRun ⟨2, 1, false⟩ [.spawn [1], .step 0 0, .spawn [4, 5], .step 1 0, .take 3, .step 1 0]).tasks =
      [⟨[1], .done⟩, ⟨[4, 5], .done⟩] := by
  refine ⟨?_, by decide⟩
  intro pre m post h
  rcases pre with _ | ⟨a, _ | ⟨b, _ | ⟨c, _ | ⟨d, _ | ⟨e, _ | ⟨f, _ | ⟨g, pre⟩⟩⟩⟩⟩⟩⟩ <;> simp at h
  · decide
  · obtain ⟨rfl, rfl, _⟩ := h
    decide

/-- with asyncio's limits and one waiter: the heartbeat sent while a large response waits is lost for good -/
example : (flowRun flowOld (flowBurst ++ [.take 70000, .step 0 0, .step 1 0])).tasks.map (·.phase) =
      [.done, .failed false .assertion] ∧
    ((flowRun flowOld (flowBurst ++ [.take 70000, .step 0 0, .step 1 0])).log.map (·.1)) = [0] := by
  decide +kernel

/-- with many waiters it is written when the response has gone out -/
example : (flowRun flowNew (flowBurst ++ [.take 70000, .step 0 0, .step 1 0])).tasks.map (·.phase) = [.done, .done] ∧
    ((flowRun flowNew (flowBurst ++ [.take 70000, .step 0 0, .step 1 0])).log.map (·.1)) = [0, 1] := by
  decide +kernel

/-! ## C140: nobody waits for ever -/

/-- a coroutine is suspended in `drain` only while the connection is up and more than `low` bytes are
buffered -/
theorem C140_waits (c : FlowCfg) (hc : c.low ≤ c.high) (evs : List FlowEv) (i : Nat) (t : FlowTask)
    (ht : (flowRun c evs).tasks[i]? = some t) (hw : FlowWaiting t.phase) :
    (flowRun c evs).lost = false ∧ c.low < (flowRun c evs).buf := by
  have h := flowRun_inv hc evs
  have hi := h.lw i t ht hw
  have hp := h.wp (by intro e; rw [e] at hi; cases hi)
  exact ⟨hp.2, h.pb hp.1 hp.2⟩

/-- once the socket has taken all but `low` of the buffered bytes, or the connection is lost, no
coroutine is suspended -/
theorem C140_woken (c : FlowCfg) (hc : c.low ≤ c.high) (evs : List FlowEv) (i : Nat) (t : FlowTask) (ev : FlowEv)
    (hev : (∃ k, ev = .take k ∧ (flowRun c evs).buf ≤ c.low + k) ∨ ∃ b, ev = .lose b)
    (ht : (flowRun c (evs ++ [ev])).tasks[i]? = some t) : ¬ FlowWaiting t.phase := by
  intro hw
  have h := C140_waits c hc _ i t ht hw
  rw [flowRun_snoc] at h
  rcases hev with ⟨k, rfl, hk⟩ | ⟨b, rfl⟩
  · obtain ⟨h1, h2⟩ := h
    have : (flowStep c (flowRun c evs) (.take k)).buf ≤ (flowRun c evs).buf - k ∨ (flowRun c evs).lost = true := by
      unfold flowStep
      dsimp only
      split
      · right; assumption
      · left; split <;> exact Nat.le_refl _
    rcases this with x | x
    · omega
    · have e : flowStep c (flowRun c evs) (.take k) = flowRun c evs := by
        unfold flowStep; dsimp only; rw [if_pos x]
      rw [e, x] at h1; cases h1
  · have : (flowStep c (flowRun c evs) (.lose b)).lost = true := by
      unfold flowStep
      dsimp only
      split
      · assumption
      · split <;> rfl
    rw [this] at h; cases h.1

/-- one more event brings a coroutine that is not over closer to its end -/
theorem flow_progress {c : FlowCfg} {s : FlowSt} (h : FlowInv c s) {i : Nat} {t : FlowTask} (ht : s.tasks[i]? = some t)
    (hn : ¬ FlowEnded t.phase) : ∃ ev, FlowProgress ev ∧
      ∀ t' : FlowTask, (flowStep c s ev).tasks[i]? = some t' → t'.phase.rank < t.phase.rank := by
  have hset : ∀ (p : FlowPhase) (t' : FlowTask), (s.setPhase i p).tasks[i]? = some t' → t'.phase = p := by
    intro p t' h'
    rw [flow_setPhase_get, if_pos rfl, ht] at h'
    cases h'; rfl
  have hfin : ∀ t' : FlowTask, (s.finish c i t.msg 0).tasks[i]? = some t' → t'.phase.rank ≤ 2 := by
    intro t' h'
    obtain ⟨p, h1, h2⟩ := flow_finish_tasks c s i t.msg 0
    rw [h2] at h'
    rw [hset p t' h']; exact h1
  by_cases hw : FlowWaiting t.phase
  · refine ⟨.take s.buf, trivial, ?_⟩
    have hi := h.lw i t ht hw
    have hp := h.wp (by intro e; rw [e] at hi; cases hi)
    intro t' h'
    unfold flowStep at h'
    dsimp only at h'
    rw [hp.1, hp.2] at h'
    simp only [Bool.false_eq_true, if_false, Nat.sub_self, Nat.zero_le, decide_true, Bool.and_self, if_true] at h'
    have h' : (s.wakeAll FlowPhase.wake).tasks[i]? = some t' := h'
    rw [flow_wakeAll_get, ht] at h'
    simp [hi] at h'
    subst h'
    cases hph : t.phase <;> simp [hph, FlowWaiting, FlowPhase.wake, FlowPhase.rank] at hw ⊢
  · refine ⟨.step i 0, trivial, ?_⟩
    intro t' h'
    have h' : (s.run1 c i 0).tasks[i]? = some t' := h'
    unfold FlowSt.run1 at h'
    simp only [ht] at h'
    cases hph : t.phase with
    | start =>
      simp only [hph] at h'
      split at h'
      · have := hfin t' h'; show _ < 5; omega
      · rw [hset .wait1 t' h']; decide
      · rw [hset _ t' h']; show 0 < 5; omega
    | woke1 =>
      simp only [hph] at h'
      have := hfin t' h'; show _ < 3; omega
    | woke2 =>
      simp only [hph] at h'
      rw [hset _ t' h']; decide
    | wait1 => rw [hph] at hw; exact (hw trivial).elim
    | wait2 => rw [hph] at hw; exact (hw trivial).elim
    | done => rw [hph] at hn; exact (hn trivial).elim
    | failed b e => rw [hph] at hn; exact (hn trivial).elim

/-- the sum of the ranks -/
def FlowSt.work (s : FlowSt) : Nat := (s.tasks.map (·.phase.rank)).sum

theorem flow_sum_le : ∀ (l l' : List FlowTask), l'.length = l.length →
    (∀ (j : Nat) (t t' : FlowTask), l[j]? = some t → l'[j]? = some t' → t'.phase.rank ≤ t.phase.rank) →
    (l'.map (·.phase.rank)).sum ≤ (l.map (·.phase.rank)).sum ∧
    ∀ (i : Nat) (t t' : FlowTask), l[i]? = some t → l'[i]? = some t' → t'.phase.rank < t.phase.rank →
      (l'.map (·.phase.rank)).sum < (l.map (·.phase.rank)).sum
  | [], [], _, _ => by simp
  | [], _ :: _, h, _ => by simp at h
  | _ :: _, [], h, _ => by simp at h
  | a :: l, b :: l', h, hj => by
    have ih := flow_sum_le l l' (by simpa using h) (fun j t t' x y => hj (j + 1) t t' (by simpa using x) (by simpa using y))
    have h0 := hj 0 a b rfl rfl
    simp only [List.map_cons, List.sum_cons]
    refine ⟨by omega, ?_⟩
    intro i t t' x y z
    cases i with
    | zero =>
      simp only [List.getElem?_cons_zero, Option.some.injEq] at x y
      subst x y
      omega
    | succ i =>
      have := ih.2 i t t' (by simpa using x) (by simpa using y) z
      omega

/-- from every reachable state, the event loop and the network alone bring all coroutines to their end;
with many waiters and the connection kept, each has then written its message -/
theorem C140_finishes (c : FlowCfg) (hc : c.low ≤ c.high) (evs : List FlowEv) :
    ∃ evs', (∀ ev ∈ evs', FlowProgress ev) ∧
      (flowRun c (evs ++ evs')).tasks.map (·.msg) = (flowRun c evs).tasks.map (·.msg) ∧
      (∀ t ∈ (flowRun c (evs ++ evs')).tasks, FlowEnded t.phase) ∧
      (c.many = true → FlowKept evs → ∀ t ∈ (flowRun c (evs ++ evs')).tasks, t.phase = .done) := by
  have key : ∀ (n : Nat) (evs : List FlowEv), (flowRun c evs).work ≤ n →
      ∃ evs', (∀ ev ∈ evs', FlowProgress ev) ∧
        (flowRun c (evs ++ evs')).tasks.map (·.msg) = (flowRun c evs).tasks.map (·.msg) ∧
        (∀ t ∈ (flowRun c (evs ++ evs')).tasks, FlowEnded t.phase) := by
    intro n
    induction n with
    | zero =>
      intro evs hn
      refine ⟨[], by simp, by simp, ?_⟩
      rw [List.append_nil]
      intro t ht
      rw [← flow_rank_zero]
      have h0 : ((flowRun c evs).tasks.map (·.phase.rank)).sum = 0 := Nat.le_zero.1 hn
      exact List.sum_eq_zero_iff_forall_eq_nat.1 h0 _ (List.mem_map_of_mem ht)
    | succ n ih =>
      intro evs hn
      by_cases hall : ∀ t ∈ (flowRun c evs).tasks, FlowEnded t.phase
      · exact ⟨[], by simp, by simp, by rw [List.append_nil]; exact hall⟩
      · have : ∃ t ∈ (flowRun c evs).tasks, ¬ FlowEnded t.phase := by
          apply Classical.byContradiction
          intro hx
          exact hall fun t ht => Classical.byContradiction fun hy => hx ⟨t, ht, hy⟩
        obtain ⟨t, ht, hne⟩ := this
        obtain ⟨i, hi⟩ := List.mem_iff_getElem?.1 ht
        obtain ⟨ev, hev, hdec⟩ := flow_progress (flowRun_inv hc evs) hi hne
        have hlen := flowStep_length c (flowRun c evs) ev (by intro m e; rw [e] at hev; exact hev)
        have hcar := flowStep_carries c (flowRun c evs) ev
        have hsum := flow_sum_le (flowRun c evs).tasks (flowStep c (flowRun c evs) ev).tasks hlen (by
          intro j t t' a b
          obtain ⟨t1, a1, _, b1⟩ := hcar j t a
          rw [b] at a1; cases a1
          rcases b1 with rfl | b1
          · exact Nat.le_refl _
          · omega)
        obtain ⟨t1, a1, _, _⟩ := hcar i t hi
        have hlt := hsum.2 i t t1 hi a1 (hdec t1 a1)
        obtain ⟨evs', p1, p2, p3⟩ := ih (evs ++ [ev]) (by
          rw [flowRun_snoc]
          have : ((flowRun c evs).tasks.map (·.phase.rank)).sum ≤ n + 1 := hn
          show ((flowStep c (flowRun c evs) ev).tasks.map (·.phase.rank)).sum ≤ n
          omega)
        have hmsg : (flowRun c (evs ++ [ev])).tasks.map (·.msg) = (flowRun c evs).tasks.map (·.msg) := by
          rw [flowRun_snoc]
          apply List.ext_getElem?
          intro j
          simp only [List.getElem?_map]
          cases hj : (flowRun c evs).tasks[j]? with
          | none =>
            have : (flowStep c (flowRun c evs) ev).tasks[j]? = none := by
              rw [List.getElem?_eq_none_iff] at hj ⊢; omega
            rw [this]
          | some t2 =>
            obtain ⟨t3, a3, b3, _⟩ := hcar j t2 hj
            rw [a3]; simp [b3]
        refine ⟨ev :: evs', ?_, ?_, ?_⟩
        · intro e he
          rcases List.mem_cons.1 he with rfl | he
          · exact hev
          · exact p1 e he
        · have : evs ++ ev :: evs' = evs ++ [ev] ++ evs' := by simp
          rw [this, p2, hmsg]
        · have : evs ++ ev :: evs' = evs ++ [ev] ++ evs' := by simp
          rw [this]; exact p3
  obtain ⟨evs', p1, p2, p3⟩ := key _ evs (Nat.le_refl _)
  refine ⟨evs', p1, p2, p3, ?_⟩
  intro hm hk t ht
  obtain ⟨i, hi⟩ := List.mem_iff_getElem?.1 ht
  refine (C139_delivered_partial c hc hm (evs ++ evs') ?_ i t hi (p3 t ht)).1
  intro b hb
  rcases List.mem_append.1 hb with hb | hb
  · exact hk b hb
  · exact p1 _ hb

/-- three coroutines, one in each `drain` and one that has not run, and how they come to their end -/
example : (flowRun ⟨2, 1, true⟩ [.spawn [1, 2, 3], .step 0 0, .spawn [4], .step 1 0, .spawn [5]]).tasks.map (·.phase) =
      [.wait2, .wait1, .start] ∧
    (flowRun ⟨2, 1, true⟩ ([.spawn [1, 2, 3], .step 0 0, .spawn [4], .step 1 0, .spawn [5]] ++
      [.take 3, .step 0 0, .step 1 0, .step 2 0])).tasks.map (·.phase) = [.done, .done, .done] := by
  decide


/-! ## C141: how much is buffered -/

/-- the bytes buffered exceed the limit by no more than one message -/
def C141_full : Prop :=
  ∀ c : FlowCfg, c.low ≤ c.high → ∀ (L : Nat) (evs : List FlowEv), FlowShort L evs → (flowRun c evs).buf ≤ c.high + L

/-- coroutines that waited in the first `drain` write without looking again: three messages of three bytes
are buffered above a limit of two -/
theorem C141_violated : ¬ C141_full := by
  intro h
  have h1 := h ⟨2, 1, true⟩ (by decide) 3
    [.spawn [1, 2, 3], .spawn [4, 5, 6], .spawn [7, 8, 9], .spawn [1, 1, 1], .step 0 0, .step 1 0, .step 2 0, .step 3 0,
     .take 3, .step 1 0, .step 2 0, .step 3 0]
    (by
      intro m hm
      simp only [List.mem_cons, FlowEv.spawn.injEq, List.not_mem_nil, reduceCtorEq, or_false] at hm
      rcases hm with rfl | rfl | rfl | rfl <;> decide)
  revert h1
  decide

theorem countP_modify_add {α : Type} (q : α → Bool) (f : α → α) : ∀ (l : List α) (i : Nat) (t : α), l[i]? = some t →
    (l.modify i f).countP q + (if q t then 1 else 0) = l.countP q + (if q (f t) then 1 else 0)
  | [], i, t, h => by simp at h
  | a :: l, 0, t, h => by
    simp only [List.getElem?_cons_zero, Option.some.injEq] at h
    subst h
    simp only [List.modify_zero_cons, List.countP_cons]
    omega
  | a :: l, i + 1, t, h => by
    have := countP_modify_add q f l i t (by simpa using h)
    simp only [List.modify_succ_cons, List.countP_cons]
    omega

/-- the coroutines that will write without looking -/
def FlowSt.blind (s : FlowSt) : Nat := s.tasks.countP fun t => t.phase == .woke1

theorem flow_blind_le (s : FlowSt) : s.blind ≤ flowLive s := by
  unfold FlowSt.blind flowLive
  apply List.countP_mono_left
  intro t _ h
  have h : t.phase = .woke1 := by simpa using h
  rw [h]; rfl

/-- a coroutine that is not over and not among those leaves room for one -/
theorem flow_blind_lt {s : FlowSt} {i : Nat} {t : FlowTask} (ht : s.tasks[i]? = some t) (hp : t.phase = .start) :
    s.blind + 1 ≤ flowLive s := by
  have h1 := countP_modify_add (fun t : FlowTask => t.phase == .woke1) (fun t => { t with phase := .woke1 }) s.tasks i t ht
  have h2 := countP_modify_add (fun t : FlowTask => !decide (FlowEnded t.phase)) (fun t => { t with phase := .woke1 }) s.tasks i t ht
  have h3 := flow_blind_le (s.setPhase i .woke1)
  unfold FlowSt.blind flowLive FlowSt.setPhase at *
  have e1 : (t.phase == FlowPhase.woke1) = false := by rw [hp]; rfl
  have e2 : (!decide (FlowEnded t.phase)) = true := by rw [hp]; rfl
  have e3 : (!decide (FlowEnded FlowPhase.woke1)) = true := rfl
  simp only [e1, e2, e3, beq_self_eq_true, Bool.false_eq_true, if_true, if_false] at h1 h2
  dsimp only at h3
  omega

theorem flow_blind_set {s : FlowSt} {i : Nat} {t : FlowTask} (ht : s.tasks[i]? = some t) {p : FlowPhase} (hp : p ≠ .woke1)
    {s' : FlowSt} (e : s'.tasks = (s.setPhase i p).tasks) :
    s'.blind + (if t.phase == .woke1 then 1 else 0) = s.blind := by
  have h1 := countP_modify_add (fun t : FlowTask => t.phase == .woke1) (fun t => { t with phase := p }) s.tasks i t ht
  unfold FlowSt.blind
  rw [e]
  simp only [FlowSt.setPhase]
  simpa [hp] using h1

theorem flow_finish_blind {c : FlowCfg} {s : FlowSt} {i : Nat} {t : FlowTask} (ht : s.tasks[i]? = some t) (k : Nat) :
    (s.finish c i t.msg k).blind + (if t.phase == .woke1 then 1 else 0) = s.blind ∧
    (s.finish c i t.msg k).buf ≤ s.buf + t.msg.length := by
  obtain ⟨p, h1, h2⟩ := flow_finish_tasks c s i t.msg k
  refine ⟨flow_blind_set ht (p := p) (by intro e; rw [e] at h1; exact absurd h1 (by decide)) h2, ?_⟩
  have hb : (s.write c i t.msg k).buf ≤ s.buf + t.msg.length := by
    unfold FlowSt.write
    split
    · omega
    · dsimp only
      split <;> omega
  unfold FlowSt.finish
  dsimp only
  split <;> exact hb

theorem flow_msgs {c : FlowCfg} {L : Nat} {evs : List FlowEv} (hs : FlowShort L evs) :
    ∀ (i : Nat) (t : FlowTask), (flowRun c evs).tasks[i]? = some t → t.msg.length ≤ L := by
  induction evs using snoc_induct with
  | nil => intro i t h; simp [flowRun, FlowSt.init] at h
  | snoc evs e ih =>
    have ih := ih (fun m hm => hs m (by simp [hm]))
    rw [flowRun_snoc]
    intro i t h
    by_cases hsp : ∃ m, e = .spawn m
    · obtain ⟨m, rfl⟩ := hsp
      have h : ((flowRun c evs).tasks ++ [⟨m, .start⟩])[i]? = some t := h
      have hm := hs m (by simp)
      by_cases hi : i < (flowRun c evs).tasks.length
      · rw [List.getElem?_append_left hi] at h
        exact ih i t h
      · have : t = ⟨m, .start⟩ := by grind
        rw [this]; exact hm
    · have hlen := flowStep_length c (flowRun c evs) e (fun m x => hsp ⟨m, x⟩)
      have hi : i < (flowRun c evs).tasks.length := by
        rw [← hlen]
        exact (List.getElem?_eq_some_iff.1 h).1
      obtain ⟨t', a, b, _⟩ := flowStep_carries c (flowRun c evs) e i _ (List.getElem?_eq_getElem hi)
      rw [h] at a; cases a
      rw [b]
      exact ih i _ (List.getElem?_eq_getElem hi)

/-- the limit is exceeded by at most one message for each coroutine that is not over at the same time -/
theorem C141_bound_partial (c : FlowCfg) (hc : c.low ≤ c.high) (L U : Nat) (evs : List FlowEv) (hs : FlowShort L evs)
    (hu : ∀ pre post, evs = pre ++ post → flowLive (flowRun c pre) ≤ U) : (flowRun c evs).buf ≤ c.high + L * U := by
  suffices h : (flowRun c evs).buf + L * (flowRun c evs).blind ≤ c.high + L * U by omega
  induction evs using snoc_induct with
  | nil => simp [flowRun, FlowSt.init, FlowSt.blind]
  | snoc evs e ih =>
    have ih := ih (fun m hm => hs m (by simp [hm])) (fun pre post x => hu pre (post ++ [e]) (by rw [x]; simp))
    have hmsg := flow_msgs (c := c) (L := L) (evs := evs) (fun m hm => hs m (by simp [hm]))
    have hinv := flowRun_inv hc evs
    have hlive := hu evs [e] rfl
    have hlive' := hu (evs ++ [e]) [] (by simp)
    rw [flowRun_snoc] at hlive' ⊢
    generalize flowRun c evs = s at *
    have hset : ∀ (i : Nat) (t : FlowTask) (p : FlowPhase) (s' : FlowSt), s.tasks[i]? = some t → p ≠ .woke1 →
        s'.tasks = (s.setPhase i p).tasks → s'.buf = s.buf → s'.buf + L * s'.blind ≤ c.high + L * U := by
      intro i t p s' ht hp e1 e2
      have := flow_blind_set ht hp e1
      rw [e2]
      have : L * s'.blind ≤ L * s.blind := Nat.mul_le_mul_left L (by omega)
      omega
    have hreset : ∀ s' : FlowSt, s'.buf ≤ c.high → s'.blind ≤ U → s'.buf + L * s'.blind ≤ c.high + L * U := by
      intro s' h1 h2
      have := Nat.mul_le_mul_left L h2
      omega
    cases e with
    | spawn m =>
      have e1 : (flowStep c s (.spawn m)).blind = s.blind := by
        simp [flowStep, FlowSt.blind]
      rw [e1]; exact ih
    | step i k =>
      show (s.run1 c i k).buf + L * (s.run1 c i k).blind ≤ _
      unfold FlowSt.run1
      cases ht : s.tasks[i]? with
      | none => exact ih
      | some t =>
        have hm := hmsg i t ht
        have hfin := flow_finish_blind (c := c) ht k
        dsimp only
        cases hp : t.phase with
        | start =>
          dsimp only
          cases hd : s.drain c with
          | returned =>
            dsimp only
            have hl : s.lost = false := by unfold FlowSt.drain at hd; grind
            have hpa : s.paused = false := by unfold FlowSt.drain at hd; grind
            have h1 := hinv.nb hpa hl
            have h2 := flow_blind_lt ht hp
            have h3 : L * (s.blind + 1) ≤ L * U := Nat.mul_le_mul_left L (by omega)
            rw [Nat.mul_succ] at h3
            have h4 : (s.finish c i t.msg k).blind = s.blind := by
              have := hfin.1; rw [hp] at this; simpa using this
            rw [h4]
            omega
          | waits => exact hset i t .wait1 _ ht (by simp) rfl rfl
          | raised e => exact hset i t (.failed false e) _ ht (by simp) rfl rfl
        | woke1 =>
          dsimp only
          have h4 : (s.finish c i t.msg k).blind + 1 = s.blind := by
            have := hfin.1; rw [hp] at this; simpa using this
          have h5 : L * s.blind = L * (s.finish c i t.msg k).blind + L := by rw [← h4, Nat.mul_succ]
          omega
        | woke2 => exact hset i t .done _ ht (by simp) rfl rfl
        | _ => exact ih
    | take k =>
      have hb := flow_blind_le (flowStep c s (.take k))
      revert hb hlive'
      unfold flowStep
      dsimp only
      split
      · intros; exact ih
      · split
        · rename_i hcond
          simp only [Bool.and_eq_true, decide_eq_true_eq] at hcond
          intro h1 h2
          exact hreset _ (by show s.buf - k ≤ c.high; omega) (by omega)
        · intro h1 h2
          have : ({ s with buf := s.buf - k } : FlowSt).blind = s.blind := rfl
          rw [this]
          show s.buf - k + L * s.blind ≤ _
          omega
    | lose b =>
      have hb := flow_blind_le (flowStep c s (.lose b))
      revert hb hlive'
      unfold flowStep
      dsimp only
      split
      · intros; exact ih
      · split
        · intro h1 h2
          exact hreset _ (Nat.zero_le _) (by omega)
        · intro h1 h2
          exact hreset _ (Nat.zero_le _) (by omega)

/-- with a single waiter, as in Python 3.5-3.7, the claim holds: no coroutine that waited writes -/
theorem C141_single_partial (c : FlowCfg) (hc : c.low ≤ c.high) (hm : c.many = false) (L : Nat) (evs : List FlowEv)
    (hs : FlowShort L evs) : (flowRun c evs).buf ≤ c.high + L := by
  induction evs using snoc_induct with
  | nil => simp [flowRun, FlowSt.init]
  | snoc evs e ih =>
    have ih := ih (fun m hm => hs m (by simp [hm]))
    have hmsg := flow_msgs (c := c) (L := L) (evs := evs) (fun m hm => hs m (by simp [hm]))
    have hinv := flowRun_inv hc evs
    rw [flowRun_snoc]
    generalize flowRun c evs = s at *
    cases e with
    | spawn m => exact ih
    | step i k =>
      show (s.run1 c i k).buf ≤ _
      unfold FlowSt.run1
      cases ht : s.tasks[i]? with
      | none => exact ih
      | some t =>
        have hml := hmsg i t ht
        have hfin := flow_finish_blind (c := c) ht k
        dsimp only
        cases hp : t.phase with
        | start =>
          dsimp only
          cases hd : s.drain c with
          | returned =>
            dsimp only
            have hl : s.lost = false := by unfold FlowSt.drain at hd; grind
            have hpa : s.paused = false := by unfold FlowSt.drain at hd; grind
            have h1 := hinv.nb hpa hl
            omega
          | waits => exact ih
          | raised e => exact ih
        | woke1 => exact ((hinv.old hm i t ht).2.1 hp).elim
        | woke2 => exact ih
        | _ => exact ih
    | take k =>
      unfold flowStep
      dsimp only
      split
      · exact ih
      · split
        · show s.buf - k ≤ _; omega
        · show s.buf - k ≤ _; omega
    | lose b =>
      unfold flowStep
      dsimp only
      split
      · exact ih
      · split <;> exact Nat.zero_le _

/-- nine bytes above a limit of two, with four coroutines: within 2 + 3 * 4, not within 2 + 3 -/
example : (flowRun ⟨2, 1, true⟩
    [.spawn [1, 2, 3], .spawn [4, 5, 6], .spawn [7, 8, 9], .spawn [1, 1, 1], .step 0 0, .step 1 0, .step 2 0, .step 3 0,
     .take 3, .step 1 0, .step 2 0, .step 3 0]).buf = 9 := by decide

end Bolt
