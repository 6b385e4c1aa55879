import Verif.Model.ListenerFlow
import Verif.Props.ListenerReplies
import Verif.Lemmas.AioClient
/-!
# C152: a connection of the asyncio listener under back pressure
-/
namespace Bolt
open Spec

namespace Spec

/-- what happened to the connection from outside: what came in, and the runs of the calls and tasks that write nothing -/
def outsideOf (evs : List LFEv) : List LEv :=
  evs.filterMap fun | .ev e => if e.outside then some e else none | _ => none

/-- the connection is not reset -/
def LFKept (evs : List LFEv) : Prop := LFEv.reset ∉ evs

/-- nobody comes to write while the connection is paused and another one waits for it -/
def OneByOne (c : FlowCfg) (svc : Services) (reg : Registry) (evs : List LFEv) : Prop :=
  ∀ (n : Nat) (w : LWho) (k : Nat), evs[n]? = some (.turn w k) →
    (lfRun c svc reg (evs.take n)).paused = true → ∀ v ∈ (lfRun c svc reg (evs.take n)).waiters, v = w

end Spec

/-! ## what `drain` leaves alone -/

theorem LFSt.drain_frame (c : FlowCfg) (s : LFSt) (w : LWho) :
    (s.drain c w).1.l = s.l ∧ (s.drain c w).1.paused = s.paused ∧ (s.drain c w).1.buf = s.buf ∧
      (s.drain c w).1.hold = s.hold ∧ (s.drain c w).1.dead = s.dead := by
  unfold LFSt.drain
  repeat' split
  all_goals exact ⟨rfl, rfl, rfl, rfl, rfl⟩

theorem LFSt.buffer_frame (c : FlowCfg) (s : LFSt) (n k : Nat) :
    (s.buffer c n k).l = s.l ∧ (s.buffer c n k).waiters = s.waiters ∧ (s.buffer c n k).woken = s.woken ∧
      (s.buffer c n k).hold = s.hold ∧ (s.buffer c n k).dead = s.dead ∧ (s.paused = true → (s.buffer c n k).paused = true) := by
  unfold LFSt.buffer
  split
  · exact ⟨rfl, rfl, rfl, rfl, rfl, id⟩
  · exact ⟨rfl, rfl, rfl, rfl, rfl, fun h => by simp [h]⟩

/-- what has not gone wrong: nobody's `drain` has raised, and nobody waits on a connection that is not paused -/
structure LFOk (s : LFSt) : Prop where
  lost : s.l.lost = false
  dead : s.dead = false
  woken : ∀ x ∈ s.woken, x.2 = true
  wait : s.paused = false → s.waiters = []
  hold : s.hold = true → s.l.tail = .reading

theorem LFSt.drain_ok {c : FlowCfg} {s : LFSt} {w : LWho} (h : LFOk s)
    (hc : c.many = true ∨ (s.paused = true → ∀ v ∈ s.waiters, v = w)) :
    LFOk (s.drain c w).1 ∧ (s.drain c w).2 ≠ some false ∧
      ((s.drain c w).2 = some true → (s.drain c w).1.waiters = s.waiters) := by
  obtain ⟨f1, f2, f3, f4, f5⟩ := s.drain_frame c w
  refine ⟨⟨by rw [f1]; exact h.lost, by rw [f5]; exact h.dead, ?_, ?_, by rw [f4, f1]; exact h.hold⟩, ?_, ?_⟩
  · unfold LFSt.drain
    repeat' split
    all_goals first
      | exact h.woken
      | (intro x hx; exact h.woken x (List.mem_filter.1 hx).1)
  · rw [f2]
    intro hp
    unfold LFSt.drain
    repeat' split
    all_goals first
      | exact h.wait hp
      | (simp_all)
  · unfold LFSt.drain
    split
    · next x hx =>
      have := h.woken x (List.mem_of_find?_eq_some hx)
      simp [this]
    · split
      · simp
      · next hw =>
        rw [h.lost]
        simp only [Bool.false_eq_true, if_false]
        split
        · next hp =>
          split
          · simp
          · next hn =>
            exfalso
            simp only [Bool.or_eq_true, List.isEmpty_iff, not_or] at hn
            rcases hc with hc | hc
            · exact hn.1 hc
            · cases hws : s.waiters with
              | nil => exact hn.2 hws
              | cons v vs => exact hw (by rw [← hc hp v (by simp [hws])]; simp [hws])
        · simp
  · unfold LFSt.drain
    repeat' split
    all_goals simp

/-! ## what the events from outside leave alone -/

theorem LSt.dispatch_frame (svc : Services) (s : LSt) (i : Nat) (t : Task) (r : Req) (fresh : PyStr) :
    (s.dispatch svc i t r fresh).lost = s.lost ∧ (s.dispatch svc i t r fresh).tail = s.tail ∧
      (s.dispatch svc i t r fresh).closed = s.closed := by
  unfold LSt.dispatch
  repeat' (first | split | exact ⟨rfl, rfl, rfl⟩ | dsimp only)

theorem lstep_outside (svc : Services) (s : LSt) (e : LEv) (h : e.outside = true) :
    (lstep svc s e).lost = s.lost ∧ (lstep svc s e).tail = s.tail ∧ (lstep svc s e).closed = s.closed := by
  cases e with
  | run i fresh =>
    unfold lstep
    dsimp only
    repeat' split
    · exact s.dispatch_frame svc i _ _ fresh
    · exact ⟨rfl, rfl, rfl⟩
    · exact ⟨rfl, rfl, rfl⟩
  | reader => cases h
  | write i => cases h
  | reset => cases h
  | expire i =>
    unfold lstep LSt.cancelFut LSt.setTask LSt.setFut
    dsimp only
    repeat' split
    all_goals exact ⟨rfl, rfl, rfl⟩
  | _ =>
    unfold lstep
    dsimp only
    repeat' (first | split | exact ⟨rfl, rfl, rfl⟩ | dsimp only)

theorem lstep_write_frame (svc : Services) (s : LSt) (i : Nat) :
    (lstep svc s (.write i)).lost = s.lost ∧ (lstep svc s (.write i)).tail = s.tail ∧
      (lstep svc s (.write i)).closed = s.closed := by
  unfold lstep LSt.write LSt.setTask
  dsimp only
  repeat' (first | split | exact ⟨rfl, rfl, rfl⟩ | dsimp only)

theorem LSt.perform_lost (s : LSt) (a : Act) : (s.perform a).lost = s.lost ∧ (s.perform a).closed = s.closed := by
  unfold LSt.perform
  repeat' (first | split | exact ⟨rfl, rfl⟩ | dsimp only)

theorem LSt.reader_lost (s : LSt) : s.reader.lost = s.lost := by
  unfold LSt.reader LSt.write
  split
  · split
    · rfl
    · rfl
    · exact (LSt.perform_lost _ _).1
  · dsimp only; split <;> rfl
  · rfl
  · dsimp only; split <;> rfl

theorem LSt.reader_replying {s : LSt} {m : Bytes} (h : s.tail = .replying m) : s.reader.tail = .reading := by
  unfold LSt.reader
  rw [h]

theorem LSt.reader_replying_closed {s : LSt} {m : Bytes} (h : s.tail = .replying m) : s.reader.closed = s.closed := by
  unfold LSt.reader LSt.write
  rw [h]
  dsimp only
  split <;> rfl

/-! ## the simulation -/

theorem LFOk.turnTask {c : FlowCfg} {svc : Services} {s : LFSt} {i : Nat} (h : LFOk s)
    (hc : c.many = true ∨ (s.paused = true → ∀ v ∈ s.waiters, v = .task i)) (k : Nat) :
    LFOk (s.turnTask c svc i k) ∧
      ((s.turnTask c svc i k).l = s.l ∨ (s.turnTask c svc i k).l = lstep svc s.l (.write i)) := by
  unfold LFSt.turnTask
  split
  · exact ⟨h, .inl rfl⟩
  · next t ht =>
    split
    · next m hm =>
      have hd := s.drain_ok (c := c) (w := .task i) h hc
      have hf := s.drain_frame c (.task i)
      rcases hres : s.drain c (.task i) with ⟨s1, o⟩
      rw [hres] at hd hf
      obtain ⟨h1, hne, hwt⟩ := hd
      dsimp only at h1 hne hwt hf
      rcases o with - | - | -
      · exact ⟨h1, .inl hf.1⟩
      · exact absurd rfl hne
      · have hwt := hwt rfl
        dsimp only
        have bf := s1.buffer_frame c m.length k
        have wf := lstep_write_frame svc s1.l i
        have h2 : LFOk { s1.buffer c m.length k with l := lstep svc s1.l (.write i) } := by
          refine ⟨by rw [show _ = _ from wf.1]; exact h1.lost, by rw [show _ = _ from bf.2.2.2.2.1]; exact h1.dead, ?_, ?_, ?_⟩
          · rw [show _ = _ from bf.2.2.1]; exact h1.woken
          · intro hp
            rw [show _ = _ from bf.2.1]
            apply h1.wait
            cases hq : s1.paused with
            | false => rfl
            | true => have := bf.2.2.2.2.2 hq; rw [this] at hp; cases hp
          · intro hh
            rw [show _ = _ from wf.2.1]
            exact h1.hold (by rw [← bf.2.2.2.1]; exact hh)
        split
        · exact ⟨h2, .inr (by rw [show _ = _ from congrArg (fun l => lstep svc l (.write i)) hf.1])⟩
        · have h3 := LFSt.drain_ok (c := c) (w := .task i) h2 (by
            rcases hc with hc | hc
            · exact .inl hc
            · refine .inr fun _ v hv => ?_
              rw [show _ = _ from bf.2.1, hwt] at hv
              cases hq : s.paused with
              | true => exact hc hq v hv
              | false => rw [h.wait hq] at hv; cases hv)
          refine ⟨h3.1, .inr ?_⟩
          rw [(LFSt.drain_frame c _ (.task i)).1]
          exact congrArg (fun l => lstep svc l (.write i)) hf.1
    · refine ⟨⟨h.lost, h.dead, fun x hx => h.woken x (List.mem_filter.1 hx).1, h.wait, h.hold⟩, .inl rfl⟩

theorem LFOk.turnReader {c : FlowCfg} {svc : Services} {s : LFSt} (h : LFOk s)
    (hc : c.many = true ∨ (s.paused = true → ∀ v ∈ s.waiters, v = .reader)) (k : Nat) :
    LFOk (s.turnReader c svc k) ∧
      ((s.turnReader c svc k).l = s.l ∨ (s.turnReader c svc k).l = lstep svc s.l .reader) := by
  unfold LFSt.turnReader
  rw [h.dead]
  simp only [Bool.false_eq_true, if_false]
  have hd := s.drain_ok (c := c) (w := .reader) h hc
  have hf := s.drain_frame c .reader
  rcases hres : s.drain c .reader with ⟨s1, o⟩
  rw [hres] at hd hf
  obtain ⟨h1, hne, hwt⟩ := hd
  dsimp only at h1 hne hwt hf
  split
  · rcases o with - | - | -
    · exact ⟨h1, .inl hf.1⟩
    · exact absurd rfl hne
    · exact ⟨⟨h1.lost, h1.dead, h1.woken, h1.wait, fun h => (by cases h)⟩, .inl hf.1⟩
  · next hh =>
    have hh : s.hold = false := by simpa using hh
    split
    · next ht =>
      refine ⟨⟨?_, rfl, h.woken, h.wait, fun x => ?_⟩, .inr rfl⟩
      · show s.l.reader.lost = false
        rw [LSt.reader_lost]; exact h.lost
      · rw [hh] at x; cases x
    · next m ht =>
      rcases o with - | - | -
      · exact ⟨h1, .inl hf.1⟩
      · exact absurd rfl hne
      · have hwt := hwt rfl
        dsimp only
        have bf := s1.buffer_frame c m.length k
        have h2 : LFOk { s1.buffer c m.length k with l := lstep svc s1.l .reader } := by
          refine ⟨?_, by rw [show _ = _ from bf.2.2.2.2.1]; exact h1.dead, ?_, ?_, ?_⟩
          · show s1.l.reader.lost = false
            rw [LSt.reader_lost]; exact h1.lost
          · rw [show _ = _ from bf.2.2.1]; exact h1.woken
          · intro hp
            rw [show _ = _ from bf.2.1]
            apply h1.wait
            cases hq : s1.paused with
            | false => rfl
            | true => have := bf.2.2.2.2.2 hq; rw [this] at hp; cases hp
          · intro x
            rw [show _ = s.hold from bf.2.2.2.1.trans hf.2.2.2.1, hh] at x
            cases x
        have htl : s1.l.reader.tail = .reading := LSt.reader_replying (by rw [hf.1]; exact ht)
        have h3 := LFSt.drain_ok (c := c) (w := .reader) h2 (by
            rcases hc with hc | hc
            · exact .inl hc
            · refine .inr fun _ v hv => ?_
              rw [show _ = _ from bf.2.1, hwt] at hv
              cases hq : s.paused with
              | true => exact hc hq v hv
              | false => rw [h.wait hq] at hv; cases hv)
        have hf3 := LFSt.drain_frame c { s1.buffer c m.length k with l := lstep svc s1.l .reader } .reader
        rcases hres3 : LFSt.drain c { s1.buffer c m.length k with l := lstep svc s1.l .reader } .reader with ⟨s3, o3⟩
        rw [hres3] at h3 hf3
        dsimp only at h3 hf3 ⊢
        have hl3 : s3.l = lstep svc s.l .reader := by rw [hf3.1, hf.1]
        rcases o3 with - | - | -
        · refine ⟨⟨h3.1.lost, h3.1.dead, h3.1.woken, h3.1.wait, fun _ => ?_⟩, .inr hl3⟩
          show s3.l.tail = .reading
          rw [hf3.1]; exact htl
        · exact absurd rfl h3.2.1
        · exact ⟨h3.1, .inr hl3⟩
    · next m ht =>
      rcases o with - | - | -
      · exact ⟨h1, .inl hf.1⟩
      · exact absurd rfl hne
      · dsimp only
        have bf := s1.buffer_frame c ((m.map List.length).getD 0) k
        refine ⟨⟨?_, by rw [show _ = _ from bf.2.2.2.2.1]; exact h1.dead, ?_, ?_, ?_⟩,
          .inr (congrArg (fun l => lstep svc l .reader) hf.1)⟩
        · show s1.l.reader.lost = false
          rw [LSt.reader_lost]; exact h1.lost
        · rw [show _ = _ from bf.2.2.1]; exact h1.woken
        · intro hp
          rw [show _ = _ from bf.2.1]
          apply h1.wait
          cases hq : s1.paused with
          | false => rfl
          | true => have := bf.2.2.2.2.2 hq; rw [this] at hp; cases hp
        · intro x
          rw [show _ = s.hold from bf.2.2.2.1.trans hf.2.2.2.1, hh] at x
          cases x

theorem LFOk.step {c : FlowCfg} {svc : Services} {s : LFSt} {e : LFEv} (h : LFOk s) (hr : e ≠ .reset)
    (hc : c.many = true ∨ ∀ (w : LWho) (k : Nat), e = .turn w k → s.paused = true → ∀ v ∈ s.waiters, v = w) :
    LFOk (lfStep c svc s e) ∧
      ∃ ls : List LEv, (lfStep c svc s e).l = ls.foldl (lstep svc) s.l ∧ ls.filter LEv.outside = outsideOf [e] := by
  cases e with
  | reset => exact absurd rfl hr
  | ev e =>
    show LFOk (if _ then _ else _) ∧ _
    cases he : e.outside with
    | false => exact ⟨h, [], by simp [lfStep, he, outsideOf]⟩
    | true =>
      have := lstep_outside svc s.l e he
      refine ⟨?_, [e], by simp [lfStep, he, outsideOf]⟩
      simp only [if_true]
      exact ⟨by rw [show _ = _ from this.1]; exact h.lost, h.dead, h.woken, h.wait,
        fun x => by rw [show _ = _ from this.2.1]; exact h.hold x⟩
  | turn w k =>
    cases w with
    | task i =>
      have := h.turnTask (svc := svc) (i := i) (hc.imp id fun hc => hc _ k rfl) k
      refine ⟨this.1, ?_⟩
      rcases this.2 with hl | hl
      · exact ⟨[], hl, rfl⟩
      · exact ⟨[.write i], hl, rfl⟩
    | reader =>
      have := h.turnReader (svc := svc) (hc.imp id fun hc => hc _ k rfl) k
      refine ⟨this.1, ?_⟩
      rcases this.2 with hl | hl
      · exact ⟨[], hl, rfl⟩
      · exact ⟨[.reader], hl, rfl⟩
  | take k =>
    have hl : (lfStep c svc s (.take k)).l = s.l := by
      unfold lfStep
      dsimp only
      repeat' split
      all_goals rfl
    refine ⟨?_, [], hl, rfl⟩
    unfold lfStep
    dsimp only
    rw [h.lost]
    simp only [Bool.false_eq_true, if_false]
    split
    · refine ⟨h.lost, h.dead, ?_, fun _ => rfl, h.hold⟩
      intro x hx
      rcases List.mem_append.1 hx with hx | hx
      · exact h.woken x hx
      · obtain ⟨w, -, rfl⟩ := List.mem_map.1 hx; rfl
    · exact ⟨h.lost, h.dead, h.woken, h.wait, h.hold⟩

theorem lfRun_snoc (c : FlowCfg) (svc : Services) (reg : Registry) (evs : List LFEv) (e : LFEv) :
    lfRun c svc reg (evs ++ [e]) = lfStep c svc (lfRun c svc reg evs) e := by simp [lfRun]

theorem LFOk.run {c : FlowCfg} {svc : Services} {reg : Registry} {evs : List LFEv} (hr : LFKept evs)
    (hc : c.many = true ∨ OneByOne c svc reg evs) :
    LFOk (lfRun c svc reg evs) ∧
      ∃ ls : List LEv, (lfRun c svc reg evs).l = lrun svc reg ls ∧ ls.filter LEv.outside = outsideOf evs := by
  induction evs using snoc_induct with
  | nil => exact ⟨⟨rfl, rfl, fun _ h => (by cases h), fun _ => rfl, fun h => (by cases h)⟩, [], rfl, rfl⟩
  | snoc evs e ih =>
    have hr' : LFKept evs := fun h => hr (by simp [h])
    have hc' : c.many = true ∨ OneByOne c svc reg evs := by
      refine hc.imp id fun hc n w k hn => ?_
      have hlt : n < evs.length := by
        rcases Nat.lt_or_ge n evs.length with h | h
        · exact h
        · rw [List.getElem?_eq_none h] at hn; cases hn
      have := hc n w k (by rw [List.getElem?_append_left hlt]; exact hn)
      rwa [List.take_append_of_le_length (Nat.le_of_lt hlt)] at this
    obtain ⟨h, ls, hl, ho⟩ := ih hr' hc'
    have hs := h.step (c := c) (svc := svc) (e := e) (fun h => hr (by simp [h])) (hc.imp id fun hc w k he => by
      have := hc evs.length w k (by simp [he])
      simpa using this)
    obtain ⟨h1, ls1, hl1, ho1⟩ := hs
    rw [lfRun_snoc]
    refine ⟨h1, ls ++ ls1, ?_, ?_⟩
    · rw [hl1, hl]; simp [lrun]
    · rw [List.filter_append, ho, ho1]; simp [outsideOf]

/-! ## C152 -/

/-- C152 as listed: with asyncio's limits, back pressure neither ends the serving of a connection nor loses a response. -/
def C152_full : Prop :=
  ∀ c ∈ [flowOld, flowNew], ∀ (svc : Services) (reg : Registry) (evs : List LFEv), LFKept evs →
    (lfRun c svc reg evs).dead = false ∧
      ((lfRun c svc reg evs).l.settled → (lfRun c svc reg evs).l.closed = false →
        ((lfRun c svc reg evs).l.out.map Prod.snd).Perm (owing (lfRun c svc reg evs).l))

/-- C152, what holds: where a protocol keeps all its waiters (Python from 3.10 on), or where nobody comes to write while
another one waits, flow control only delays: the connection is in a state it could also be in without flow control after
the same events from outside, its reader is alive, and once everything has settled the responses owed have been
written, each once. Missing for C152: other schedules on the versions of Python that setup.py declares. -/
theorem C152_refines_partial (c : FlowCfg) (svc : Services) (reg : Registry) (evs : List LFEv) (hr : LFKept evs)
    (hc : c.many = true ∨ OneByOne c svc reg evs) :
    (lfRun c svc reg evs).dead = false ∧
      (∃ ls : List LEv, (lfRun c svc reg evs).l = lrun svc reg ls ∧ ls.filter LEv.outside = outsideOf evs) ∧
      ((lfRun c svc reg evs).l.settled → (lfRun c svc reg evs).l.closed = false →
        ((lfRun c svc reg evs).l.out.map Prod.snd).Perm (owing (lfRun c svc reg evs).l)) := by
  obtain ⟨h, ls, hl, ho⟩ := LFOk.run hr hc
  refine ⟨h.dead, ⟨ls, hl, ho⟩, ?_⟩
  rw [hl]
  exact C72_ledger svc reg ls

/-! ### how it is violated -/

/-- a `drain` that nobody has woken, on a connection that is not paused -/
theorem LFSt.drain_free {c : FlowCfg} {s : LFSt} {w : LWho} (hw : s.woken = []) (hq : s.waiters = [])
    (hl : s.l.lost = false) (hp : s.paused = false) : s.drain c w = (s, some true) := by
  unfold LFSt.drain
  simp [hw, hq, hl, hp]

/-- on a paused connection the first one waits -/
theorem LFSt.drain_first {c : FlowCfg} {s : LFSt} {w : LWho} (hw : s.woken = []) (hq : s.waiters = [])
    (hl : s.l.lost = false) (hp : s.paused = true) : s.drain c w = ({ s with waiters := [w] }, none) := by
  unfold LFSt.drain
  simp [hw, hq, hl, hp]

/-- and the second one gets the AssertionError -/
theorem LFSt.drain_second {c : FlowCfg} {s : LFSt} {w v : LWho} (hm : c.many = false) (hw : s.woken = [])
    (hq : s.waiters = [v]) (hv : w ≠ v) (hl : s.l.lost = false) (hp : s.paused = true) :
    s.drain c w = (s, some false) := by
  unfold LFSt.drain
  simp [hw, hq, hl, hp, hm, hv]

/-- a task writes a message of which more than the limit stays buffered, and waits -/
theorem LFSt.turn_pauses {c : FlowCfg} {svc : Services} {s : LFSt} {i j : Nat} {t : Task} {m : Bytes}
    (ho : s.l.closed = false) (hl : s.l.lost = false) (hp : s.paused = false) (hw : s.woken = []) (hq : s.waiters = [])
    (hb : s.buf = 0) (ht : s.l.tasks[i]? = some t) (hm : t.st = .writing m) (hh : c.high < m.length - j) :
    s.turnTask c svc i j =
      { s with l := lstep svc s.l (.write i), buf := m.length - j, paused := true, waiters := [.task i] } := by
  unfold LFSt.turnTask
  rw [ht]
  dsimp only
  rw [hm]
  dsimp only
  rw [LFSt.drain_free hw hq hl hp]
  dsimp only
  rw [ho]
  simp only [Bool.false_eq_true, if_false]
  have hne : m.length - j ≠ 0 := by omega
  have hbuf : s.buffer c m.length j = { s with buf := m.length - j, paused := true } := by
    unfold LFSt.buffer
    simp [ho, hb, hne, hh]
  rw [hbuf]
  rw [LFSt.drain_first (by exact hw) (by exact hq) (by exact (lstep_write_frame svc s.l i).1.trans hl) rfl]

/-- C152: on the versions of Python that setup.py declares, a task that has written a message of which more than the limit
stays buffered kills the reader that comes to refuse a frame: its refusal is not written and the reader has ended. -/
theorem C152_dies (c : FlowCfg) (hc : c.many = false) (svc : Services) (s : LFSt) (i j k : Nat) (t : Task) (m m' : Bytes)
    (ho : s.l.closed = false) (hl : s.l.lost = false) (hp : s.paused = false) (hw : s.woken = []) (hq : s.waiters = [])
    (hb : s.buf = 0) (hd : s.dead = false) (hh : s.hold = false)
    (ht : s.l.tasks[i]? = some t) (hm : t.st = .writing m) (hr : s.l.tail = .replying m') (hg : c.high < m.length - j) :
    let s' := [LFEv.turn (.task i) j, .turn .reader k].foldl (lfStep c svc) s
    s'.dead = true ∧ s'.l.closed = false ∧ s'.l.out = s.l.out ++ [(.task i, m)] := by
  have e1 := LFSt.turn_pauses (c := c) (svc := svc) (j := j) ho hl hp hw hq hb ht hm hg
  have wf := lstep_write_frame svc s.l i
  intro s'
  have e2 : s' = LFSt.die { s with l := lstep svc s.l (.write i), buf := m.length - j, paused := true, waiters := [.task i] } := by
    show (s.turnTask c svc i j).turnReader c svc k = _
    rw [e1]
    unfold LFSt.turnReader
    dsimp only
    rw [hd, hh, wf.2.1, hr]
    simp only [Bool.false_eq_true, if_false]
    rw [LFSt.drain_second hc (by exact hw) (v := .task i) rfl (fun h => (by cases h)) (by exact wf.1.trans hl) rfl]
  rw [e2]
  refine ⟨rfl, wf.2.2.trans ho, ?_⟩
  show (lstep svc s.l (.write i)).out = _
  simp [lstep, ht, hm, LSt.write, ho, LSt.setTask]

/-- C152: in the same way the response of another task is lost. -/
theorem C152_drops (c : FlowCfg) (hc : c.many = false) (svc : Services) (s : LFSt) (i i' j k : Nat) (t t' : Task)
    (m m' : Bytes) (hne : i' ≠ i)
    (ho : s.l.closed = false) (hl : s.l.lost = false) (hp : s.paused = false) (hw : s.woken = []) (hq : s.waiters = [])
    (hb : s.buf = 0) (ht : s.l.tasks[i]? = some t) (hm : t.st = .writing m)
    (ht' : s.l.tasks[i']? = some t') (hm' : t'.st = .writing m') (hg : c.high < m.length - j) :
    let s' := [LFEv.turn (.task i) j, .turn (.task i') k].foldl (lfStep c svc) s
    s'.l.tasks[i']? = some { t' with st := .ended } ∧ s'.l.out = s.l.out ++ [(.task i, m)] := by
  have e1 := LFSt.turn_pauses (c := c) (svc := svc) (j := j) ho hl hp hw hq hb ht hm hg
  have wf := lstep_write_frame svc s.l i
  have hts : (lstep svc s.l (.write i)).tasks = s.l.tasks.set i { t with st := .ended } := by
    simp [lstep, ht, hm, LSt.write, ho, LSt.setTask]
  have ht2 : (lstep svc s.l (.write i)).tasks[i']? = some t' := by
    rw [hts, List.getElem?_set_ne (Ne.symm hne)]; exact ht'
  intro s'
  have e2 : s'.l = (lstep svc s.l (.write i)).setTask i' { t' with st := .ended } := by
    show ((s.turnTask c svc i j).turnTask c svc i' k).l = _
    rw [e1]
    unfold LFSt.turnTask
    dsimp only
    rw [ht2]
    dsimp only
    rw [hm']
    dsimp only
    rw [LFSt.drain_second hc (by exact hw) (v := .task i) rfl (fun h => hne (by injection h)) (by exact wf.1.trans hl) rfl]
  rw [e2]
  constructor
  · show ((lstep svc s.l (.write i)).tasks.set i' _)[i']? = _
    rw [List.getElem?_set_self]
    exact (List.getElem?_eq_some_iff.1 ht2).1
  · show (lstep svc s.l (.write i)).out = _
    simp [lstep, ht, hm, LSt.write, ho, LSt.setTask]

/-- a request is being served, and the reader is about to refuse the frame after it -/
def exCrowdPre : List LFEv :=
  [.ev (.data ((exReq 3 [1]).bytes ++ exRefused.bytes)), .turn .reader 0, .turn .reader 0, .turn .reader 0, .turn .reader 0,
   .ev (.run 0 (py "t")), .ev (.futStart 0), .turn .reader 0, .turn .reader 0, .turn .reader 0, .turn .reader 0]

/-- the call returns `c` -/
def exCrowdRet (c : Bytes) : List LFEv := [.ev (.futFinish 0 (.ret (.bytes c))), .ev (.result 0)]

set_option maxRecDepth 40000 in
theorem exCrowd_facts :
    let s := lfRun flowOld exServices exReg exCrowdPre
    (s.l.closed = false ∧ s.l.lost = false ∧ s.paused = false ∧ s.woken = [] ∧ s.waiters = []) ∧
    (s.buf = 0 ∧ s.dead = false ∧ s.hold = false ∧ s.l.futSt 0 = some .running) ∧
    s.l.tasks = [⟨.dispatch (exReq 3 [1]).req, .waiting (some 100), some 0, none, some exReg, some 0⟩] ∧
    s.l.tail = .replying (reply 77 8 []) := by
  decide +kernel

/-- A response of which more than 64 KiB stay in the buffer: the refusal of the next frame ends the reader. -/
theorem exCrowd_dies (c : Bytes) (h1 : 65536 < c.length) (h2 : c.length < 4294967296) :
    let s := lfRun flowOld exServices exReg (exCrowdPre ++ exCrowdRet c ++ [.turn (.task 0) 0, .turn .reader 0])
    s.dead = true ∧ s.l.closed = false ∧ s.l.out = [(.task 0, reply 3 0 c)] := by
  have hfacts := exCrowd_facts
  have hout : (lfRun flowOld exServices exReg exCrowdPre).l.out = [] := by
    set_option maxRecDepth 40000 in decide +kernel
  intro s
  have hs : s = [LFEv.turn (.task 0) 0, .turn .reader 0].foldl (lfStep flowOld exServices)
      ((exCrowdRet c).foldl (lfStep flowOld exServices) (lfRun flowOld exServices exReg exCrowdPre)) := by
    show lfRun _ _ _ _ = _
    rw [lfRun, List.foldl_append, List.foldl_append]
    rfl
  generalize lfRun flowOld exServices exReg exCrowdPre = s0 at hfacts hs hout
  obtain ⟨⟨ho, hl, hp, hw, hq⟩, ⟨hb, hd, hh, hf⟩, ht, htl⟩ := hfacts
  have htr : (PyObj.bytes c).truthy = true := by
    cases c with
    | nil => simp at h1
    | cons a l => rfl
  have hmsg : afterCall (exReq 3 [1]).req.id (.ret (.bytes c)) = .writing (reply 3 0 c) := by
    show (if _ then _ else _) = _
    rw [htr, if_pos rfl]
    show toWrite (resultMsg (.bytes c) 3) = _
    rw [resultMsg_bytes 3 (by constructor <;> decide) c, if_pos h2]
    rfl
  have hfin : (s0.l.setFut 0 (.finished (.ret (.bytes c)))).futSt 0 = some (.finished (.ret (.bytes c))) := by
    unfold LSt.futSt at hf
    obtain ⟨f, hf1, -⟩ := Option.map_eq_some_iff.1 hf
    simp [LSt.futSt, LSt.setFut, hf1]
  let t1 : Task := ⟨.dispatch (exReq 3 [1]).req, .writing (reply 3 0 c), some 0, some (.answered (.ret (.bytes c))), some exReg, some 0⟩
  have e1 : (exCrowdRet c).foldl (lfStep flowOld exServices) s0 =
      { s0 with l := (s0.l.setFut 0 (.finished (.ret (.bytes c)))).setTask 0 t1 } := by
    have r1 : lstep exServices s0.l (.futFinish 0 (.ret (.bytes c))) = s0.l.setFut 0 (.finished (.ret (.bytes c))) := by
      simp [lstep, hf]
    have r2 : lstep exServices (s0.l.setFut 0 (.finished (.ret (.bytes c)))) (.result 0) =
        (s0.l.setFut 0 (.finished (.ret (.bytes c)))).setTask 0 t1 := by
      have ht' : (s0.l.setFut 0 (.finished (.ret (.bytes c)))).tasks = _ := ht
      unfold lstep
      dsimp only
      rw [ht']
      dsimp only [List.getElem?_cons_zero]
      rw [hfin]
      dsimp only
      rw [hmsg]
    simp only [exCrowdRet, List.foldl_cons, List.foldl_nil, lfStep, LEv.outside, if_true]
    rw [r1, r2]
  rw [e1] at hs
  have := C152_dies flowOld rfl exServices
    { s0 with l := (s0.l.setFut 0 (.finished (.ret (.bytes c)))).setTask 0 t1 } 0 0 0 t1 (reply 3 0 c) _ ho hl hp hw hq hb hd hh
    (by show (s0.l.tasks.set 0 t1)[0]? = _; rw [ht]; rfl) rfl htl
    (by show 65536 < _; simp [reply, frame]; omega)
  rw [hs]
  refine ⟨this.1, this.2.1, this.2.2.trans ?_⟩
  show s0.l.out ++ _ = _
  rw [hout]; rfl

theorem exCrowd_kept (c : Bytes) : LFKept (exCrowdPre ++ exCrowdRet c ++ [.turn (.task 0) 0, .turn .reader 0]) := by
  unfold LFKept exCrowdPre exCrowdRet
  simp

/-- On the versions of Python that setup.py declares: a client that is slow to read a response of more than 64 KiB sends a
frame that has to be refused. The refusal is lost and the connection is never read again. -/
theorem C152_violated : ¬ C152_full := by
  intro h
  have := (h flowOld (by simp) exServices exReg _ (exCrowd_kept _) : (lfRun flowOld exServices exReg
      (exCrowdPre ++ exCrowdRet (List.replicate 65537 0) ++ [.turn (.task 0) 0, .turn .reader 0])).dead = false ∧ _).1
  rw [(exCrowd_dies (List.replicate 65537 0) (by rw [List.length_replicate]; omega)
    (by rw [List.length_replicate]; omega)).1] at this
  cases this

/-! ### a connection whose reader has ended -/

theorem LSt.dispatch_idle (svc : Services) (s : LSt) (i : Nat) (t : Task) (r : Req) (fresh : PyStr) :
    (s.dispatch svc i t r fresh).acts = s.acts ∧ (s.dispatch svc i t r fresh).rd = s.rd ∧
      (s.dispatch svc i t r fresh).tasks.length = s.tasks.length := by
  have key (s : LSt) (t : Task) : (s.setTask i t).acts = s.acts ∧ (s.setTask i t).rd = s.rd ∧
      (s.setTask i t).tasks.length = s.tasks.length := ⟨rfl, rfl, by simp [LSt.setTask]⟩
  unfold LSt.dispatch
  repeat' (first | split | exact key _ _ | dsimp only)

theorem lstep_outside_idle (svc : Services) (s : LSt) (e : LEv) (h : e.outside = true) :
    (lstep svc s e).acts = s.acts ∧ (lstep svc s e).rd = s.rd ∧ (lstep svc s e).tasks.length = s.tasks.length := by
  have key (s : LSt) (i : Nat) (t : Task) : (s.setTask i t).acts = s.acts ∧ (s.setTask i t).rd = s.rd ∧
      (s.setTask i t).tasks.length = s.tasks.length := ⟨rfl, rfl, by simp [LSt.setTask]⟩
  cases e with
  | run i fresh =>
    unfold lstep
    dsimp only
    repeat' split
    · exact s.dispatch_idle svc i _ _ fresh
    · exact ⟨rfl, rfl, rfl⟩
    · exact ⟨rfl, rfl, rfl⟩
  | reader => cases h
  | write i => cases h
  | reset => cases h
  | expire i =>
    unfold lstep
    dsimp only
    repeat' split
    any_goals exact ⟨rfl, rfl, rfl⟩
    refine ⟨?_, ?_, ?_⟩ <;> unfold LSt.cancelFut LSt.setTask LSt.setFut <;> dsimp only <;> split <;> simp
  | _ =>
    unfold lstep
    dsimp only
    repeat' (first | split | exact ⟨rfl, rfl, rfl⟩ | exact key _ _ _ | dsimp only)

/-- the reader has ended without closing the connection -/
structure Zombie (s : LFSt) : Prop where
  dead : s.dead = true
  tail : s.l.tail = .reading
  stopped : s.l.rd.phase = .stopped

theorem LFSt.die_zombie (s : LFSt) : Zombie s.die := ⟨rfl, rfl, rfl⟩

/-- what it still has in common with what it was -/
structure SameSession (s s' : LFSt) : Prop where
  acts : s'.l.acts = s.l.acts
  tasks : s'.l.tasks.length = s.l.tasks.length

/-- what the run of a task leaves alone -/
theorem LFSt.turnTask_frame (c : FlowCfg) (svc : Services) (s : LFSt) (i k : Nat) :
    ((s.turnTask c svc i k).l.closed = s.l.closed ∧ (s.turnTask c svc i k).l.tail = s.l.tail ∧
      (s.turnTask c svc i k).l.rd = s.l.rd ∧ (s.turnTask c svc i k).l.acts = s.l.acts) ∧
    (s.turnTask c svc i k).l.tasks.length = s.l.tasks.length ∧ (s.turnTask c svc i k).hold = s.hold ∧
      (s.turnTask c svc i k).dead = s.dead := by
  unfold LFSt.turnTask
  split
  · exact ⟨⟨rfl, rfl, rfl, rfl⟩, rfl, rfl, rfl⟩
  · next t ht =>
    split
    · next m hm =>
      have hf := s.drain_frame c (.task i)
      rcases hres : s.drain c (.task i) with ⟨s1, o⟩
      rw [hres] at hf
      dsimp only at hf ⊢
      obtain ⟨f1, -, -, f4, f5⟩ := hf
      rcases o with - | - | -
      · simp [f1, f4, f5]
      · simp [LSt.setTask, f1, f4, f5]
      · dsimp only
        have bf := s1.buffer_frame c m.length k
        have wf := lstep_write_frame svc s1.l i
        have wl : (lstep svc s1.l (.write i)).acts = s1.l.acts ∧ (lstep svc s1.l (.write i)).rd = s1.l.rd ∧
            (lstep svc s1.l (.write i)).tasks.length = s1.l.tasks.length := by
          unfold lstep LSt.write LSt.setTask
          dsimp only
          repeat' (first | split | exact ⟨rfl, rfl, rfl⟩ | exact ⟨rfl, rfl, by simp⟩ | dsimp only)
        rw [f1] at wf wl
        split
        · simp [wf, wl, bf, f1, f4, f5]
        · have gl := fun x => (LFSt.drain_frame c x (.task i)).1
          have gh := fun x => (LFSt.drain_frame c x (.task i)).2.2.2.1
          have gd := fun x => (LFSt.drain_frame c x (.task i)).2.2.2.2
          simp [gl, gh, gd, wf, wl, bf, f1, f4, f5]
    · exact ⟨⟨rfl, rfl, rfl, rfl⟩, rfl, rfl, rfl⟩

theorem Zombie.task {s : LFSt} (h : Zombie s) (c : FlowCfg) (svc : Services) (i k : Nat) :
    Zombie (s.turnTask c svc i k) ∧ SameSession s (s.turnTask c svc i k) ∧ (s.turnTask c svc i k).l.closed = s.l.closed := by
  obtain ⟨⟨a1, a2, a3, a4⟩, a5, -, a7⟩ := s.turnTask_frame c svc i k
  exact ⟨⟨a7.trans h.dead, a2.trans h.tail, by rw [a3]; exact h.stopped⟩, ⟨a4, a5⟩, a1⟩

theorem Zombie.step {s : LFSt} (h : Zombie s) (c : FlowCfg) (svc : Services) (e : LFEv) :
    Zombie (lfStep c svc s e) ∧ SameSession s (lfStep c svc s e) ∧
      (e ≠ .reset → (lfStep c svc s e).l.closed = s.l.closed) := by
  cases e with
  | ev e =>
    unfold lfStep
    dsimp only
    split
    · next he =>
      have a := lstep_outside svc s.l e he
      have b := lstep_outside_idle svc s.l e he
      exact ⟨⟨h.dead, a.2.1.trans h.tail, (congrArg ReadSt.phase b.2.1).trans h.stopped⟩, ⟨b.1, b.2.2⟩, fun _ => a.2.2⟩
    · exact ⟨h, ⟨rfl, rfl⟩, fun _ => rfl⟩
  | turn w k =>
    cases w with
    | task i =>
      have := h.task c svc i k
      exact ⟨this.1, this.2.1, fun _ => this.2.2⟩
    | reader =>
      have e : lfStep c svc s (.turn .reader k) = s := by
        show s.turnReader c svc k = s
        unfold LFSt.turnReader
        rw [if_pos h.dead]
      rw [e]
      exact ⟨h, ⟨rfl, rfl⟩, fun _ => rfl⟩
  | take k =>
    have : (lfStep c svc s (.take k)).l = s.l ∧ (lfStep c svc s (.take k)).dead = s.dead := by
      unfold lfStep
      dsimp only
      repeat' split
      all_goals exact ⟨rfl, rfl⟩
    exact ⟨⟨this.2.trans h.dead, by rw [this.1]; exact h.tail, by rw [this.1]; exact h.stopped⟩,
      ⟨by rw [this.1], by rw [this.1]⟩, fun _ => by rw [this.1]⟩
  | reset =>
    exact ⟨⟨h.dead, rfl, rfl⟩, ⟨rfl, rfl⟩, fun x => absurd rfl x⟩

theorem Zombie.run {s : LFSt} (h : Zombie s) (c : FlowCfg) (svc : Services) (evs : List LFEv) :
    Zombie (evs.foldl (lfStep c svc) s) ∧ SameSession s (evs.foldl (lfStep c svc) s) ∧
      (LFKept evs → (evs.foldl (lfStep c svc) s).l.closed = s.l.closed) := by
  induction evs generalizing s with
  | nil => exact ⟨h, ⟨rfl, rfl⟩, fun _ => rfl⟩
  | cons e evs ih =>
    have h1 := h.step c svc e
    have h2 := ih h1.1
    refine ⟨h2.1, ⟨h2.2.1.acts.trans h1.2.1.acts, h2.2.1.tasks.trans h1.2.1.tasks⟩, fun hk => ?_⟩
    exact (h2.2.2 fun x => hk (by simp [x])).trans (h1.2.2 fun x => hk (by simp [x]))

/-- a reader that has left the loop is about to close the connection or has done so, a reader in `_write_msg` has not -/
structure LFOpen (s : LFSt) : Prop where
  done : s.l.closed = true → s.l.tail = .reading ∧ s.l.rd.phase = .stopped ∧ s.hold = false ∧ s.dead = false
  closing : ∀ m, s.l.tail = .closing m → s.l.rd.phase = .stopped
  zombie : s.dead = true → Zombie s
  hold : s.hold = true → s.l.tail = .reading ∧ s.dead = false

theorem LSt.reader_reading {s : LSt} (ht : s.tail = .reading) :
    s.reader.closed = s.closed ∧ (∀ m, s.reader.tail = .closing m → s.reader.rd.phase = .stopped) ∧
      (s.rd.phase = .stopped → s.reader = s) := by
  have e : s.reader = match readerIter s.rd s.buf s.eof with
      | none => s
      | some (rd, buf, none) => { s with rd := rd, buf := buf }
      | some (rd, buf, some a) => LSt.perform { s with rd := rd, buf := buf } a := by
    unfold LSt.reader
    split
    · rfl
    all_goals (next h => rw [ht] at h; cases h)
  rw [e]
  have hstop (hs : s.rd.phase = .stopped) : readerIter s.rd s.buf s.eof = none := by
    unfold readerIter; rw [hs]
  refine ⟨?_, ?_, fun hs => by rw [hstop hs]⟩
  · split
    · rfl
    · rfl
    · exact (LSt.perform_lost _ _).2
  · intro m
    split
    · intro h; rw [ht] at h; cases h
    · intro h; rw [show _ = _ from ht] at h; cases h
    · next rd buf a hr =>
      have hc := readerIter_close hr
      intro h
      unfold LSt.perform at h ⊢
      cases a with
      | close id st => exact hc
      | dispatch r => exact absurd (ht.symm.trans h) (by simp)
      | heartbeat id =>
        dsimp only at h ⊢
        split at h <;> exact absurd (ht.symm.trans h) (by simp)
      | reject id st =>
        dsimp only at h ⊢
        split at h
        · cases h
        · exact absurd (ht.symm.trans h) (by simp)
      | crash => exact absurd (ht.symm.trans h) (by simp)

theorem LFOpen.congr {s s' : LFSt} (h : LFOpen s) (h1 : s'.l.closed = s.l.closed) (h2 : s'.l.tail = s.l.tail)
    (h3 : s'.l.rd = s.l.rd) (h4 : s'.hold = s.hold) (h5 : s'.dead = s.dead) : LFOpen s' where
  done := by rw [h1, h2, h3, h4, h5]; exact h.done
  closing := by rw [h2, h3]; exact h.closing
  zombie := fun x => by
    have := h.zombie (h5.symm.trans x)
    exact ⟨x, h2.trans this.tail, by rw [h3]; exact this.stopped⟩
  hold := by rw [h4, h2, h5]; exact h.hold

theorem LFOpen.die {s : LFSt} (ho : s.l.closed = false) : LFOpen s.die where
  done := fun h => absurd (ho.symm.trans h) (by simp)
  closing := fun m h => (by cases h)
  zombie := fun _ => s.die_zombie
  hold := fun h => (by cases h)

theorem LFOpen.turnReader {s : LFSt} (h : LFOpen s) (c : FlowCfg) (svc : Services) (k : Nat) :
    LFOpen (s.turnReader c svc k) := by
  unfold LFSt.turnReader
  split
  · exact h
  · next hd =>
    have hd : s.dead = false := by simpa using hd
    have hf := s.drain_frame c .reader
    rcases hres : s.drain c .reader with ⟨s1, o⟩
    rw [hres] at hf
    dsimp only at hf
    obtain ⟨f1, -, -, f4, f5⟩ := hf
    have h1 : LFOpen s1 := h.congr (by rw [f1]) (by rw [f1]) (by rw [f1]) f4 f5
    split
    · next hh =>
      have ho : s1.l.closed = false := by
        cases hc : s1.l.closed with
        | false => rfl
        | true => have := (h1.done hc).2.2.1; rw [f4, hh] at this; cases this
      rcases o with - | - | -
      · exact h1
      · exact LFOpen.die ho
      · exact ⟨fun x => (by rw [show _ = _ from ho] at x; cases x), h1.closing,
          fun x => (by rw [show _ = _ from f5, hd] at x; cases x), fun x => (by cases x)⟩
    · next hh =>
      have hh : s.hold = false := by simpa using hh
      split
      · next ht =>
        have hr := LSt.reader_reading ht
        refine ⟨fun x => ?_, hr.2.1, fun x => ?_, fun x => ?_⟩
        · have hx := h.done (hr.1.symm.trans x)
          have e : lstep svc s.l .reader = s.l := hr.2.2 hx.2.1
          dsimp only
          rw [e]
          exact hx
        · rw [show _ = _ from hd] at x; cases x
        · rw [show _ = _ from hh] at x; cases x
      · next m ht =>
        have ho : s1.l.closed = false := by
          cases hc : s1.l.closed with
          | false => rfl
          | true => have := (h1.done hc).1; rw [f1, ht] at this; cases this
        rcases o with - | - | -
        · exact h1
        · exact LFOpen.die ho
        · dsimp only
          have ht1 : s1.l.tail = .replying m := by rw [f1]; exact ht
          have bf := s1.buffer_frame c m.length k
          have hf3 := LFSt.drain_frame c { s1.buffer c m.length k with l := lstep svc s1.l .reader } .reader
          rcases hres3 : LFSt.drain c { s1.buffer c m.length k with l := lstep svc s1.l .reader } .reader with ⟨s3, o3⟩
          rw [hres3] at hf3
          dsimp only at hf3 ⊢
          obtain ⟨g1, -, -, g4, g5⟩ := hf3
          have hl3 : s3.l = s1.l.reader := g1
          have ho3 : s3.l.closed = false := by rw [hl3, LSt.reader_replying_closed ht1]; exact ho
          have ht3 : s3.l.tail = .reading := by rw [hl3]; exact LSt.reader_replying ht1
          have hd3 : s3.dead = false := by rw [g5, bf.2.2.2.2.1, f5]; exact hd
          have hh3 : s3.hold = false := by rw [g4, bf.2.2.2.1, f4]; exact hh
          rcases o3 with - | - | -
          · exact ⟨fun x => (by rw [show _ = _ from ho3] at x; cases x),
              fun m x => (by rw [show _ = _ from ht3] at x; cases x),
              fun x => (by rw [show _ = _ from hd3] at x; cases x), fun _ => ⟨ht3, hd3⟩⟩
          · exact LFOpen.die ho3
          · exact ⟨fun x => (by rw [show _ = _ from ho3] at x; cases x),
              fun m x => (by rw [show _ = _ from ht3] at x; cases x),
              fun x => (by rw [show _ = _ from hd3] at x; cases x),
              fun x => (by rw [show _ = _ from hh3] at x; cases x)⟩
      · next m ht =>
        have ht1 : s1.l.tail = .closing m := by rw [f1]; exact ht
        have hst := h1.closing m ht1
        have key (l : LSt) (mo : Option Bytes) (hl : l.tail = .closing mo) (hp : l.rd.phase = .stopped) :
            l.reader.tail = .reading ∧ l.reader.rd.phase = .stopped := by
          unfold LSt.reader LSt.write
          rw [hl]
          cases mo with
          | none => exact ⟨rfl, hp⟩
          | some m => dsimp only; split <;> exact ⟨rfl, hp⟩
        rcases o with - | - | -
        · exact h1
        · have := key { s1.l with tail := .closing none } none rfl hst
          dsimp only
          exact ⟨fun _ => ⟨this.1, this.2, f4.trans hh, f5.trans hd⟩, fun _ _ => this.2,
            fun x => (by rw [show _ = _ from f5, hd] at x; cases x), fun x => (by rw [show _ = _ from f4, hh] at x; cases x)⟩
        · dsimp only
          have bf := s1.buffer_frame c ((m.map List.length).getD 0) k
          have := key s1.l m ht1 hst
          exact ⟨fun _ => ⟨this.1, this.2, bf.2.2.2.1.trans (f4.trans hh), bf.2.2.2.2.1.trans (f5.trans hd)⟩, fun _ _ => this.2,
            fun x => (by rw [show _ = _ from bf.2.2.2.2.1, f5, hd] at x; cases x),
            fun x => (by rw [show _ = _ from bf.2.2.2.1, f4, hh] at x; cases x)⟩

theorem LFOpen.step {s : LFSt} (h : LFOpen s) (c : FlowCfg) (svc : Services) (e : LFEv) (hr : e ≠ .reset) :
    LFOpen (lfStep c svc s e) := by
  cases e with
  | reset => exact absurd rfl hr
  | ev e =>
    unfold lfStep
    dsimp only
    split
    · next he =>
      have a := lstep_outside svc s.l e he
      have b := lstep_outside_idle svc s.l e he
      exact h.congr a.2.2 a.2.1 b.2.1 rfl rfl
    · exact h
  | turn w k =>
    cases w with
    | task i =>
      obtain ⟨⟨a1, a2, a3, -⟩, -, a6, a7⟩ := s.turnTask_frame c svc i k
      exact h.congr a1 a2 a3 a6 a7
    | reader => exact h.turnReader c svc k
  | take k =>
    unfold lfStep
    dsimp only
    repeat' split
    all_goals exact h.congr rfl rfl rfl rfl rfl

theorem LFOpen.run {c : FlowCfg} {svc : Services} {reg : Registry} {evs : List LFEv} (hr : LFKept evs) :
    LFOpen (lfRun c svc reg evs) := by
  induction evs using snoc_induct with
  | nil => exact ⟨fun h => (by cases h), fun _ h => (by cases h), fun h => (by cases h), fun h => (by cases h)⟩
  | snoc evs e ih =>
    rw [lfRun_snoc]
    exact (ih fun h => hr (by simp [h])).step c svc e fun h => hr (by simp [h])

/-- C152: a reader that has ended that way has left the connection open, and whatever happens then, no frame is taken
from it any more: nothing that is received later is served, refused or acknowledged, and the listener does not close the
connection. -/
theorem C152_never_again (c : FlowCfg) (svc : Services) (reg : Registry) (evs more : List LFEv)
    (hr : LFKept evs) (hd : (lfRun c svc reg evs).dead = true) :
    (lfRun c svc reg evs).l.closed = false ∧
    (lfRun c svc reg (evs ++ more)).dead = true ∧
    (lfRun c svc reg (evs ++ more)).l.acts = (lfRun c svc reg evs).l.acts ∧
    (lfRun c svc reg (evs ++ more)).l.tasks.length = (lfRun c svc reg evs).l.tasks.length ∧
    (LFKept more → (lfRun c svc reg (evs ++ more)).l.closed = false) := by
  have ho := LFOpen.run (c := c) (svc := svc) (reg := reg) hr
  have hc : (lfRun c svc reg evs).l.closed = false := by
    cases hc : (lfRun c svc reg evs).l.closed with
    | false => rfl
    | true => have := (ho.done hc).2.2.2; rw [hd] at this; cases this
  have hz := (ho.zombie hd).run c svc more
  have e : lfRun c svc reg (evs ++ more) = more.foldl (lfStep c svc) (lfRun c svc reg evs) := by simp [lfRun]
  rw [e]
  exact ⟨hc, hz.1.dead, hz.2.1.acts, hz.2.1.tasks, fun hk => (hz.2.2 hk).trans hc⟩

/-! ### back pressure ends -/

/-- the socket has taken everything: the connection is not paused any more -/
theorem LFOk.taken {s : LFSt} (h : LFOk s) (c : FlowCfg) (svc : Services) :
    LFOk (lfStep c svc s (.take s.buf)) ∧ (lfStep c svc s (.take s.buf)).paused = false ∧
      (lfStep c svc s (.take s.buf)).l = s.l ∧ (lfStep c svc s (.take s.buf)).hold = s.hold := by
  refine ⟨(h.step (c := c) (svc := svc) (e := .take s.buf) (fun x => (by cases x)) (.inr fun w k x => (by cases x))).1, ?_⟩
  unfold lfStep
  dsimp only
  rw [h.lost]
  simp only [Bool.false_eq_true, if_false, Nat.sub_self, Nat.zero_le, decide_true, Bool.and_true]
  split
  · exact ⟨rfl, rfl, rfl⟩
  · next hp => exact ⟨by simpa using hp, rfl, rfl⟩

/-- a `drain` returns then -/
theorem LFOk.drain_returns {s : LFSt} (h : LFOk s) (hp : s.paused = false) (c : FlowCfg) (w : LWho) :
    (s.drain c w).2 = some true := by
  unfold LFSt.drain
  split
  · next x hx => rw [h.woken x (List.mem_of_find?_eq_some hx)]
  · simp [h.wait hp, h.lost, hp]

/-- the events of flow control and the runs of coroutines that write -/
def LFEv.flows : LFEv → Bool
  | .take _ | .turn _ _ => true
  | _ => false

/-- what the writing of some leaves alone; `ls` is what the connection has done meanwhile -/
structure Flushed (svc : Services) (s s' : LFSt) : Prop where
  ok : LFOk s'
  acts : s'.l.acts = s.l.acts
  tasks : s'.l.tasks.length = s.l.tasks.length
  done : ∀ (i : Nat) (t t' : Task), s.l.tasks[i]? = some t → s'.l.tasks[i]? = some t' →
    t' = t ∨ ((∃ m, t.st = .writing m) ∧ t' = { t with st := .ended })
  run : ∃ ls : List LEv, s'.l = ls.foldl (lstep svc) s.l ∧ ls.filter LEv.outside = []

theorem Flushed.refl {svc : Services} {s : LFSt} (h : LFOk s) : Flushed svc s s :=
  ⟨h, rfl, rfl, fun i t t' h1 h2 => .inl (by rw [h1] at h2; injection h2 with h2; exact h2.symm), [], rfl, rfl⟩

theorem Flushed.trans {svc : Services} {s s1 s2 : LFSt} (h1 : Flushed svc s s1) (h2 : Flushed svc s1 s2) :
    Flushed svc s s2 := by
  obtain ⟨l1, e1, o1⟩ := h1.run
  obtain ⟨l2, e2, o2⟩ := h2.run
  refine ⟨h2.ok, h2.acts.trans h1.acts, h2.tasks.trans h1.tasks, fun i t t' ht ht' => ?_, l1 ++ l2, ?_, ?_⟩
  · have hlt : i < s1.l.tasks.length := by
      rw [h1.tasks]; exact (List.getElem?_eq_some_iff.1 ht).1
    have hm := List.getElem?_eq_getElem hlt
    rcases h1.done i t _ ht hm with e | ⟨w, e⟩
    · rw [e] at hm; exact h2.done i t t' hm ht'
    · rcases h2.done i _ t' hm ht' with e' | ⟨⟨m, hm'⟩, -⟩
      · exact .inr ⟨w, e'.trans e⟩
      · rw [e] at hm'; cases hm'
  · rw [e2, e1, List.foldl_append]
  · rw [List.filter_append, o1, o2]; rfl

theorem Flushed.task {s : LFSt} (h : LFOk s) (c : FlowCfg) (svc : Services) (i : Nat) :
    ∃ more : List LFEv, (∀ e ∈ more, e.flows = true) ∧ Flushed svc s (more.foldl (lfStep c svc) s) ∧
      ∀ t, (more.foldl (lfStep c svc) s).l.tasks[i]? = some t → ∀ m, t.st ≠ .writing m := by
  cases ht : s.l.tasks[i]? with
  | none => exact ⟨[], fun _ h => (by cases h), .refl h, fun t x => absurd (ht.symm.trans x) (by simp)⟩
  | some t =>
    by_cases hw : ∃ m, t.st = .writing m
    case neg =>
      refine ⟨[], fun _ h => (by cases h), .refl h, fun t' x m hm => hw ⟨m, ?_⟩⟩
      have x := ht.symm.trans x; injection x with x; rw [x]; exact hm
    obtain ⟨m, hm⟩ := hw
    obtain ⟨h1, hp, hl, hh⟩ := h.taken c svc
    refine ⟨[.take s.buf, .turn (.task i) 0], by simp [LFEv.flows], ?_⟩
    simp only [List.foldl_cons, List.foldl_nil]
    generalize lfStep c svc s (.take s.buf) = s1 at h1 hp hl hh
    have h2 := h1.turnTask (c := c) (svc := svc) (i := i) (.inr fun x => by rw [hp] at x; cases x) 0
    have hfr := s1.turnTask_frame c svc i 0
    have hl2 : (s1.turnTask c svc i 0).l = lstep svc s.l (.write i) := by
      unfold LFSt.turnTask
      rw [hl, ht]
      dsimp only
      rw [hm]
      dsimp only
      have hr := h1.drain_returns hp c (.task i)
      have hf := (s1.drain_frame c (.task i)).1
      rcases hres : s1.drain c (.task i) with ⟨s2, o⟩
      rw [hres] at hr hf
      dsimp only at hr hf
      subst hr
      dsimp only
      split
      · rw [hf, hl]
      · rw [(LFSt.drain_frame c _ (.task i)).1, hf, hl]
    have htk : (lstep svc s.l (.write i)).tasks = s.l.tasks.set i { t with st := .ended } := by
      simp only [lstep, ht, hm, LSt.write, LSt.setTask]
      split <;> rfl
    have hlt : i < s.l.tasks.length := (List.getElem?_eq_some_iff.1 ht).1
    show Flushed svc s (s1.turnTask c svc i 0) ∧ ∀ t, (s1.turnTask c svc i 0).l.tasks[i]? = some t → _
    refine ⟨⟨h2.1, by rw [hfr.1.2.2.2, hl], by rw [hfr.2.1, hl], ?_, [.write i], by rw [hl2]; rfl, rfl⟩, ?_⟩
    · intro i' t1 t2 e1 e2
      rw [hl2, htk] at e2
      by_cases hi : i' = i
      · subst hi
        rw [List.getElem?_set_self hlt] at e2
        rw [ht] at e1
        injection e1 with e1; injection e2 with e2
        exact .inr ⟨⟨m, e1 ▸ hm⟩, by rw [← e2, e1]⟩
      · rw [List.getElem?_set_ne (Ne.symm hi), e1] at e2
        injection e2 with e2
        exact .inl e2.symm
    · intro t' e2 m'
      rw [hl2, htk, List.getElem?_set_self hlt] at e2
      injection e2 with e2
      rw [← e2]
      simp

theorem Flushed.tasks_upto {s : LFSt} (h : LFOk s) (c : FlowCfg) (svc : Services) (n : Nat) :
    ∃ more : List LFEv, (∀ e ∈ more, e.flows = true) ∧ Flushed svc s (more.foldl (lfStep c svc) s) ∧
      ∀ i < n, ∀ t, (more.foldl (lfStep c svc) s).l.tasks[i]? = some t → ∀ m, t.st ≠ .writing m := by
  induction n with
  | zero => exact ⟨[], fun _ h => (by cases h), .refl h, fun i hi => absurd hi (Nat.not_lt_zero i)⟩
  | succ n ih =>
    obtain ⟨m1, f1, g1, w1⟩ := ih
    obtain ⟨m2, f2, g2, w2⟩ := Flushed.task g1.ok c svc n
    refine ⟨m1 ++ m2, ?_, ?_, ?_⟩
    · intro e he
      rcases List.mem_append.1 he with he | he
      · exact f1 e he
      · exact f2 e he
    · rw [List.foldl_append]; exact g1.trans g2
    · rw [List.foldl_append]
      intro i hi t ht m hm
      by_cases hn : i = n
      · subst hn; exact w2 t ht m hm
      · have hlt : i < (m1.foldl (lfStep c svc) s).l.tasks.length := by
          rw [← g2.tasks]; exact (List.getElem?_eq_some_iff.1 ht).1
        have hx := List.getElem?_eq_getElem hlt
        rcases g2.done i _ t hx ht with e | ⟨-, e⟩
        · rw [e] at hm; exact w1 i (by omega) _ hx m hm
        · rw [e] at hm; cases hm

/-- the reader has nothing to write -/
def LFSt.reads (s : LFSt) : Prop := s.l.tail = .reading ∧ s.hold = false

theorem LSt.reader_writes {l : LSt} (h : l.tail ≠ .reading) :
    l.reader.tail = .reading ∧ l.reader.acts = l.acts ∧ l.reader.tasks = l.tasks := by
  unfold LSt.reader LSt.write
  split
  · next x => exact absurd x h
  all_goals (dsimp only; first | exact ⟨rfl, rfl, rfl⟩ | (split <;> exact ⟨rfl, rfl, rfl⟩))

theorem Flushed.held {s : LFSt} (h : LFOk s) (hh : s.hold = true) (c : FlowCfg) (svc : Services) :
    ∃ more : List LFEv, (∀ e ∈ more, e.flows = true) ∧ (more.foldl (lfStep c svc) s).reads ∧
      LFOk (more.foldl (lfStep c svc) s) ∧ (more.foldl (lfStep c svc) s).l = s.l := by
  obtain ⟨h1, hp, hl, hh1⟩ := h.taken c svc
  refine ⟨[.take s.buf, .turn .reader 0], by simp [LFEv.flows], ?_⟩
  simp only [List.foldl_cons, List.foldl_nil]
  generalize lfStep c svc s (.take s.buf) = s1 at h1 hp hl hh1
  have h2 := (h1.turnReader (c := c) (svc := svc) (.inr fun x => by rw [hp] at x; cases x) 0).1
  show LFSt.reads (s1.turnReader c svc 0) ∧ LFOk (s1.turnReader c svc 0) ∧ (s1.turnReader c svc 0).l = s.l
  have hr := h1.drain_returns hp c .reader
  have hf := s1.drain_frame c .reader
  have e : s1.turnReader c svc 0 = { (s1.drain c .reader).1 with hold := false } := by
    unfold LFSt.turnReader
    rw [if_neg (by rw [h1.dead]; simp), if_pos (hh1.trans hh)]
    rcases hres : s1.drain c .reader with ⟨s2, o⟩
    rw [hres] at hr
    dsimp only at hr
    subst hr
    rfl
  rw [e] at h2 ⊢
  refine ⟨⟨?_, rfl⟩, h2, hf.1.trans hl⟩
  show (s1.drain c .reader).1.l.tail = .reading
  rw [hf.1, hl]
  exact h.hold hh

theorem Flushed.reader {s : LFSt} (h : LFOk s) (c : FlowCfg) (svc : Services) :
    ∃ more : List LFEv, (∀ e ∈ more, e.flows = true) ∧ (more.foldl (lfStep c svc) s).reads ∧
      Flushed svc s (more.foldl (lfStep c svc) s) ∧ (more.foldl (lfStep c svc) s).l.tasks = s.l.tasks := by
  have same {s s' : LFSt} (h' : LFOk s') (e : s'.l.tasks = s.l.tasks) (ea : s'.l.acts = s.l.acts)
      (er : ∃ ls : List LEv, s'.l = ls.foldl (lstep svc) s.l ∧ ls.filter LEv.outside = []) : Flushed svc s s' :=
    ⟨h', ea, by rw [e], fun i t t' h1 h2 => .inl (by rw [e, h1] at h2; injection h2 with h2; exact h2.symm), er⟩
  cases hh : s.hold with
  | true =>
    obtain ⟨more, f, g, k, e⟩ := Flushed.held h hh c svc
    exact ⟨more, f, g, same k (by rw [e]) (by rw [e]) ⟨[], e, rfl⟩, by rw [e]⟩
  | false =>
    by_cases ht : s.l.tail = .reading
    case pos => exact ⟨[], fun _ h => (by cases h), ⟨ht, hh⟩, .refl h, rfl⟩
    obtain ⟨h1, hp, hl, hh1⟩ := h.taken c svc
    -- one run of the reader, which writes
    have step : LFOk ((lfStep c svc s (.take s.buf)).turnReader c svc 0) ∧
        ((lfStep c svc s (.take s.buf)).turnReader c svc 0).l = s.l.reader := by
      generalize lfStep c svc s (.take s.buf) = s1 at h1 hp hl hh1
      refine ⟨(h1.turnReader (c := c) (svc := svc) (.inr fun x => by rw [hp] at x; cases x) 0).1, ?_⟩
      have hr := h1.drain_returns hp c .reader
      have hf := (s1.drain_frame c .reader).1
      unfold LFSt.turnReader
      rw [if_neg (by rw [h1.dead]; simp), if_neg (by rw [hh1, hh]; simp), hl]
      rcases hres : s1.drain c .reader with ⟨s2, o⟩
      rw [hres] at hr hf
      dsimp only at hr hf
      subst hr
      split
      · next x => exact absurd x ht
      · next m x =>
        dsimp only
        have hf3 := (LFSt.drain_frame c { s2.buffer c m.length 0 with l := lstep svc s2.l .reader } .reader).1
        have h2 := h1.turnReader (c := c) (svc := svc) (.inr fun x => by rw [hp] at x; cases x) 0
        have hd2 : (s1.turnReader c svc 0).dead = false := h2.1.dead
        rcases hres3 : LFSt.drain c { s2.buffer c m.length 0 with l := lstep svc s2.l .reader } .reader with ⟨s3, o3⟩
        rw [hres3] at hf3
        have e3 : s3.l = s.l.reader := by
          rw [hf3, hf, hl]; rfl
        rcases o3 with - | - | -
        · exact e3
        · exfalso
          unfold LFSt.turnReader at hd2
          rw [if_neg (by rw [h1.dead]; simp), if_neg (by rw [hh1, hh]; simp), hl, x, hres] at hd2
          dsimp only at hd2
          rw [hres3] at hd2
          cases hd2
        · exact e3
      · next m x =>
        show lstep svc s2.l .reader = _
        rw [hf, hl]; rfl
    obtain ⟨h2, hl2⟩ := step
    have hw := LSt.reader_writes ht
    cases hh2 : ((lfStep c svc s (.take s.buf)).turnReader c svc 0).hold with
    | false =>
      refine ⟨[.take s.buf, .turn .reader 0], by simp [LFEv.flows], ?_⟩
      simp only [List.foldl_cons, List.foldl_nil]
      refine ⟨⟨(congrArg LSt.tail hl2).trans hw.1, hh2⟩, ?_, (congrArg LSt.tasks hl2).trans hw.2.2⟩
      exact same h2 ((congrArg LSt.tasks hl2).trans hw.2.2) ((congrArg LSt.acts hl2).trans hw.2.1) ⟨[.reader], hl2, rfl⟩
    | true =>
      obtain ⟨more, f, g, k, e⟩ := Flushed.held h2 hh2 c svc
      have e' := e.trans hl2
      refine ⟨[.take s.buf, .turn .reader 0] ++ more, ?_, ?_⟩
      · intro e he
        rcases List.mem_append.1 he with he | he
        · simp only [List.mem_cons, List.not_mem_nil, or_false] at he
          rcases he with rfl | rfl <;> rfl
        · exact f e he
      · rw [List.foldl_append]
        simp only [List.foldl_cons, List.foldl_nil]
        refine ⟨g, ?_, (congrArg LSt.tasks e').trans hw.2.2⟩
        exact same k ((congrArg LSt.tasks e').trans hw.2.2) ((congrArg LSt.acts e').trans hw.2.1) ⟨[.reader], e', rfl⟩

/-- C152, what holds: in the cases of `C152_refines_partial`, whatever has happened, when the socket takes bytes and the
coroutines get their turn, everything that is ready to be written gets written: no task and no reader stays in `_write_msg`
or in the closing sequence, and the connection has done nothing else meanwhile. -/
theorem C152_progress_partial (c : FlowCfg) (svc : Services) (reg : Registry) (evs : List LFEv) (hr : LFKept evs)
    (hc : c.many = true ∨ OneByOne c svc reg evs) :
    ∃ more : List LFEv, (∀ e ∈ more, e.flows = true) ∧
      (lfRun c svc reg (evs ++ more)).dead = false ∧ (lfRun c svc reg (evs ++ more)).hold = false ∧
      (lfRun c svc reg (evs ++ more)).l.tail = .reading ∧
      (∀ t ∈ (lfRun c svc reg (evs ++ more)).l.tasks, ∀ m, t.st ≠ .writing m) ∧
      (lfRun c svc reg (evs ++ more)).l.acts = (lfRun c svc reg evs).l.acts ∧
      ∃ ls : List LEv, (lfRun c svc reg (evs ++ more)).l = lrun svc reg ls ∧ ls.filter LEv.outside = outsideOf evs := by
  obtain ⟨h, ls, hl, ho⟩ := LFOk.run hr hc
  obtain ⟨m1, f1, g1, w1⟩ := Flushed.tasks_upto h c svc (lfRun c svc reg evs).l.tasks.length
  obtain ⟨m2, f2, r2, g2, t2⟩ := Flushed.reader g1.ok c svc
  have g := g1.trans g2
  refine ⟨m1 ++ m2, ?_, ?_⟩
  · intro e he
    rcases List.mem_append.1 he with he | he
    · exact f1 e he
    · exact f2 e he
  · have e : lfRun c svc reg (evs ++ (m1 ++ m2)) = m2.foldl (lfStep c svc) (m1.foldl (lfStep c svc) (lfRun c svc reg evs)) := by
      simp [lfRun]
    rw [e]
    obtain ⟨ls2, hl2, ho2⟩ := g.run
    refine ⟨g.ok.dead, r2.2, r2.1, ?_, g.acts, ls ++ ls2, ?_, ?_⟩
    · rw [t2]
      intro t ht
      obtain ⟨i, hi, rfl⟩ := List.getElem_of_mem ht
      exact w1 i (by rw [← g1.tasks]; exact hi) _ (List.getElem?_eq_getElem hi)
    · rw [hl2, hl]; simp [lrun]
    · rw [List.filter_append, ho, ho2]; simp

/-! ### examples -/

/-- `OneByOne` for one event -/
def crowdFree (s : LFSt) : Option LFEv → Bool
  | some (.turn w _) => !s.paused || s.waiters.all (· == w)
  | _ => true

instance (c : FlowCfg) (svc : Services) (reg : Registry) (evs : List LFEv) : Decidable (OneByOne c svc reg evs) :=
  decidable_of_iff (∀ n < evs.length, crowdFree (lfRun c svc reg (evs.take n)) evs[n]? = true)
    (by
      constructor
      · intro h n w k hn hp v hv
        have := h n (List.getElem?_eq_some_iff.1 hn).1
        rw [hn] at this
        simp only [crowdFree, hp, Bool.not_true, Bool.false_or, List.all_eq_true, beq_iff_eq] at this
        exact this v hv
      · intro h n _
        unfold crowdFree
        split
        · next w k e =>
          have := h n w k e
          cases hp : (lfRun c svc reg (evs.take n)).paused with
          | false => rfl
          | true => simpa using this hp
        · rfl)

instance (evs : List LFEv) : Decidable (LFKept evs) := by unfold LFKept; infer_instance

/-- small limits, so that the run can be computed; all waiters are kept -/
def exFlowMany : FlowCfg := ⟨60, 10, true⟩
/-- the same with a single waiter -/
def exFlowOne : FlowCfg := ⟨60, 10, false⟩

/-- the response fills the buffer, its task waits, the reader comes to refuse the next frame and waits too -/
def exCrowdBoth : List LFEv := exCrowdPre ++ exCrowdRet [7, 8] ++ [.turn (.task 0) 0, .turn .reader 0]

set_option maxRecDepth 40000 in
example : LFKept exCrowdBoth ∧
    (lfRun exFlowMany exServices exReg exCrowdBoth).waiters = [.task 0, .reader] ∧
    (lfRun exFlowMany exServices exReg exCrowdBoth).paused = true ∧
    (lfRun exFlowMany exServices exReg exCrowdBoth).l.wire = reply 3 0 [7, 8] := by decide +kernel

set_option maxRecDepth 40000 in
/-- when the socket has taken enough, the refusal is written too -/
example : let s := lfRun exFlowMany exServices exReg (exCrowdBoth ++ [.take 200, .turn .reader 50, .turn (.task 0) 0])
    s.dead = false ∧ s.l.settled ∧ s.l.closed = false ∧ s.l.wire = reply 3 0 [7, 8] ++ reply 77 8 [] := by decide +kernel

set_option maxRecDepth 40000 in
/-- with a single waiter the same schedule ends the reader -/
example : (lfRun exFlowOne exServices exReg exCrowdBoth).dead = true := by decide +kernel

/-- one by one: the reader comes when the socket has taken the response -/
def exOneByOne : List LFEv :=
  exCrowdPre ++ exCrowdRet [7, 8] ++ [.turn (.task 0) 0, .take 200, .turn .reader 50, .turn (.task 0) 0]

set_option maxRecDepth 40000 in
example : LFKept exOneByOne ∧ OneByOne exFlowOne exServices exReg exOneByOne ∧
    (lfRun exFlowOne exServices exReg (exOneByOne.take 14)).paused = true ∧
    (lfRun exFlowOne exServices exReg exOneByOne).l.wire = reply 3 0 [7, 8] ++ reply 77 8 [] := by decide +kernel

/-- two requests, both about to be answered -/
def exTwoAnswers : List LFEv :=
  [.ev (.data ((exReq 3 [1]).bytes ++ (exReq 4 [2]).bytes))] ++ List.replicate 8 (.turn .reader 0) ++
  [.ev (.run 0 (py "t")), .ev (.run 1 (py "u")), .ev (.futStart 0), .ev (.futStart 1),
   .ev (.futFinish 0 (.ret (.bytes [7]))), .ev (.futFinish 1 (.ret (.bytes [8]))), .ev (.result 0), .ev (.result 1)]

set_option maxRecDepth 40000 in
/-- the hypotheses of `C152_drops` -/
example : let s := lfRun exFlowOne exServices exReg exTwoAnswers
    (s.l.closed = false ∧ s.l.lost = false ∧ s.paused = false ∧ s.woken = [] ∧ s.waiters = [] ∧ s.buf = 0) ∧
    s.l.tasks.map Task.st = [.writing (reply 3 0 [7]), .writing (reply 4 0 [8])] ∧
    exFlowOne.high < (reply 3 0 [7]).length := by decide +kernel

end Bolt
