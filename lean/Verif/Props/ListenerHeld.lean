import Verif.Props.ListenerFlowWait
/-!
# C165: what the asyncio listener holds for a client that does not read
-/
namespace Bolt
open Spec

namespace Spec

/-- the message that a coroutine still has to write -/
def msgOf (s : LFSt) : LWho → Bytes
  | .task i => match s.l.tasks[i]? with
    | some t => match t.st with | .writing m => m | _ => []
    | none => []
  | .reader => if s.hold then [] else match s.l.tail with
    | .replying m | .closing (some m) => m
    | _ => []

/-- the bytes held for the client: those in the buffer of the transport and those of coroutines that back pressure has
suspended before their write -/
def held (s : LFSt) : Nat := s.buf + (s.waiters.map fun w => (msgOf s w).length).sum

/-- no message is longer than `L` -/
def LFShort (L : Nat) (s : LFSt) : Prop := (∀ x ∈ s.l.out, x.2.length ≤ L) ∧ ∀ w ∈ s.waiters, (msgOf s w).length ≤ L

end Spec

/-- C165 as listed, with the limits of asyncio -/
def C165_full : Prop :=
  ∀ c ∈ [flowOld, flowNew], ∀ L : Nat, ∃ B : Nat, ∀ (svc : Services) (reg : Registry) (evs : List LFEv),
    LFShort L (lfRun c svc reg evs) → held (lfRun c svc reg evs) ≤ B

/-! ## a client that sends heartbeats and reads nothing -/

/-- a heartbeat -/
def hbFrame : Bytes := [1, 1, 0, 0, 1, 0, 0, 0, 5, 11, 0, 0, 0, 0, 0, 0, 0, 0, 0, 0, 0, 0]

/-- the header of the heartbeat as the listener reads it -/
def hbHdr : ReqHdr := ⟨1, 0, 5, 0, 0, 0, 0⟩

set_option maxRecDepth 20000 in
theorem hbFrame_hdr : reqHdr hbFrame = .ok hbHdr := by decide +kernel

set_option maxRecDepth 20000 in
theorem hbFrame_msg : heartbeatMsg 5 = .ok (heartbeatAck 5) ∧ (heartbeatAck 5).length = 20 := by decide +kernel

/-- the heartbeat comes in and its answer comes to be written -/
def hbRound (n : Nat) : List LFEv :=
  [.ev (.data hbFrame), .turn .reader 0, .turn .reader 0, .turn .reader 0, .turn .reader 0, .turn (.task n) 0]

/-- the listener after `n` heartbeats -/
structure HbSt (n : Nat) (s : LFSt) : Prop where
  phase : s.l.rd.phase = .hdr
  inbuf : s.l.buf = []
  tail : s.l.tail = .reading
  eof : s.l.eof = false
  closed : s.l.closed = false
  lost : s.l.lost = false
  len : s.l.tasks.length = n
  msgs : ∀ t ∈ s.l.tasks, t.st = .ended ∨ t.st = .writing (heartbeatAck 5)
  out : ∀ x ∈ s.l.out, x.2 = heartbeatAck 5
  woken : s.woken = []
  hold : s.hold = false
  dead : s.dead = false
  wait : ∀ w ∈ s.waiters, ∃ i, i < n ∧ w = .task i
  free : s.paused = false → s.waiters = []
  held : Spec.held s = 20 * n

/-- the listener has read a heartbeat -/
def LSt.withHb (l : LSt) : LSt :=
  { l with recvd := l.recvd ++ hbFrame, rd := ⟨.hdr, some 5⟩, acts := l.acts ++ [.heartbeat 5],
           tasks := l.tasks ++ [{ kind := .heartbeat 5, st := .writing (heartbeatAck 5) }] }

theorem LSt.reads_hb (svc : Services) {l : LSt} (h1 : l.rd.phase = .hdr) (h2 : l.buf = []) (h3 : l.tail = .reading)
    (h4 : l.eof = false) : (lstep svc l (.data hbFrame)).reader.reader.reader.reader = l.withHb ∧
      (lstep svc l (.data hbFrame)).tail = .reading ∧ (lstep svc l (.data hbFrame)).reader.tail = .reading ∧
      (lstep svc l (.data hbFrame)).reader.reader.tail = .reading ∧
      (lstep svc l (.data hbFrame)).reader.reader.reader.tail = .reading := by
  obtain ⟨recvd, buf, eof, ⟨phase, last⟩, tail, acts, tasks, futs, out, closed, lost, now, heap, reg⟩ := l
  dsimp only at h1 h2 h3 h4
  subst h1 h2 h3 h4
  have e1 : readerIter ⟨.hdr, last⟩ hbFrame false = some (⟨.cls hbHdr, some 5⟩, [], none) := by
    unfold readerIter
    dsimp only
    rw [if_pos (show PkgClass.boltRequest.headerSize ≤ hbFrame.length by decide),
      show hbFrame.take PkgClass.boltRequest.headerSize = hbFrame by decide, hbFrame_hdr]
    rfl
  have e2 : readerIter ⟨.cls hbHdr, some 5⟩ [] false = some (⟨.shdr hbHdr [], some 5⟩, [], none) := by decide +kernel
  have e3 : readerIter ⟨.shdr hbHdr [], some 5⟩ [] false = some (⟨.body hbHdr [] [], some 5⟩, [], none) := by decide +kernel
  have e4 : readerIter ⟨.body hbHdr [] [], some 5⟩ [] false = some (⟨.hdr, some 5⟩, [], some (.heartbeat 5)) := by
    decide +kernel
  have s0 : lstep svc ⟨recvd, [], false, ⟨.hdr, last⟩, .reading, acts, tasks, futs, out, closed, lost, now, heap, reg⟩
      (.data hbFrame) = ⟨recvd ++ hbFrame, hbFrame, false, ⟨.hdr, last⟩, .reading, acts, tasks, futs, out, closed, lost, now, heap,
        reg⟩ := rfl
  rw [s0]
  have s1 : LSt.reader ⟨recvd ++ hbFrame, hbFrame, false, ⟨.hdr, last⟩, .reading, acts, tasks, futs, out, closed, lost, now, heap,
      reg⟩ = ⟨recvd ++ hbFrame, [], false, ⟨.cls hbHdr, some 5⟩, .reading, acts, tasks, futs, out, closed, lost, now, heap,
      reg⟩ := by
    unfold LSt.reader
    dsimp only
    rw [e1]
  rw [s1]
  have s2 : LSt.reader ⟨recvd ++ hbFrame, [], false, ⟨.cls hbHdr, some 5⟩, .reading, acts, tasks, futs, out, closed, lost, now,
      heap, reg⟩ = ⟨recvd ++ hbFrame, [], false, ⟨.shdr hbHdr [], some 5⟩, .reading, acts, tasks, futs, out, closed, lost, now,
      heap, reg⟩ := by
    unfold LSt.reader
    dsimp only
    rw [e2]
  rw [s2]
  have s3 : LSt.reader ⟨recvd ++ hbFrame, [], false, ⟨.shdr hbHdr [], some 5⟩, .reading, acts, tasks, futs, out, closed, lost, now,
      heap, reg⟩ = ⟨recvd ++ hbFrame, [], false, ⟨.body hbHdr [] [], some 5⟩, .reading, acts, tasks, futs, out, closed, lost, now,
      heap, reg⟩ := by
    unfold LSt.reader
    dsimp only
    rw [e3]
  rw [s3]
  refine ⟨?_, rfl, rfl, rfl, rfl⟩
  unfold LSt.reader
  dsimp only
  rw [e4]
  dsimp only [LSt.perform]
  rw [hbFrame_msg.1]
  rfl

theorem HbSt.step {c : FlowCfg} (hm : c.many = true) (svc : Services) {n : Nat} {s : LFSt} (h : HbSt n s) :
    HbSt (n + 1) ((hbRound n).foldl (lfStep c svc) s) := by
  -- the reader only runs
  have turn : ∀ l : LSt, l.tail = .reading → lfStep c svc { s with l := l } (.turn .reader 0) = { s with l := l.reader } := by
    intro l hl
    show LFSt.turnReader _ _ _ _ = _
    unfold LFSt.turnReader
    rw [if_neg (by rw [show _ = _ from h.dead]; simp), if_neg (by rw [show _ = _ from h.hold]; simp)]
    dsimp only
    rw [hl]
    rfl
  obtain ⟨hread, t0, t1, t2, t3⟩ := s.l.reads_hb svc h.phase h.inbuf h.tail h.eof
  have hall : (hbRound n).foldl (lfStep c svc) s = ({ s with l := s.l.withHb } : LFSt).turnTask c svc n 0 := by
    unfold hbRound
    simp only [List.foldl_cons, List.foldl_nil]
    have e0 : lfStep c svc s (.ev (.data hbFrame)) = { s with l := lstep svc s.l (.data hbFrame) } := rfl
    rw [e0, turn _ t0, turn _ t1, turn _ t2, turn _ t3, hread]
    rfl
  rw [hall]
  have hget : s.l.withHb.tasks[n]? = some { kind := .heartbeat 5, st := .writing (heartbeatAck 5) } := by
    show (s.l.tasks ++ [_])[n]? = _
    rw [List.getElem?_append_right (by rw [h.len]; exact Nat.le_refl _), h.len]
    simp
  have hlen : (s.l.tasks ++ [({ kind := .heartbeat 5, st := .writing (heartbeatAck 5) } : Task)]).length = n + 1 := by
    simp [h.len]
  have hmsgs : ∀ t ∈ s.l.withHb.tasks, t.st = .ended ∨ t.st = .writing (heartbeatAck 5) := by
    intro t ht
    rcases List.mem_append.1 ht with ht | ht
    · exact h.msgs t ht
    · rw [List.mem_singleton] at ht; subst ht; exact .inr rfl
  have hnew : LWho.task n ∉ s.waiters := by
    intro hx
    obtain ⟨i, hi, e⟩ := h.wait _ hx
    injection e with e
    omega
  have hold : ∀ w ∈ s.waiters, ∀ s' : LFSt, (∀ i, i < n → s'.l.tasks[i]? = s.l.withHb.tasks[i]?) → msgOf s' w = msgOf s w := by
    intro w hw s' hs'
    obtain ⟨i, hi, rfl⟩ := h.wait w hw
    unfold msgOf
    dsimp only
    rw [hs' i hi, show s.l.withHb.tasks[i]? = s.l.tasks[i]? from List.getElem?_append_left (by rw [h.len]; exact hi)]
  have hheld := h.held
  unfold LFSt.turnTask
  rw [show ({ s with l := s.l.withHb } : LFSt).l.tasks[n]? = _ from hget]
  dsimp only
  cases hp : s.paused with
  | true =>
    have hd : LFSt.drain c { s with l := s.l.withHb } (.task n) =
        ({ s with l := s.l.withHb, waiters := s.waiters ++ [.task n] }, none) := by
      unfold LFSt.drain
      simp only [h.woken, List.find?_nil, hnew, if_false, show s.l.withHb.lost = false from h.lost, Bool.false_eq_true, hp,
        if_true, hm, Bool.true_or]
    rw [hp] at hd
    rw [hd]
    dsimp only
    refine ⟨rfl, h.inbuf, h.tail, h.eof, h.closed, h.lost, hlen, hmsgs, h.out, h.woken, h.hold, h.dead, ?_, ?_, ?_⟩
    · intro w hw
      rcases List.mem_append.1 hw with hw | hw
      · obtain ⟨i, hi, e⟩ := h.wait w hw
        exact ⟨i, by omega, e⟩
      · exact ⟨n, by omega, by simpa using hw⟩
    · intro x; cases x
    · unfold Spec.held at hheld ⊢
      dsimp only
      have hcong : (s.waiters.map fun w => (msgOf ⟨s.l.withHb, s.buf, true, s.waiters ++ [.task n], s.woken, s.hold,
          s.dead⟩ w).length) = s.waiters.map fun w => (msgOf s w).length :=
        List.map_congr_left fun w hw => congrArg List.length (hold w hw _ fun _ _ => rfl)
      rw [List.map_append, List.sum_append, hcong]
      have : msgOf ⟨s.l.withHb, s.buf, true, s.waiters ++ [.task n], s.woken, s.hold, s.dead⟩ (.task n) = heartbeatAck 5 := by
        unfold msgOf
        dsimp only
        rw [hget]
      simp only [List.map_cons, List.map_nil, List.sum_cons, List.sum_nil, this, hbFrame_msg.2]
      omega
  | false =>
    have hw0 := h.free hp
    have hb0 : s.buf = 20 * n := by
      unfold Spec.held at hheld
      rw [hw0] at hheld
      simpa using hheld
    have hd : LFSt.drain c { s with l := s.l.withHb } (.task n) = ({ s with l := s.l.withHb }, some true) := by
      unfold LFSt.drain
      simp only [h.woken, List.find?_nil, hnew, if_false, show s.l.withHb.lost = false from h.lost, Bool.false_eq_true, hp]
    rw [hp] at hd
    rw [hd]
    dsimp only
    rw [if_neg (by rw [show s.l.withHb.closed = _ from h.closed]; simp)]
    have hb : LFSt.buffer c ⟨s.l.withHb, s.buf, false, s.waiters, s.woken, s.hold, s.dead⟩ (heartbeatAck 5).length 0 =
        ⟨s.l.withHb, s.buf + 20, decide (c.high < s.buf + 20), [], [], false, false⟩ := by
      unfold LFSt.buffer
      rw [if_neg (by rw [show s.l.withHb.closed = _ from h.closed]; simp)]
      simp only [hbFrame_msg.2, Nat.sub_zero, ite_self, Bool.false_or, hw0, h.woken, h.hold, h.dead]
      simp
    rw [hb]
    have hl2 : lstep svc s.l.withHb (.write n) = { s.l.withHb with
        out := s.l.out ++ [(.task n, heartbeatAck 5)],
        tasks := s.l.withHb.tasks.set n { kind := .heartbeat 5, st := .ended } } := by
      simp only [lstep, hget, LSt.write, show s.l.withHb.closed = _ from h.closed, Bool.false_eq_true, if_false, LSt.setTask]
      rfl
    dsimp only
    rw [hl2]
    have hout : ∀ x ∈ s.l.out ++ [(Origin.task n, heartbeatAck 5)], x.2 = heartbeatAck 5 := by
      intro x hx
      rcases List.mem_append.1 hx with hx | hx
      · exact h.out x hx
      · rw [List.mem_singleton] at hx; subst hx; rfl
    have hmsgs2 : ∀ t ∈ s.l.withHb.tasks.set n { kind := .heartbeat 5, st := .ended },
        t.st = .ended ∨ t.st = .writing (heartbeatAck 5) := by
      intro t ht
      rcases List.mem_or_eq_of_mem_set ht with ht | rfl
      · exact hmsgs t ht
      · exact .inl rfl
    have hlen2 : (s.l.withHb.tasks.set n { kind := .heartbeat 5, st := .ended }).length = n + 1 := by
      rw [List.length_set]; exact hlen
    have hself : (s.l.withHb.tasks.set n { kind := .heartbeat 5, st := .ended })[n]? =
        some { kind := .heartbeat 5, st := .ended } := List.getElem?_set_self (by rw [show s.l.withHb.tasks.length = _ from hlen]; omega)
    unfold LFSt.drain
    simp only [List.find?_nil, List.not_mem_nil, if_false, show s.l.withHb.lost = false from h.lost, Bool.false_eq_true,
      decide_eq_true_eq, List.isEmpty_nil, Bool.or_true, if_true, List.nil_append]
    split
    · refine ⟨rfl, h.inbuf, h.tail, h.eof, h.closed, rfl, hlen2, hmsgs2, hout, rfl, rfl, rfl, ?_, ?_, ?_⟩
      · intro w hw
        exact ⟨n, by omega, by simpa using hw⟩
      · next hgt => intro x; simp at x; omega
      · unfold Spec.held msgOf
        simp only [List.map_cons, List.map_nil, List.sum_cons, List.sum_nil, hself, List.length_nil]
        omega
    · refine ⟨rfl, h.inbuf, h.tail, h.eof, h.closed, rfl, hlen2, hmsgs2, hout, rfl, rfl, rfl, fun _ x => (by cases x),
        fun _ => rfl, ?_⟩
      unfold Spec.held
      simp only [List.map_nil, List.sum_nil]
      omega

/-- the schedule of a client that sends `n` heartbeats and reads nothing -/
def hbFlood : Nat → List LFEv
  | 0 => []
  | n + 1 => hbFlood n ++ hbRound n

theorem hbFlood_held {c : FlowCfg} (hm : c.many = true) (svc : Services) (reg : Registry) (n : Nat) :
    HbSt n (lfRun c svc reg (hbFlood n)) := by
  induction n with
  | zero =>
    exact ⟨rfl, rfl, rfl, rfl, rfl, rfl, rfl, fun _ x => (by cases x), fun _ x => (by cases x), rfl, rfl, rfl,
      fun _ x => (by cases x), fun _ => rfl, rfl⟩
  | succ n ih =>
    show HbSt (n + 1) (lfRun c svc reg (hbFlood n ++ hbRound n))
    rw [lfRun, List.foldl_append]
    exact ih.step hm svc

/-- Where a protocol keeps all its waiters (Python from 3.10 on), a client that sends small requests and reads nothing makes
the listener hold as much as it likes: the reader goes on reading while the responses wait. -/
theorem C165_flood (c : FlowCfg) (hm : c.many = true) (svc : Services) (reg : Registry) (n : Nat) :
    LFShort 20 (lfRun c svc reg (hbFlood n)) ∧ held (lfRun c svc reg (hbFlood n)) = 20 * n := by
  have h := hbFlood_held hm svc reg n
  refine ⟨⟨fun x hx => ?_, fun w hw => ?_⟩, h.held⟩
  · rw [h.out x hx, hbFrame_msg.2]; exact Nat.le_refl _
  · obtain ⟨i, hi, rfl⟩ := h.wait w hw
    unfold msgOf
    dsimp only
    split
    · next t ht =>
      split
      · next m hm' =>
        rcases h.msgs t (List.mem_of_getElem? ht) with e | e
        · rw [e] at hm'; cases hm'
        · rw [e] at hm'; injection hm' with e'; rw [← e', hbFrame_msg.2]; exact Nat.le_refl _
      · exact Nat.zero_le _
    · exact Nat.zero_le _

theorem C165_violated : ¬ C165_full := by
  intro h
  obtain ⟨B, hB⟩ := h flowNew (by simp) 20
  have h1 := C165_flood flowNew rfl exServices exReg (B + 1)
  have h2 := hB exServices exReg _ h1.1
  rw [h1.2] at h2
  omega

/-! ## a single waiter -/

/-- the coroutine has nothing to write any more -/
def LFDone (s : LFSt) : LWho → Prop
  | .task i => ∃ t, s.l.tasks[i]? = some t ∧ t.st = .ended
  | .reader => s.hold = true

/-- With a single waiter: the one who has filled the buffer waits, after its write; everyone else is refused. -/
structure LFSingle (c : FlowCfg) (L : Nat) (s : LFSt) : Prop where
  lost : s.l.lost = true → s.l.closed = true
  paused : s.l.closed = false → s.paused = true → s.waiters ≠ []
  done : s.l.closed = false → ∀ w, (w ∈ s.waiters ∨ ∃ b, (w, b) ∈ s.woken) → LFDone s w
  one : s.waiters.length ≤ 1
  bound : (∀ x ∈ s.l.out, x.2.length ≤ L) → s.buf ≤ c.high + L

theorem LFSt.drain_one {c : FlowCfg} (hm : c.many = false) {s : LFSt} (h : s.waiters.length ≤ 1) (w : LWho) :
    (s.drain c w).1.waiters.length ≤ 1 := by
  unfold LFSt.drain
  repeat' split
  all_goals first
    | exact h
    | skip
  next hx =>
    rw [hm, Bool.false_or, List.isEmpty_iff] at hx
    simp [hx]

/-- a coroutine that has not been waiting comes to a `drain` of an open connection -/
theorem LFSingle.drain {c : FlowCfg} {L : Nat} (hm : c.many = false) {s : LFSt} (h : LFSingle c L s) (ho : s.l.closed = false)
    {w : LWho} (hw : ¬ LFDone s w) :
    (s.paused = true ∧ s.drain c w = (s, some false)) ∨ (s.paused = false ∧ s.drain c w = (s, some true)) := by
  have hl : s.l.lost = false := by
    cases hx : s.l.lost with
    | false => rfl
    | true => rw [h.lost hx] at ho; cases ho
  have h1 : s.woken.find? (fun x => x.1 == w) = none := by
    rw [List.find?_eq_none]
    intro x hx e
    have e : x.1 = w := by simpa using e
    exact hw (h.done ho w (.inr ⟨x.2, by rw [← e]; exact hx⟩))
  have h2 : w ∉ s.waiters := fun hx => hw (h.done ho w (.inl hx))
  unfold LFSt.drain
  rw [h1]
  simp only [h2, if_false, hl, Bool.false_eq_true, hm, Bool.false_or]
  cases hp : s.paused with
  | false => exact .inr ⟨rfl, by simp⟩
  | true =>
    refine .inl ⟨rfl, ?_⟩
    cases hx : s.waiters with
    | nil => exact absurd hx (h.paused ho hp)
    | cons a l => simp

theorem LFSingle.turnTask {c : FlowCfg} {L : Nat} (hm : c.many = false) {svc : Services} {s : LFSt} (hf : LFlow c s)
    (h : LFSingle c L s) (i k : Nat) : LFSingle c L (s.turnTask c svc i k) := by
  have hfr := s.turnTask_frame c svc i k
  cases hcl : s.l.closed with
  | true =>
    -- nothing is buffered any more
    have hcl' : (s.turnTask c svc i k).l.closed = true := hfr.1.1.trans hcl
    refine ⟨fun _ => hcl', fun x => (by rw [hcl'] at x; cases x), fun x => (by rw [hcl'] at x; cases x), ?_, ?_⟩
    · unfold LFSt.turnTask
      repeat' split
      · exact h.one
      all_goals first
        | exact h.one
        | skip
      · next e => have := s.drain_one (c := c) hm h.one (.task i); rw [e] at this; exact this
      · next e => have := s.drain_one (c := c) hm h.one (.task i); rw [e] at this; exact this
      · next s1 e _ =>
        have := s.drain_one (c := c) hm h.one (.task i)
        rw [e] at this
        have bf := s1.buffer_frame c
        dsimp only
        rw [(bf _ k).2.1]; exact this
      · next s1 e hx =>
        have := (s.drain_frame c (.task i)).1
        rw [e] at this
        rw [show s1.l = _ from this, hcl] at hx
        exact absurd rfl hx
    · intro ho
      have hb : (s.turnTask c svc i k).buf = s.buf ∧ (s.turnTask c svc i k).l.out = s.l.out := by
        unfold LFSt.turnTask
        split
        · exact ⟨rfl, rfl⟩
        · next t ht =>
          split
          · next m hmm =>
            have df := s.drain_frame c (.task i)
            rcases hres : s.drain c (.task i) with ⟨s1, o⟩
            rw [hres] at df
            dsimp only at df
            rcases o with - | - | -
            · exact ⟨df.2.2.1, by dsimp only; rw [df.1]⟩
            · exact ⟨df.2.2.1, by dsimp only [LSt.setTask]; rw [df.1]⟩
            · dsimp only
              rw [if_pos (by rw [df.1]; exact hcl)]
              constructor
              · unfold LFSt.buffer
                rw [if_pos (by rw [df.1]; exact hcl)]
                exact df.2.2.1
              · dsimp only
                rw [df.1]
                simp only [lstep, ht, hmm, LSt.write, hcl, if_true, LSt.setTask]
          · exact ⟨rfl, rfl⟩
      rw [hb.1]
      exact h.bound (by rw [← hb.2]; exact ho)
  | false =>
    have hl : s.l.lost = false := by
      cases hx : s.l.lost with
      | false => rfl
      | true => rw [h.lost hx] at hcl; cases hcl
    unfold LFSt.turnTask
    split
    · exact h
    · next t ht =>
      have hlt : i < s.l.tasks.length := (List.getElem?_eq_some_iff.1 ht).1
      split
      · next m hmm =>
        have hnd : ¬ LFDone s (.task i) := by
          rintro ⟨t', h1, h2⟩
          rw [ht] at h1
          injection h1 with h1
          rw [← h1, hmm] at h2; cases h2
        -- who was done is still done
        have keep : ∀ (s' : LFSt) (u : Task), s'.l.tasks = s.l.tasks.set i u → u.st = .ended → s'.hold = s.hold →
            ∀ w, LFDone s w ∨ w = .task i → LFDone s' w := by
          intro s' u h1 h2 h3 w hw
          cases w with
          | reader =>
            have : LFDone s .reader := hw.resolve_right (by simp)
            exact h3.trans this
          | task j =>
            by_cases e : j = i
            · subst e
              exact ⟨u, by rw [h1, List.getElem?_set_self hlt], h2⟩
            · obtain ⟨t', h4, h5⟩ := hw.resolve_right (by simpa using e)
              exact ⟨t', by rw [h1, List.getElem?_set_ne (Ne.symm e)]; exact h4, h5⟩
        rcases h.drain hm hcl hnd with ⟨hp, hd⟩ | ⟨hp, hd⟩
        · rw [hd]
          dsimp only
          exact ⟨h.lost, h.paused, fun ho w hw => keep { s with l := s.l.setTask i { t with st := .ended } } { t with st := .ended } rfl rfl rfl w
            (.inl (h.done ho w hw)), h.one,
            h.bound⟩
        · rw [hd]
          dsimp only
          rw [if_neg (by rw [hcl]; simp)]
          have hw0 : s.waiters = [] := by
            cases hx : s.waiters with
            | nil => rfl
            | cons a l => have := (hf.wait (by simp [hx])).2; rw [hp] at this; cases this
          have htk : (lstep svc s.l (.write i)).tasks = s.l.tasks.set i { t with st := .ended } := by
            simp only [lstep, ht, hmm, LSt.write, LSt.setTask]
            split <;> rfl
          have wf := lstep_write_frame svc s.l i
          have hout : (lstep svc s.l (.write i)).out = s.l.out ++ [(.task i, m)] := by
            simp [lstep, ht, hmm, LSt.write, hcl, LSt.setTask]
          have bf := s.buffer_frame c m.length k
          obtain ⟨got, -, hb⟩ := s.buffer_bytes c m.length k
          rw [hcl] at hb
          simp only [Bool.false_eq_true, if_false] at hb
          have hhigh := hf.high hl hp
          have hbound : (∀ x ∈ (lstep svc s.l (.write i)).out, x.2.length ≤ L) → (s.buffer c m.length k).buf ≤ c.high + L := by
            intro hx
            have := hx (.task i, m) (by rw [hout]; simp)
            dsimp only at this
            omega
          have hdone : ∀ (s' : LFSt), s'.l = lstep svc s.l (.write i) → s'.hold = s.hold → (∀ x, x ∈ s'.woken → x ∈ s.woken) →
              (∀ x ∈ s'.waiters, x = .task i) → ∀ w, (w ∈ s'.waiters ∨ ∃ b, (w, b) ∈ s'.woken) → LFDone s' w := by
            intro s' e1 e2 e3 e4 w hw
            refine keep s' { t with st := .ended } (by rw [e1]; exact htk) rfl e2 w ?_
            rcases hw with hw | ⟨b, hw⟩
            · exact .inr (e4 w hw)
            · exact .inl (h.done hcl w (.inr ⟨b, e3 _ hw⟩))
          generalize hs2 : ({ s.buffer c m.length k with l := lstep svc s.l (.write i) } : LFSt) = s2
          have g1 : s2.l = lstep svc s.l (.write i) := by rw [← hs2]
          have g2 : s2.waiters = [] := by rw [← hs2]; exact bf.2.1.trans hw0
          have g3 : s2.woken = s.woken := by rw [← hs2]; exact bf.2.2.1
          have g4 : s2.hold = s.hold := by rw [← hs2]; exact bf.2.2.2.1
          have g5 : s2.buf = (s.buffer c m.length k).buf := by rw [← hs2]
          have g6 : s2.l.lost = false := by rw [g1, wf.1]; exact hl
          have g7 : s2.woken.find? (fun x => x.1 == .task i) = none := by
            rw [List.find?_eq_none]
            intro x hx e
            have e : x.1 = .task i := by simpa using e
            exact hnd (h.done hcl (.task i) (.inr ⟨x.2, by rw [← e]; rw [g3] at hx; exact hx⟩))
          have hd2 : s2.drain c (.task i) = if s2.paused then ({ s2 with waiters := [.task i] }, none) else (s2, some true) := by
            unfold LFSt.drain
            rw [g7]
            simp only [g2, List.not_mem_nil, if_false, g6, Bool.false_eq_true, List.isEmpty_nil, Bool.or_true, if_true,
              List.nil_append]
          rw [hd2]
          cases hp2 : s2.paused with
          | true =>
            simp only [if_true]
            refine ⟨fun x => (by rw [show s2.l.lost = _ from g6] at x; cases x), fun _ _ => by simp, fun _ => ?_, by simp, ?_⟩
            · refine hdone _ g1 g4 (fun x hx => by rw [← g3]; exact hx) fun x hx => by simpa using hx
            · intro hx
              show s2.buf ≤ _
              rw [g5]
              exact hbound (by rw [← g1]; exact hx)
          | false =>
            simp only [Bool.false_eq_true, if_false]
            refine ⟨fun x => (by rw [show s2.l.lost = _ from g6] at x; cases x), fun _ x => (by rw [hp2] at x; cases x),
              fun _ => ?_, by rw [g2]; simp, ?_⟩
            · refine hdone _ g1 g4 (fun x hx => by rw [← g3]; exact hx) fun x hx => ?_
              rw [g2] at hx; cases hx
            · intro hx
              rw [g5]
              exact hbound (by rw [← g1]; exact hx)
      · refine ⟨h.lost, h.paused, fun ho w hw => ?_, h.one, h.bound⟩
        refine h.done ho w (hw.imp id ?_)
        rintro ⟨b, hb⟩
        exact ⟨b, (List.mem_filter.1 hb).1⟩

theorem LSt.reader_reading_frame {l : LSt} (h : l.tail = .reading) : l.reader.closed = l.closed ∧ l.reader.out = l.out := by
  unfold LSt.reader LSt.perform
  rw [h]
  dsimp only
  repeat' (first | split | exact ⟨rfl, rfl⟩ | dsimp only)

theorem LFSingle.turnReader {c : FlowCfg} {L : Nat} (hm : c.many = false) {svc : Services} {s : LFSt} (hf : LFlow c s)
    (h : LFSingle c L s) (k : Nat) : LFSingle c L (s.turnReader c svc k) := by
  have df := s.drain_frame c .reader
  have done1 := s.drain_one (c := c) hm h.one .reader
  have dflow := hf.drain .reader
  unfold LFSt.turnReader
  split
  · exact h
  next hdd =>
  have hdd : s.dead = false := by simpa using hdd
  cases hcl : s.l.closed with
  | true =>
    -- nothing is buffered any more
    have mk : ∀ s' : LFSt, s'.l.closed = true → s'.waiters.length ≤ 1 → s'.buf = s.buf → s'.l.out = s.l.out →
        LFSingle c L s' := by
      intro s' h1 h2 h3 h4
      exact ⟨fun _ => h1, fun x => (by rw [h1] at x; cases x), fun x => (by rw [h1] at x; cases x), h2,
        fun x => by rw [h3]; exact h.bound (by rw [← h4]; exact x)⟩
    have hb : ∀ (s1 : LFSt) (n : Nat), s1.l = s.l → s1.buffer c n k = s1 := by
      intro s1 n e
      unfold LFSt.buffer
      rw [if_pos (by rw [e]; exact hcl)]
    have hrc : s.l.reader.closed = true ∧ s.l.reader.out = s.l.out := by
      cases ht : s.l.tail with
      | reading => have := LSt.reader_reading_frame ht; exact ⟨this.1.trans hcl, this.2⟩
      | replying m =>
        unfold LSt.reader LSt.write
        rw [ht]
        dsimp only
        rw [if_pos hcl]
        exact ⟨hcl, rfl⟩
      | closing m =>
        unfold LSt.reader LSt.write
        rw [ht]
        cases m <;> dsimp only
        · exact ⟨rfl, rfl⟩
        · rw [if_pos hcl]; exact ⟨rfl, rfl⟩
    rcases hres : s.drain c .reader with ⟨s1, o⟩
    rw [hres] at df done1
    dsimp only at df done1
    have e1 : s1.l.closed = true := by rw [df.1]; exact hcl
    have e2 : s1.l.out = s.l.out := by rw [df.1]
    split
    · rcases o with - | - | -
      · exact mk _ e1 done1 df.2.2.1 e2
      · exact mk _ e1 done1 df.2.2.1 e2
      · exact mk _ e1 done1 df.2.2.1 e2
    · split
      · exact mk _ hrc.1 h.one rfl hrc.2
      · next m ht =>
        rcases o with - | - | -
        · exact mk _ e1 done1 df.2.2.1 e2
        · exact mk _ e1 done1 df.2.2.1 e2
        · dsimp only
          rw [hb s1 _ df.1]
          have df3 := LFSt.drain_frame c { s1 with l := lstep svc s1.l .reader } .reader
          have one3 := LFSt.drain_one (c := c) (s := { s1 with l := lstep svc s1.l .reader }) hm done1 .reader
          rcases hres3 : LFSt.drain c { s1 with l := lstep svc s1.l .reader } .reader with ⟨s3, o3⟩
          rw [hres3] at df3 one3
          dsimp only at df3 one3
          have e3 : s3.l = s.l.reader := by rw [df3.1, df.1]; rfl
          rcases o3 with - | - | -
          · exact mk _ (by rw [show _ = _ from e3]; exact hrc.1) one3 (df3.2.2.1.trans df.2.2.1) (by rw [show _ = _ from e3]; exact hrc.2)
          · exact mk _ (by show s3.l.closed = true; rw [e3]; exact hrc.1) one3 (df3.2.2.1.trans df.2.2.1)
              (by show s3.l.out = _; rw [e3]; exact hrc.2)
          · exact mk _ (by rw [show _ = _ from e3]; exact hrc.1) one3 (df3.2.2.1.trans df.2.2.1) (by rw [show _ = _ from e3]; exact hrc.2)
      · next m ht =>
        rcases o with - | - | -
        · exact mk _ e1 done1 df.2.2.1 e2
        · exact mk _ rfl done1 df.2.2.1 (by show s1.l.out = _; exact e2)
        · dsimp only
          rw [hb s1 _ df.1]
          exact mk _ (by show s1.l.reader.closed = true; rw [df.1]; exact hrc.1) done1 df.2.2.1
            (by show s1.l.reader.out = _; rw [df.1]; exact hrc.2)
  | false =>
    have hl : s.l.lost = false := by
      cases hx : s.l.lost with
      | false => rfl
      | true => rw [h.lost hx] at hcl; cases hcl
    split
    · next hh =>
      -- the reader goes on after its write
      rcases hres : s.drain c .reader with ⟨s1, o⟩
      have hwk : ∀ x ∈ s1.woken, x ∈ s.woken := by
        have : s1 = (s.drain c .reader).1 := by rw [hres]
        intro x hx
        rw [this] at hx
        revert hx
        unfold LFSt.drain
        repeat' split
        all_goals first
          | exact id
          | exact fun hx => (List.mem_filter.1 hx).1
      have hgone : o ≠ none → ∀ b, (LWho.reader, b) ∉ s1.woken := by
        have e1 : s1 = (s.drain c .reader).1 := by rw [hres]
        have e2 : o = (s.drain c .reader).2 := by rw [hres]
        intro _ b hb
        rw [e1] at hb
        revert hb
        unfold LFSt.drain
        split
        · next x hx =>
          intro hb
          have := (List.mem_filter.1 hb).2
          simp at this
        · next hx =>
          have hx : ∀ y ∈ s.woken, y.1 ≠ .reader := by
            intro y hy
            simpa using (List.find?_eq_none.1 hx) y hy
          repeat' split
          all_goals exact fun hb => hx _ hb rfl
      rw [hres] at df done1 dflow
      dsimp only at df done1 dflow
      have tasks : ∀ s' : LFSt, s'.l.tasks = s.l.tasks → (∀ w, w ∈ s'.waiters ∨ (∃ b, (w, b) ∈ s'.woken) →
          w ∈ s1.waiters ∨ ∃ b, (w, b) ∈ s1.woken) → ((.reader ∈ s1.waiters ∨ ∃ b, (.reader, b) ∈ s1.woken) → s'.hold = true) →
          ∀ w, (w ∈ s'.waiters ∨ ∃ b, (w, b) ∈ s'.woken) → LFDone s' w := by
        intro s' e1 e2 e3 w hw
        cases w with
        | reader => exact e3 (e2 _ hw)
        | task j =>
          have hw : LWho.task j ∈ s.waiters ∨ ∃ b, (LWho.task j, b) ∈ s.woken := by
            rcases e2 _ hw with hw | ⟨b, hw⟩
            · exact .inl ((dflow.2.2 _ hw).resolve_right (by simp))
            · exact .inr ⟨b, hwk _ hw⟩
          obtain ⟨t, h1, h2⟩ := h.done hcl _ hw
          exact ⟨t, by rw [e1]; exact h1, h2⟩
      have hp1 : ∀ s' : LFSt, s'.paused = s1.paused → s'.waiters = s1.waiters → s'.paused = true → s'.waiters ≠ [] := by
        intro s' e1 e2 e3
        rw [e2]
        rw [e1, df.2.1] at e3
        have := h.paused hcl e3
        have e4 : s1 = (s.drain c .reader).1 := by rw [hres]
        rw [e4]
        unfold LFSt.drain
        repeat' split
        all_goals first
          | exact this
          | simp
      have hbd : (∀ x ∈ s1.l.out, x.2.length ≤ L) → s1.buf ≤ c.high + L := by
        rw [df.1, df.2.2.1]; exact h.bound
      have hlost : s1.l.lost = true → s1.l.closed = true := by rw [df.1]; exact h.lost
      rcases o with - | - | -
      · exact ⟨hlost, fun _ => hp1 _ rfl rfl, fun _ => tasks _ (by rw [df.1]) (fun _ => id) fun _ => df.2.2.2.1.trans hh, done1, hbd⟩
      · refine ⟨hlost, fun _ => hp1 _ rfl rfl, fun _ => tasks _ (by show s1.l.tasks = _; rw [df.1]) (fun _ => id) ?_, done1, hbd⟩
        rintro (x | ⟨b, x⟩)
        · exact absurd x (dflow.2.1 (by simp))
        · exact absurd x (hgone (by simp) b)
      · refine ⟨hlost, fun _ => hp1 _ rfl rfl, fun _ => tasks _ (by show s1.l.tasks = _; rw [df.1]) (fun _ => id) ?_, done1, hbd⟩
        rintro (x | ⟨b, x⟩)
        · exact absurd x (dflow.2.1 (by simp))
        · exact absurd x (hgone (by simp) b)
    · next hh =>
      have hh : s.hold = false := by simpa using hh
      have hnd : ¬ LFDone s .reader := fun x => by
        have x : s.hold = true := x
        rw [hh] at x; cases x
      have hnw : ∀ b, (LWho.reader, b) ∉ s.woken := fun b x => hnd (h.done hcl _ (.inr ⟨b, x⟩))
      have hnq : LWho.reader ∉ s.waiters := fun x => hnd (h.done hcl _ (.inl x))
      -- tasks that are done stay so
      have tasks : ∀ s' : LFSt, (∀ (j : Nat) (t : Task), s.l.tasks[j]? = some t → s'.l.tasks[j]? = some t) → s'.woken = s.woken →
          (∀ w ∈ s'.waiters, w ∈ s.waiters ∨ w = .reader) → (.reader ∈ s'.waiters → s'.hold = true) →
          ∀ w, (w ∈ s'.waiters ∨ ∃ b, (w, b) ∈ s'.woken) → LFDone s' w := by
        intro s' e1 e2 e3 e4 w hw
        cases w with
        | reader =>
          rcases hw with hw | ⟨b, hw⟩
          · exact e4 hw
          · rw [e2] at hw; exact absurd hw (hnw b)
        | task j =>
          have hw : LWho.task j ∈ s.waiters ∨ ∃ b, (LWho.task j, b) ∈ s.woken := by
            rcases hw with hw | ⟨b, hw⟩
            · exact .inl ((e3 _ hw).resolve_right (by simp))
            · exact .inr ⟨b, by rw [← e2]; exact hw⟩
          obtain ⟨t, h1, h2⟩ := h.done hcl _ hw
          exact ⟨t, e1 j t h1, h2⟩
      split
      · next ht =>
        have rf := LSt.reader_reading_frame ht
        refine ⟨?_, ?_, ?_, h.one, ?_⟩
        · show s.l.reader.lost = true → _
          rw [LSt.reader_lost, hl]; intro x; cases x
        · intro _; exact h.paused hcl
        · intro _
          exact tasks _ (fun j t x => LSt.reader_tasks _ j t x) rfl (fun _ => .inl) fun x => absurd x hnq
        · show (∀ x ∈ s.l.reader.out, _) → _
          rw [rf.2]; exact h.bound
      · next m ht =>
        rcases h.drain hm hcl hnd with ⟨hp, hd⟩ | ⟨hp, hd⟩
        · rw [hd]
          exact ⟨h.lost, h.paused, fun _ => tasks s.die (fun _ _ => id) rfl (fun _ => .inl) fun x => absurd x hnq, h.one, h.bound⟩
        · rw [hd]
          dsimp only
          have hw0 : s.waiters = [] := by
            cases hx : s.waiters with
            | nil => rfl
            | cons a l => have := (hf.wait (by simp [hx])).2; rw [hp] at this; cases this
          have bf := s.buffer_frame c m.length k
          obtain ⟨got, -, hb⟩ := s.buffer_bytes c m.length k
          rw [hcl] at hb
          simp only [Bool.false_eq_true, if_false] at hb
          have hhigh := hf.high hl hp
          have hout : (lstep svc s.l .reader).out = s.l.out ++ [(.reader (s.l.acts.length - 1), m)] := by
            show s.l.reader.out = _
            unfold LSt.reader LSt.write
            rw [ht]
            dsimp only
            rw [if_neg (by rw [hcl]; simp)]
          have hbound : (∀ x ∈ (lstep svc s.l .reader).out, x.2.length ≤ L) → (s.buffer c m.length k).buf ≤ c.high + L := by
            intro hx
            have := hx (.reader (s.l.acts.length - 1), m) (by rw [hout]; simp)
            dsimp only at this
            omega
          generalize hs2 : ({ s.buffer c m.length k with l := lstep svc s.l .reader } : LFSt) = s2
          have g1 : s2.l = lstep svc s.l .reader := by rw [← hs2]
          have g2 : s2.waiters = [] := by rw [← hs2]; exact bf.2.1.trans hw0
          have g3 : s2.woken = s.woken := by rw [← hs2]; exact bf.2.2.1
          have g5 : s2.buf = (s.buffer c m.length k).buf := by rw [← hs2]
          have g6 : s2.l.lost = false := by rw [g1]; show s.l.reader.lost = false; rw [LSt.reader_lost]; exact hl
          have g7 : s2.woken.find? (fun x => x.1 == .reader) = none := by
            rw [List.find?_eq_none]
            intro x hx e
            have e : x.1 = .reader := by simpa using e
            exact hnw x.2 (by rw [← e, ← g3]; exact hx)
          have g8 : ∀ (j : Nat) (t : Task), s.l.tasks[j]? = some t → s2.l.tasks[j]? = some t := fun j t x => by
            rw [g1]; exact LSt.reader_tasks _ j t x
          have hd2 : s2.drain c .reader = if s2.paused then ({ s2 with waiters := [.reader] }, none) else (s2, some true) := by
            unfold LFSt.drain
            rw [g7]
            simp only [g2, List.not_mem_nil, if_false, g6, Bool.false_eq_true, List.isEmpty_nil, Bool.or_true, if_true,
              List.nil_append]
          rw [hd2]
          cases hp2 : s2.paused with
          | true =>
            simp only [if_true]
            refine ⟨fun x => (by rw [show s2.l.lost = _ from g6] at x; cases x), fun _ _ => by simp, fun _ => ?_, by simp, ?_⟩
            · exact tasks _ g8 g3 (fun x hx => .inr (by simpa using hx)) fun _ => rfl
            · intro hx
              show s2.buf ≤ _
              rw [g5]
              exact hbound (by rw [← g1]; exact hx)
          | false =>
            simp only [Bool.false_eq_true, if_false]
            refine ⟨fun x => (by rw [show s2.l.lost = _ from g6] at x; cases x), fun _ x => (by rw [hp2] at x; cases x),
              fun _ => ?_, by rw [g2]; simp, ?_⟩
            · exact tasks _ g8 g3 (fun x hx => by rw [g2] at hx; cases hx) fun hx => by rw [g2] at hx; cases hx
            · intro hx
              rw [g5]
              exact hbound (by rw [← g1]; exact hx)
      · next m ht =>
        have hclosed : ∀ l : LSt, l.tail = .closing m ∨ l.tail = .closing none → l.reader.closed = true := by
          intro l e
          unfold LSt.reader
          rcases e with e | e <;> rw [e]
          · cases m <;> rfl
        rcases h.drain hm hcl hnd with ⟨hp, hd⟩ | ⟨hp, hd⟩
        · rw [hd]
          dsimp only
          have hx : ({ s with l := lstep svc { s.l with tail := .closing none } .reader } : LFSt).l.closed = true := rfl
          exact ⟨fun _ => hx, fun x => (by rw [hx] at x; cases x), fun x => (by rw [hx] at x; cases x), h.one, h.bound⟩
        · rw [hd]
          dsimp only
          have bf := s.buffer_frame c ((m.map List.length).getD 0) k
          obtain ⟨got, -, hb⟩ := s.buffer_bytes c ((m.map List.length).getD 0) k
          rw [hcl] at hb
          simp only [Bool.false_eq_true, if_false] at hb
          have hhigh := hf.high hl hp
          have hx : (lstep svc s.l .reader).closed = true := hclosed s.l (.inl ht)
          refine ⟨fun _ => hx, fun x => (by rw [show _ = _ from hx] at x; cases x), fun x => (by rw [show _ = _ from hx] at x; cases x),
            by rw [show _ = _ from bf.2.1]; exact h.one, ?_⟩
          intro ho
          show (s.buffer c _ k).buf ≤ _
          cases m with
          | none => simp only [Option.map_none, Option.getD_none] at hb ⊢; omega
          | some m =>
            have hout : (lstep svc s.l .reader).out = s.l.out ++ [(.reader (s.l.acts.length - 1), m)] := by
              show s.l.reader.out = _
              unfold LSt.reader LSt.write
              rw [ht]
              dsimp only
              rw [if_neg (by rw [hcl]; simp)]
            have := ho (.reader (s.l.acts.length - 1), m) (by rw [show _ = _ from hout]; simp)
            dsimp only at this
            simp only [Option.map_some, Option.getD_some] at hb ⊢
            omega

theorem LFSingle.step {c : FlowCfg} {L : Nat} (hm : c.many = false) {svc : Services} {s : LFSt} (hf : LFlow c s)
    (h : LFSingle c L s) (e : LFEv) : LFSingle c L (lfStep c svc s e) := by
  cases e with
  | ev e =>
    unfold lfStep
    dsimp only
    split
    · next he =>
      have a := lstep_outside svc s.l e he
      refine ⟨by rw [show _ = _ from a.1, show _ = _ from a.2.2]; exact h.lost, by rw [show _ = _ from a.2.2]; exact h.paused, ?_, h.one,
        by rw [show _ = _ from lstep_outside_wire svc s.l e he]; exact h.bound⟩
      rw [show _ = _ from a.2.2]
      intro ho w hw
      have := h.done ho w hw
      cases w with
      | reader => exact this
      | task j =>
        obtain ⟨t, h1, h2⟩ := this
        exact ⟨t, lstep_outside_writes svc s.l e he j t h1 (by rw [h2]; trivial), h2⟩
    · exact h
  | turn w k =>
    cases w with
    | task i => exact h.turnTask hm hf i k
    | reader => exact h.turnReader hm hf k
  | take k =>
    unfold lfStep
    dsimp only
    split
    · exact h
    · split
      · refine ⟨h.lost, fun _ x => (by cases x), fun ho w hw => ?_, by simp, fun x => ?_⟩
        · have hw : w ∈ s.waiters ∨ ∃ b, (w, b) ∈ s.woken := by
            rcases hw with hw | ⟨b, hw⟩
            · cases hw
            · rcases List.mem_append.1 hw with hw | hw
              · exact .inr ⟨b, hw⟩
              · obtain ⟨v, hv, e⟩ := List.mem_map.1 hw
                injection e with e _
                exact .inl (e ▸ hv)
          exact h.done ho w hw
        · have := h.bound x
          dsimp only; omega
      · refine ⟨h.lost, h.paused, h.done, h.one, fun x => ?_⟩
        have := h.bound x
        dsimp only; omega
  | reset =>
    exact ⟨fun _ => rfl, fun x => (by cases x), fun x => (by cases x), by simp [lfStep], fun _ => Nat.zero_le _⟩

theorem LFSingle.run {c : FlowCfg} (hc : c.low ≤ c.high) (hm : c.many = false) (L : Nat) (svc : Services) (reg : Registry)
    (evs : List LFEv) : LFSingle c L (lfRun c svc reg evs) := by
  induction evs using snoc_induct with
  | nil =>
    exact ⟨fun x => (by cases x), fun _ x => (by cases x), fun _ w hw => (by
      rcases hw with x | ⟨_, x⟩ <;> cases x), Nat.zero_le _, fun _ => Nat.zero_le _⟩
  | snoc evs e ih => rw [lfRun_snoc]; exact ih.step hm (LFlow.run hc svc reg evs).1 e

/-- C165, what holds: where the protocol has room for one waiter (Python 3.5-3.7), not more than the high limit and two
messages are held, one of them only after the connection has been closed. Missing for C165: later versions, where it fails
(`C165_flood`). -/
theorem C165_single_partial (c : FlowCfg) (hc : c.low ≤ c.high) (hm : c.many = false) (L : Nat) (svc : Services)
    (reg : Registry) (evs : List LFEv) (hs : LFShort L (lfRun c svc reg evs)) :
    held (lfRun c svc reg evs) ≤ c.high + 2 * L ∧
      ((lfRun c svc reg evs).l.closed = false → held (lfRun c svc reg evs) ≤ c.high + L) := by
  have h := LFSingle.run hc hm L svc reg evs
  generalize lfRun c svc reg evs = s at *
  have hb := h.bound hs.1
  have h1 := h.one
  have h2 := hs.2
  have h3 := h.done
  unfold held
  rcases hw : s.waiters with - | ⟨w, - | ⟨v, ws⟩⟩
  · simp only [List.map_nil, List.sum_nil]
    exact ⟨by omega, fun _ => by omega⟩
  · have h2 := h2 w (by rw [hw]; simp)
    simp only [List.map_cons, List.map_nil, List.sum_cons, List.sum_nil]
    refine ⟨by omega, fun ho => ?_⟩
    have : msgOf s w = [] := by
      have := h3 ho w (.inl (by rw [hw]; simp))
      cases w with
      | reader =>
        have : s.hold = true := this
        simp [msgOf, this]
      | task i =>
        obtain ⟨t, e1, e2⟩ := this
        simp [msgOf, e1, e2]
    rw [this]
    simp only [List.length_nil]
    omega
  · rw [hw] at h1; simp at h1

/-! ### examples -/

instance (L : Nat) (s : LFSt) : Decidable (LFShort L s) := by unfold LFShort; infer_instance

set_option maxRecDepth 40000 in
/-- five heartbeats, nothing read: four answers are buffered; the fifth waits where all waiters are kept, and is gone where
there is room for one -/
example : exFlowMany.many = true ∧ (lfRun exFlowMany exServices exReg (hbFlood 5)).waiters = [.task 3, .task 4] ∧
    held (lfRun exFlowMany exServices exReg (hbFlood 5)) = 100 ∧
    LFShort 20 (lfRun exFlowOne exServices exReg (hbFlood 5)) ∧
    (lfRun exFlowOne exServices exReg (hbFlood 5)).waiters = [.task 3] ∧
    held (lfRun exFlowOne exServices exReg (hbFlood 5)) = 80 := by decide +kernel

end Bolt
