import Verif.Props.ListenerFlow
import Verif.Props.AioFlow
import Verif.Props.EndToEndAio
/-!
# C153: back pressure and lost connections never mix up results
-/
namespace Bolt
open Spec

/-! ## the listener: whatever its `drain`s do, it writes what a listener whose `drain`s return could have written -/

/-- A task and the same task in a run in which its `drain` has not ended yet. -/
inductive TLag : Option Task → Option Task → Prop
  | same (o : Option Task) : TLag o o
  | late (t : Task) (m : Bytes) (h : t.st = .ended) : TLag (some t) (some { t with st := .writing m })

/-- `b` is `a`, except that tasks that have ended in `a` may still be about to write in `b`, and the reader. -/
structure Lags (a b : LSt) : Prop where
  recvd : b.recvd = a.recvd
  eof : b.eof = a.eof
  acts : b.acts = a.acts
  futs : b.futs = a.futs
  out : b.out = a.out
  closed : b.closed = a.closed
  now : b.now = a.now
  heap : b.heap = a.heap
  reg : b.reg = a.reg
  len : b.tasks.length = a.tasks.length
  tasks : ∀ i : Nat, TLag a.tasks[i]? b.tasks[i]?

theorem Lags.setTask {a b : LSt} (h : Lags a b) (i : Nat) (t : Task) : Lags (a.setTask i t) (b.setTask i t) := by
  refine ⟨h.recvd, h.eof, h.acts, h.futs, h.out, h.closed, h.now, h.heap, h.reg, by simp [LSt.setTask, h.len], fun j => ?_⟩
  simp only [LSt.setTask, List.getElem?_set, h.len]
  split
  · exact .same _
  · exact h.tasks j

theorem Lags.dispatch {a b : LSt} (svc : Services) (h : Lags a b) (i : Nat) (t : Task) (r : Req) (fresh : PyStr) :
    Lags (a.dispatch svc i t r fresh) (b.dispatch svc i t r fresh) := by
  unfold LSt.dispatch
  split
  · exact h.setTask _ _
  · split
    · exact h.setTask _ _
    · rw [h.heap]
      split
      · exact h.setTask _ _
      · next hp ctx _ =>
        have h' : ∀ fs, Lags { a with heap := hp, futs := fs } { b with heap := hp, futs := fs, now := a.now, reg := a.reg } :=
          fun fs => ⟨h.recvd, h.eof, h.acts, rfl, h.out, h.closed, rfl, rfl, rfl, h.len, h.tasks⟩
        dsimp only
        rw [h.reg, h.futs, h.now]
        split
        · exact (h' _).setTask _ _
        · exact (h' _).setTask _ _
        · split
          · exact (h' _).setTask _ _
          · exact (h' _).setTask _ _

theorem Lags.get {a b : LSt} (h : Lags a b) {i : Nat} {t : Task} (ht : a.tasks[i]? = some t) :
    b.tasks[i]? = some t ∨ t.st = .ended ∧ ∃ m, b.tasks[i]? = some { t with st := .writing m } := by
  have := h.tasks i
  rw [ht] at this
  generalize hb : b.tasks[i]? = o at this
  cases this with
  | same => exact .inl rfl
  | late _ m hm => exact .inr ⟨hm, m, rfl⟩

theorem Lags.none {a b : LSt} (h : Lags a b) {i : Nat} (ht : a.tasks[i]? = none) : b.tasks[i]? = none := by
  rw [List.getElem?_eq_none_iff] at *
  rw [h.len]; exact ht

theorem Lags.setFut {a b : LSt} (h : Lags a b) (k : Nat) (st : FutSt) : Lags (a.setFut k st) (b.setFut k st) :=
  ⟨h.recvd, h.eof, h.acts, by simp [LSt.setFut, h.futs], h.out, h.closed, h.now, h.heap, h.reg, h.len, h.tasks⟩

theorem Lags.futSt {a b : LSt} (h : Lags a b) (k : Nat) : b.futSt k = a.futSt k := by unfold LSt.futSt; rw [h.futs]

theorem Lags.outside {a b : LSt} (svc : Services) (h : Lags a b) (e : LEv) (he : e.outside = true) :
    Lags (lstep svc a e) (lstep svc b e) := by
  cases e with
  | reader => cases he
  | write i => cases he
  | reset => cases he
  | data bs =>
    simp only [lstep, h.eof]
    split
    · exact h
    · exact ⟨by simp [h.recvd], rfl, h.acts, h.futs, h.out, h.closed, h.now, h.heap, h.reg, h.len, h.tasks⟩
  | eof => exact ⟨h.recvd, rfl, h.acts, h.futs, h.out, h.closed, h.now, h.heap, h.reg, h.len, h.tasks⟩
  | tick d =>
    exact ⟨h.recvd, h.eof, h.acts, h.futs, h.out, h.closed, by simp [lstep, h.now], h.heap, h.reg, h.len, h.tasks⟩
  | register r =>
    exact ⟨h.recvd, h.eof, h.acts, h.futs, h.out, h.closed, h.now, h.heap, by simp [lstep, h.reg], h.len, h.tasks⟩
  | futStart k =>
    simp only [lstep, h.futSt]
    split
    · exact h.setFut _ _
    · exact h
  | futFinish k o =>
    simp only [lstep, h.futSt]
    split
    · exact h.setFut _ _
    · exact h
  | run i fresh =>
    simp only [lstep]
    cases ht : a.tasks[i]? with
    | none => rw [h.none ht]; exact h
    | some t =>
      rcases h.get ht with hb | ⟨hs, m, hb⟩
      · rw [hb]
        dsimp only
        split
        · exact h.dispatch svc _ _ _ _
        · exact h
      · rw [hb]
        dsimp only
        rw [hs]
        exact h
  | result i =>
    simp only [lstep]
    cases ht : a.tasks[i]? with
    | none => rw [h.none ht]; exact h
    | some t =>
      rcases h.get ht with hb | ⟨hs, m, hb⟩
      · rw [hb]
        dsimp only
        split
        · rw [h.futSt]
          split
          · exact h
          · exact h.setTask _ _
          · exact h
        · exact h
      · rw [hb]
        dsimp only
        rw [hs]
        exact h
  | expire i =>
    simp only [lstep]
    cases ht : a.tasks[i]? with
    | none => rw [h.none ht]; exact h
    | some t =>
      rcases h.get ht with hb | ⟨hs, m, hb⟩
      · rw [hb]
        dsimp only
        split
        · rw [h.now]
          split
          · refine Lags.setTask ?_ _ _
            unfold LSt.cancelFut
            rw [h.futSt]
            split
            · exact h.setFut _ _
            · exact h
          · exact h
        · exact h
      · rw [hb]
        dsimp only
        rw [hs]
        exact h

/-- `b` lags behind the connection `s`; the readers agree unless that of `s` has died -/
structure LFSafe (s : LFSt) (b : LSt) : Prop where
  lags : Lags s.l b
  live : s.dead = false → b.buf = s.l.buf ∧ b.rd = s.l.rd ∧ b.tail = s.l.tail
  stop : ∀ m, s.l.tail = .closing m → s.l.rd.phase = .stopped

theorem lstep_outside_read (svc : Services) (s : LSt) (e : LEv) (he : e.outside = true) : (lstep svc s e).buf = (match e with | .data bs => if s.eof then s.buf else s.buf ++ bs | _ => s.buf) ∧
      (lstep svc s e).rd = s.rd ∧ (lstep svc s e).tail = s.tail := by
  cases e with
  | reader => cases he
  | write i => cases he
  | reset => cases he
  | run i fresh =>
    simp only [lstep]
    split
    · split
      · unfold LSt.dispatch
        repeat' (first | split | exact ⟨rfl, rfl, rfl⟩ | dsimp only)
      · exact ⟨rfl, rfl, rfl⟩
    · exact ⟨rfl, rfl, rfl⟩
  | expire i =>
    unfold lstep LSt.cancelFut LSt.setTask LSt.setFut
    dsimp only
    repeat' split
    all_goals exact ⟨rfl, rfl, rfl⟩
  | data bs =>
    simp only [lstep]
    split <;> exact ⟨rfl, rfl, rfl⟩
  | _ =>
    unfold lstep
    dsimp only
    repeat' (first | split | exact ⟨rfl, rfl, rfl⟩ | dsimp only)

theorem lstep_outside_reader (svc : Services) (a b : LSt) (e : LEv) (he : e.outside = true) (h0 : b.eof = a.eof)
    (h : b.buf = a.buf ∧ b.rd = a.rd ∧ b.tail = a.tail) :
    (lstep svc b e).buf = (lstep svc a e).buf ∧ (lstep svc b e).rd = (lstep svc a e).rd ∧
      (lstep svc b e).tail = (lstep svc a e).tail := by
  obtain ⟨a1, a2, a3⟩ := lstep_outside_read svc a e he
  obtain ⟨b1, b2, b3⟩ := lstep_outside_read svc b e he
  refine ⟨?_, by rw [b2, a2]; exact h.2.1, by rw [b3, a3]; exact h.2.2⟩
  rw [b1, a1, h0, h.1]

/-- task `i` writes in both -/
theorem Lags.write {a b : LSt} (svc : Services) (h : Lags a b) {i : Nat} {t : Task} {m : Bytes}
    (ht : a.tasks[i]? = some t) (hm : t.st = .writing m) : Lags (lstep svc a (.write i)) (lstep svc b (.write i)) := by
  rcases h.get ht with hb | ⟨hs, -⟩
  · simp only [lstep, ht, hb, hm, LSt.write, h.closed]
    split
    · exact h.setTask _ _
    · refine Lags.setTask ?_ _ _
      exact ⟨h.recvd, h.eof, h.acts, h.futs, by simp [h.out], rfl, h.now, h.heap, h.reg, h.len, h.tasks⟩
  · rw [hm] at hs; cases hs

/-- task `i` ends in `a` without having written -/
theorem Lags.drop {a b : LSt} (h : Lags a b) {i : Nat} {t : Task} {m : Bytes}
    (ht : a.tasks[i]? = some t) (hm : t.st = .writing m) : Lags (a.setTask i { t with st := .ended }) b := by
  refine ⟨h.recvd, h.eof, h.acts, h.futs, h.out, h.closed, h.now, h.heap, h.reg, by simp [LSt.setTask, h.len], fun j => ?_⟩
  simp only [LSt.setTask, List.getElem?_set]
  split
  · next e =>
    subst e
    rw [if_pos (List.getElem?_eq_some_iff.1 ht).1]
    rcases h.get ht with hb | ⟨hs, -⟩
    · rw [hb]
      have := TLag.late { t with st := .ended } m rfl
      rw [← hm] at this
      exact this
    · rw [hm] at hs; cases hs
  · exact h.tasks j

theorem Lags.tail {a b : LSt} (h : Lags a b) (r : ReadSt) (x : RTail) : Lags { a with rd := r, tail := x } b :=
  ⟨h.recvd, h.eof, h.acts, h.futs, h.out, h.closed, h.now, h.heap, h.reg, h.len, h.tasks⟩

theorem LFSafe.die {s : LFSt} {b : LSt} (h : Lags s.l b) : LFSafe s.die b :=
  ⟨h.tail _ _, fun hd => (by cases hd), fun m hm => (by cases hm)⟩

theorem Lags.perform {a b : LSt} (h : Lags a b) (hr : b.buf = a.buf ∧ b.rd = a.rd ∧ b.tail = a.tail) (x : Act) :
    Lags (a.perform x) (b.perform x) ∧
      ((b.perform x).buf = (a.perform x).buf ∧ (b.perform x).rd = (a.perform x).rd ∧ (b.perform x).tail = (a.perform x).tail) := by
  have app : ∀ t : Task, ∀ i : Nat, TLag (a.tasks ++ [t])[i]? (b.tasks ++ [t])[i]? := by
    intro t i
    rw [List.getElem?_append, List.getElem?_append, h.len]
    split
    · exact h.tasks i
    · exact .same _
  unfold LSt.perform
  cases x with
  | dispatch r =>
    exact ⟨⟨h.recvd, h.eof, by simp [h.acts], h.futs, h.out, h.closed, h.now, h.heap, h.reg, by simp [h.len], app _⟩, hr⟩
  | heartbeat id =>
    dsimp only
    split
    · exact ⟨⟨h.recvd, h.eof, by simp [h.acts], h.futs, h.out, h.closed, h.now, h.heap, h.reg, by simp [h.len], app _⟩, hr⟩
    · exact ⟨⟨h.recvd, h.eof, by simp [h.acts], h.futs, h.out, h.closed, h.now, h.heap, h.reg, h.len, h.tasks⟩, hr.1, by simp [hr.2.1], hr.2.2⟩
  | reject id st =>
    dsimp only
    split
    · exact ⟨⟨h.recvd, h.eof, by simp [h.acts], h.futs, h.out, h.closed, h.now, h.heap, h.reg, h.len, h.tasks⟩, hr.1, hr.2.1, rfl⟩
    · exact ⟨⟨h.recvd, h.eof, by simp [h.acts], h.futs, h.out, h.closed, h.now, h.heap, h.reg, h.len, h.tasks⟩, hr.1, by simp [hr.2.1], hr.2.2⟩
  | close id st =>
    exact ⟨⟨h.recvd, h.eof, by simp [h.acts], h.futs, h.out, h.closed, h.now, h.heap, h.reg, h.len, h.tasks⟩, hr.1, hr.2.1, rfl⟩
  | crash =>
    exact ⟨⟨h.recvd, h.eof, by simp [h.acts], h.futs, h.out, h.closed, h.now, h.heap, h.reg, h.len, h.tasks⟩, hr⟩

/-- the reader runs in both -/
theorem Lags.reader {a b : LSt} (h : Lags a b) (hr : b.buf = a.buf ∧ b.rd = a.rd ∧ b.tail = a.tail) :
    Lags a.reader b.reader ∧ (b.reader.buf = a.reader.buf ∧ b.reader.rd = a.reader.rd ∧ b.reader.tail = a.reader.tail) := by
  obtain ⟨r1, r2, r3⟩ := hr
  have w : ∀ m, Lags { a.write (.reader (a.acts.length - 1)) m with tail := .reading }
        { b.write (.reader (b.acts.length - 1)) m with tail := .reading } ∧
      ((b.write (.reader (b.acts.length - 1)) m).buf = (a.write (.reader (a.acts.length - 1)) m).buf ∧
        (b.write (.reader (b.acts.length - 1)) m).rd = (a.write (.reader (a.acts.length - 1)) m).rd) := by
    intro m
    unfold LSt.write
    rw [h.closed, h.acts]
    split
    · exact ⟨⟨h.recvd, h.eof, h.acts, h.futs, h.out, h.closed, h.now, h.heap, h.reg, h.len, h.tasks⟩, r1, r2⟩
    · exact ⟨⟨h.recvd, h.eof, rfl, h.futs, by simp [h.out], rfl, h.now, h.heap, h.reg, h.len, h.tasks⟩, r1, r2⟩
  unfold LSt.reader
  rw [r3]
  split
  · rw [r2, r1, h.eof]
    split
    · exact ⟨h, r1, r2, r3⟩
    · exact ⟨⟨h.recvd, rfl, h.acts, h.futs, h.out, h.closed, h.now, h.heap, h.reg, h.len, h.tasks⟩, rfl, rfl, rfl⟩
    · refine Lags.perform ?_ ?_ _
      rotate_left
      · exact ⟨rfl, rfl, rfl⟩
      exact ⟨h.recvd, rfl, h.acts, h.futs, h.out, h.closed, h.now, h.heap, h.reg, h.len, h.tasks⟩
  · next m _ => exact ⟨(w m).1, (w m).2.1, (w m).2.2, rfl⟩
  · exact ⟨⟨h.recvd, h.eof, h.acts, h.futs, h.out, rfl, h.now, h.heap, h.reg, h.len, h.tasks⟩, r1, r2, rfl⟩
  · next m _ =>
    have g := (w m).1
    exact ⟨⟨g.recvd, g.eof, g.acts, g.futs, g.out, rfl, g.now, g.heap, g.reg, g.len, g.tasks⟩, (w m).2.1, (w m).2.2, rfl⟩

theorem LFSafe.turnTask {c : FlowCfg} {svc : Services} {s : LFSt} {b : LSt} (h : LFSafe s b) (i k : Nat) :
    ∃ ls : List LEv, LFSafe (s.turnTask c svc i k) (ls.foldl (lstep svc) b) ∧ ls.filter LEv.outside = [] := by
  unfold LFSt.turnTask
  split
  · exact ⟨[], h, rfl⟩
  · next t ht =>
    split
    · next m hm =>
      have hf := s.drain_frame c (.task i)
      rcases hres : s.drain c (.task i) with ⟨s1, o⟩
      rw [hres] at hf
      dsimp only at hf
      have h1 : LFSafe s1 b := ⟨by rw [hf.1]; exact h.lags, by rw [hf.1, hf.2.2.2.2]; exact h.live, by rw [hf.1]; exact h.stop⟩
      rw [← hf.1] at ht
      rcases o with - | - | -
      · exact ⟨[], h1, rfl⟩
      · exact ⟨[], ⟨h1.lags.drop ht hm, h1.live, h1.stop⟩, rfl⟩
      · refine ⟨[.write i], ?_, rfl⟩
        have bf := s1.buffer_frame c m.length k
        have rf : ∀ x : LSt, (lstep svc x (.write i)).buf = x.buf ∧ (lstep svc x (.write i)).rd = x.rd ∧
            (lstep svc x (.write i)).tail = x.tail := by
          intro x
          unfold lstep LSt.write LSt.setTask
          dsimp only
          repeat' (first | split | exact ⟨rfl, rfl, rfl⟩ | dsimp only)
        have h2 : LFSafe { s1.buffer c m.length k with l := lstep svc s1.l (.write i) } (lstep svc b (.write i)) := by
          refine ⟨h1.lags.write svc ht hm, fun hd => ?_, fun m hm => ?_⟩
          · have := h1.live (by rw [← bf.2.2.2.2.1]; exact hd)
            show (lstep svc b (.write i)).buf = (lstep svc s1.l (.write i)).buf ∧ _ ∧ _
            rw [(rf b).1, (rf s1.l).1, (rf b).2.1, (rf b).2.2]
            exact ⟨this.1, this.2.1.trans (rf s1.l).2.1.symm, this.2.2.trans (rf s1.l).2.2.symm⟩
          · have hm : (lstep svc s1.l (.write i)).tail = .closing m := hm
            rw [(rf s1.l).2.2] at hm
            show (lstep svc s1.l (.write i)).rd.phase = _
            rw [(rf s1.l).2.1]
            exact h1.stop m hm
        dsimp only
        split
        · exact h2
        · have hf2 := LFSt.drain_frame c { s1.buffer c m.length k with l := lstep svc s1.l (.write i) } (.task i)
          exact ⟨by rw [hf2.1]; exact h2.lags, by rw [hf2.1, hf2.2.2.2.2]; exact h2.live, by rw [hf2.1]; exact h2.stop⟩
    · exact ⟨[], ⟨h.lags, h.live, h.stop⟩, rfl⟩

theorem LSt.reader_stop (s : LSt) : ∀ m, s.reader.tail = .closing m → s.reader.rd.phase = .stopped := by
  intro m hm
  cases ht : s.tail with
  | reading => exact (LSt.reader_reading ht).2.1 m hm
  | replying x => rw [LSt.reader_replying ht] at hm; cases hm
  | closing x =>
    exfalso
    unfold LSt.reader at hm
    rw [ht] at hm
    cases x <;> cases hm

theorem LFSafe.turnReader {c : FlowCfg} {svc : Services} {s : LFSt} {b : LSt} (h : LFSafe s b) (k : Nat) :
    ∃ ls : List LEv, LFSafe (s.turnReader c svc k) (ls.foldl (lstep svc) b) ∧ ls.filter LEv.outside = [] := by
  unfold LFSt.turnReader
  split
  · exact ⟨[], h, rfl⟩
  · next hd =>
    have hd : s.dead = false := by simpa using hd
    have hf := s.drain_frame c .reader
    rcases hres : s.drain c .reader with ⟨s1, o⟩
    rw [hres] at hf
    dsimp only at hf
    have h1 : LFSafe s1 b := ⟨by rw [hf.1]; exact h.lags, by rw [hf.1, hf.2.2.2.2]; exact h.live, by rw [hf.1]; exact h.stop⟩
    have l1 := h1.live (hf.2.2.2.2.trans hd)
    have hr := h1.lags.reader l1
    have run : ∀ x : LFSt, x.l = s1.l.reader → LFSafe x b.reader := fun x hx =>
      ⟨by rw [hx]; exact hr.1, by rw [hx]; exact fun _ => hr.2, by rw [hx]; exact LSt.reader_stop _⟩
    split
    · rcases o with - | - | -
      · exact ⟨[], h1, rfl⟩
      · exact ⟨[], LFSafe.die h1.lags, rfl⟩
      · exact ⟨[], ⟨h1.lags, h1.live, h1.stop⟩, rfl⟩
    · split
      · refine ⟨[.reader], run _ ?_, rfl⟩
        rw [hf.1]; rfl
      · next m ht =>
        rcases o with - | - | -
        · exact ⟨[], h1, rfl⟩
        · exact ⟨[], LFSafe.die h1.lags, rfl⟩
        · refine ⟨[.reader], ?_, rfl⟩
          dsimp only
          have hf3 := LFSt.drain_frame c { s1.buffer c m.length k with l := lstep svc s1.l .reader } .reader
          rcases hres3 : LFSt.drain c { s1.buffer c m.length k with l := lstep svc s1.l .reader } .reader with ⟨s3, o3⟩
          rw [hres3] at hf3
          dsimp only at hf3 ⊢
          rcases o3 with - | - | -
          · exact run _ hf3.1
          · exact LFSafe.die (run s3 hf3.1).lags
          · exact run _ hf3.1
      · next m ht =>
        rcases o with - | - | -
        · exact ⟨[], h1, rfl⟩
        · refine ⟨[.reset], ?_, rfl⟩
          dsimp only
          have hs := h1.stop m (by rw [hf.1]; exact ht)
          have e : lstep svc { s1.l with tail := .closing none } .reader = { s1.l with tail := .reading, closed := true } := rfl
          rw [e]
          have g := h1.lags
          refine ⟨⟨g.recvd, g.eof, g.acts, g.futs, g.out, rfl, g.now, g.heap, g.reg, g.len, g.tasks⟩, fun _ => ?_, fun m hm => (by cases hm)⟩
          refine ⟨l1.1, ?_, rfl⟩
          show { b.rd with phase := .stopped } = s1.l.rd
          rw [l1.2.1, ← hs]
        · exact ⟨[.reader], run _ rfl, rfl⟩

theorem LFSafe.step {c : FlowCfg} {svc : Services} {s : LFSt} {b : LSt} (h : LFSafe s b) (e : LFEv) :
    ∃ ls : List LEv, LFSafe (lfStep c svc s e) (ls.foldl (lstep svc) b) ∧ ls.filter LEv.outside = outsideOf [e] := by
  cases e with
  | ev e =>
    cases he : e.outside with
    | false => exact ⟨[], by simpa [lfStep, he] using h, by simp [outsideOf, he]⟩
    | true =>
      refine ⟨[e], ?_, by simp [outsideOf, he]⟩
      simp only [lfStep, he, if_true, List.foldl_cons, List.foldl_nil]
      refine ⟨h.lags.outside svc e he, fun hd => lstep_outside_reader svc _ _ e he h.lags.eof (h.live hd), fun m hm => ?_⟩
      have ho := lstep_outside_read svc s.l e he
      have hm : (lstep svc s.l e).tail = .closing m := hm
      rw [ho.2.2] at hm
      show (lstep svc s.l e).rd.phase = _
      rw [ho.2.1]
      exact h.stop m hm
  | turn w k =>
    cases w with
    | task i => exact h.turnTask i k
    | reader => exact h.turnReader k
  | take k =>
    refine ⟨[], ?_, rfl⟩
    unfold lfStep
    dsimp only
    repeat' split
    all_goals exact ⟨h.lags, h.live, h.stop⟩
  | reset =>
    refine ⟨[.reset], ?_, rfl⟩
    have g := h.lags
    refine ⟨⟨g.recvd, g.eof, g.acts, g.futs, g.out, rfl, g.now, g.heap, g.reg, g.len, g.tasks⟩, fun hd => ?_, fun m hm => (by cases hm)⟩
    have := h.live hd
    exact ⟨this.1, congrArg (fun r : ReadSt => { r with phase := .stopped }) this.2.1, rfl⟩

theorem LFSafe.run (c : FlowCfg) (svc : Services) (reg : Registry) (evs : List LFEv) :
    ∃ ls : List LEv, LFSafe (lfRun c svc reg evs) (lrun svc reg ls) ∧ ls.filter LEv.outside = outsideOf evs := by
  induction evs using snoc_induct with
  | nil =>
    exact ⟨[], ⟨⟨rfl, rfl, rfl, rfl, rfl, rfl, rfl, rfl, rfl, rfl, fun _ => .same _⟩, fun _ => ⟨rfl, rfl, rfl⟩,
      fun m hm => (by cases hm)⟩, rfl⟩
  | snoc evs e ih =>
    obtain ⟨ls, h1, h2⟩ := ih
    obtain ⟨ls', g1, g2⟩ := h1.step (c := c) (svc := svc) e
    refine ⟨ls ++ ls', ?_, ?_⟩
    · rw [lrun, List.foldl_append, lfRun, List.foldl_append]
      exact g1
    · rw [List.filter_append, h2, g2]
      simp [outsideOf]

/-- C153, the listener. Whatever its `drain`s do on a connection, whether they raise, end the reader or lose responses, and
whether the connection is reset: what it has written, in which order, and what has become of its calls is what happens in
some run of a listener whose `drain`s return, to which the same happens from outside. -/
theorem C153_writes (c : FlowCfg) (svc : Services) (reg : Registry) (evs : List LFEv) :
    ∃ ls : List LEv, ls.filter LEv.outside = outsideOf evs ∧ (lfRun c svc reg evs).l.out = (lrun svc reg ls).out ∧
      (lfRun c svc reg evs).l.futs = (lrun svc reg ls).futs ∧ (lfRun c svc reg evs).l.acts = (lrun svc reg ls).acts ∧
      (lfRun c svc reg evs).l.closed = (lrun svc reg ls).closed := by
  obtain ⟨ls, h, h2⟩ := LFSafe.run c svc reg evs
  exact ⟨ls, h2, h.lags.out.symm, h.lags.futs.symm, h.lags.acts.symm, h.lags.closed.symm⟩

/-- C153, the listener. Nobody writes a second message: each task at most one, and the reader at most one per frame. -/
theorem C153_at_most_once (c : FlowCfg) (svc : Services) (reg : Registry) (evs : List LFEv) :
    ((lfRun c svc reg evs).l.out.map Prod.fst).Nodup := by
  obtain ⟨ls, -, h, -⟩ := C153_writes c svc reg evs
  rw [h]
  exact (LInv.run svc reg ls).nodup

/-! ## together with clients under back pressure -/

namespace Spec

/-- an asyncio listener at the other end of a connection, with flow control -/
structure FlowPeer where
  cfg : FlowCfg
  svc : Services
  reg : Registry
  evs : List LFEv

def FlowPeer.st (x : FlowPeer) : LFSt := lfRun x.cfg x.svc x.reg x.evs

/-- Each connection of the client leads to a listener: that has received some beginning of what was written on the
connection, and what the client has received on it is some beginning of what the listener wrote. -/
structure FlowJoined (s : AFSt) (peer : Nat → FlowPeer) : Prop where
  there : ∀ (n : Nat) (k : AConn), s.a.conns[n]? = some k →
    received (outsideOf (peer n).evs) <+: (k.sent.map Prod.snd).flatten
  back : ∀ (n : Nat) (k : AConn), s.a.conns[n]? = some k → k.recvd <+: (peer n).st.l.wire

/-- the client's events that are neither flow control nor the end of a `drain` -/
def clientEvs (evs : List AFEv) : List AEv := evs.filterMap fun | .ev e => some e | _ => none

/-- the requests are made by `invoke_...` methods or are heartbeats -/
def FlowMade (evs : List AFEv) : Prop := ∀ req, .call req ∈ clientEvs evs → AioMade req

end Spec

theorem received_outside (ls : List LEv) : received (ls.filter LEv.outside) = received ls := by
  induction ls with
  | nil => rfl
  | cons e ls ih =>
    cases e with
    | reader => exact ih
    | write i => exact ih
    | reset => exact ih
    | eof => rfl
    | data bs => show bs ++ received _ = bs ++ received _; rw [ih]
    | _ => exact ih

theorem registrations_outside (ls : List LEv) : registrations (ls.filter LEv.outside) = registrations ls := by
  induction ls with
  | nil => rfl
  | cons e ls ih =>
    have : ∀ e (l : List LEv), registrations (e :: l) = registrations [e] ++ registrations l := fun e l => by
      rw [registrations, registrations, registrations, ← List.filterMap_append]; rfl
    rw [List.filter_cons]
    split
    · rw [this, ih, ← this]
    · next he =>
      rw [this e, ih]
      cases e with
      | register r => exact absurd rfl he
      | _ => rfl

theorem Spec.AskedFor.outside {svc : Services} {reg : Registry} {ls : List LEv} {a : CallArgs} {f : Fut}
    (h : AskedFor svc reg ls a f) : AskedFor svc reg (ls.filter LEv.outside) a f := by
  refine ⟨h.body, ?_, h.context⟩
  obtain ⟨s, m, pre, post, j, fresh, h1, h2, h3, h4⟩ := h.target
  refine ⟨s, m, pre.filter LEv.outside, post.filter LEv.outside, j, fresh, h1, h2, ?_, ?_⟩
  · rw [h3]; simp [List.filter_append, List.filter_cons, LEv.outside]
  · rw [registrations_outside]; exact h4

theorem flow_requests (c : FlowCfg) (v : PyVer) (evs : List AFEv) :
    (afRun c v evs).a.calls.map ACall.req = requests (clientEvs evs) := by
  induction evs using snoc_induct with
  | nil => rfl
  | snoc evs e ih =>
    obtain ⟨evs', h1, -⟩ := afRun_trace c v evs
    have step : ∀ e', requests [e'] = [] → (astep v (afRun c v evs).a e').calls.map ACall.req = requests (clientEvs evs) := by
      intro e' he
      rw [h1, ← arun_snoc, arun_requests, requests_append, he, List.append_nil, ← arun_requests v, ← h1, ih]
    have split : requests (clientEvs (evs ++ [e])) = requests (clientEvs evs) ++ requests (clientEvs [e]) := by
      rw [clientEvs, List.filterMap_append, requests_append]; rfl
    rw [afRun_snoc, split]
    by_cases hcall : ∃ r, e = .ev (.call r)
    · obtain ⟨r, rfl⟩ := hcall
      show (astep v (afRun c v evs).a (.call r)).calls.map ACall.req = _ ++ [r]
      rw [← ih, h1, ← arun_snoc, arun_requests, requests_append, ← arun_requests v]
      rfl
    · have he : requests (clientEvs [e]) = [] := by
        cases e with
        | ev e =>
          cases e with
          | call r => exact absurd ⟨r, rfl⟩ hcall
          | _ => rfl
        | _ => rfl
      rw [he, List.append_nil]
      have hs := step_sees c v (afRun c v evs) e
      generalize (afStep c v (afRun c v evs) e).a = x at hs
      cases hs with
      | nothing => exact ih
      | event e' hn =>
        refine step e' ?_
        cases e' with
        | call r => exact absurd ⟨r, rfl⟩ hcall
        | _ => rfl
      | drain i k n ok hr => exact step _ rfl
      | lost n exc => exact step _ (by cases exc <;> rfl)

/-- Execution `m` of the listener on connection `n` is one that the arguments `a` of a call ask for, and it has returned
`x`. -/
def Spec.FlowExecuted (peer : Nat → FlowPeer) (a : CallArgs) (x : PyObj) (n m : Nat) : Prop :=
  ∃ (f : Fut) (ct : Bytes), (peer n).st.l.futs[m]? = some f ∧ f.st = .finished (.ret (.bytes ct)) ∧ x = .bytes ct ∧
    AskedFor (peer n).svc (peer n).reg (outsideOf (peer n).evs) a f

/-- C153. An asyncio client makes any number of calls at once over connections to asyncio listeners. However slowly the
sockets of both sides take bytes, whatever the limits of the buffers, also where a `drain` raises because another coroutine
waits already, where responses get lost, readers die and connections are reset: what a call returns is the bytes that a
method has returned which a listener called for this very call, and no two calls get the result of one execution. -/
theorem C153_own_result (c : FlowCfg) (v : PyVer) (evs : List AFEv) (hd : DistinctIds (clientEvs evs))
    (hm : FlowMade evs) (peer : Nat → FlowPeer) (hj : FlowJoined (afRun c v evs) peer) (args : Nat → CallArgs × AKind) :
    ∃ exec : Nat → Nat × Nat,
      (∀ (i : Nat) (call : ACall) (p : Pkg), (afRun c v evs).a.calls[i]? = some call →
        aioRequest (args i).1 (args i).2 = .ok call.req → call.pc = .done (.resp p) →
        FlowExecuted peer (args i).1 p.content (exec i).1 (exec i).2) ∧
      ∀ (i j : Nat) (ci cj : ACall) (p q : Pkg), (afRun c v evs).a.calls[i]? = some ci →
        (afRun c v evs).a.calls[j]? = some cj → aioRequest (args i).1 (args i).2 = .ok ci.req →
        aioRequest (args j).1 (args j).2 = .ok cj.req → ci.pc = .done (.resp p) → cj.pc = .done (.resp q) →
        exec i = exec j → i = j := by
  obtain ⟨evs', h1, -⟩ := afRun_trace c v evs
  have hreqs : requests evs' = requests (clientEvs evs) := by rw [← arun_requests v, ← h1, flow_requests]
  have hd' : DistinctIds evs' := by unfold DistinctIds; rw [hreqs]; exact hd
  obtain ⟨ls, hls⟩ := Classical.axiomOfChoice fun n => LFSafe.run (peer n).cfg (peer n).svc (peer n).reg (peer n).evs
  let pr : Nat → Peer := fun n => ⟨(peer n).svc, (peer n).reg, ls n⟩
  have hmade : ∀ d ∈ (arun v evs').calls, AioMade d.req := by
    intro d hdm
    have : d.req ∈ requests (clientEvs evs) := by rw [← hreqs, ← arun_requests v]; exact List.mem_map_of_mem hdm
    exact hm _ (mem_requests this)
  have hjoin : Joined (arun v evs') pr := by
    rw [← h1]
    refine ⟨fun n k hk => ?_, fun n k hk => ?_⟩
    · have := hj.there n k hk
      rw [← (hls n).2, received_outside] at this
      exact this
    · have := hj.back n k hk
      unfold LSt.wire at this
      rw [FlowPeer.st, ← (hls n).1.lags.out] at this
      exact this
  have single : ∀ i : Nat, ∃ w : Nat × Nat, ∀ (call : ACall) (p : Pkg),
      (afRun c v evs).a.calls[i]? = some call → aioRequest (args i).1 (args i).2 = .ok call.req → call.pc = .done (.resp p) →
      FlowExecuted peer (args i).1 p.content w.1 w.2 ∧ ∃ (j : Nat) (tk : Task) (r : Req), (pr w.1).st.tasks[j]? = some tk ∧
        tk.kind = .dispatch r ∧ tk.fut = some w.2 ∧ call.req.requestId = .int r.id := by
    intro i
    by_cases h : ∃ (call : ACall) (p : Pkg), (afRun c v evs).a.calls[i]? = some call ∧
        aioRequest (args i).1 (args i).2 = .ok call.req ∧ call.pc = .done (.resp p)
    · obtain ⟨call, p, hc, ha, hp⟩ := h
      obtain ⟨n, m, f, ct, e1, e2, e3, e4, j, tk, r, e5, e6, e7, e8⟩ :=
        own_task v evs' hd' pr hjoin hmade i call p _ _ (by rw [← h1]; exact hc) ha hp
      refine ⟨(n, m), fun call' p' hc' ha' hp' => ?_⟩
      rw [hc] at hc'
      cases hc'
      rw [hp] at hp'
      cases hp'
      refine ⟨⟨f, ct, ?_, e2, e3, ?_⟩, j, tk, r, e5, e6, e7, e8⟩
      · rw [FlowPeer.st, ← (hls n).1.lags.futs]; exact e1
      · rw [← (hls n).2]; exact e4.outside
    · exact ⟨(0, 0), fun call p hc ha hp => absurd ⟨call, p, hc, ha, hp⟩ h⟩
  obtain ⟨exec, he⟩ := Classical.axiomOfChoice single
  refine ⟨exec, fun i call p hc ha hp => (he i call p hc ha hp).1, ?_⟩
  intro i j ci cj p q hi hj' ha hb hp hq hij
  obtain ⟨-, x, tk, r, g1, g2, g3, g4⟩ := he i ci p hi ha hp
  obtain ⟨-, x', tk', r', f1, f2, f3, f4⟩ := he j cj q hj' hb hq
  rw [← hij] at f1 f3
  have := (LInv.run (pr (exec i).1).svc (pr (exec i).1).reg (pr (exec i).1).levs).futInj x x' tk tk' _ g1 f1 g3 f3
  subst this
  rw [g1] at f1
  cases f1
  rw [g2] at f2
  cases f2
  rw [h1] at hi hj'
  exact same_call hd' hi hj' (g4.trans f4.symm)

/-! ### an example: both requests wait for the client's socket, and one of the responses is lost on the listener's side -/

/-- both calls have been executed, then the second response fills the buffer and the first one is dropped -/
def exFlowPeerEvs : List LFEv :=
  [.ev (.data (exAioBytes exCallA ++ exAioBytes exCallB))] ++ List.replicate 12 (.turn .reader 0) ++
  [.ev (.run 0 (py "t")), .ev (.run 1 (py "u")), .ev (.futStart 0), .ev (.futStart 1),
   .ev (.futFinish 1 (.ret (.bytes [22]))), .ev (.result 1), .turn (.task 1) 0,
   .ev (.futFinish 0 (.ret (.bytes [11]))), .ev (.result 0), .turn (.task 0) 0, .take 500, .turn (.task 1) 0]

def exFlowPeer : FlowPeer := ⟨exFlowOne, exServices, exReg, exFlowPeerEvs⟩

def exFlowClient : List AFEv :=
  [.ev (.call (exAioReq exCallA)), .ev (.call (exAioReq exCallB)), .ev (.start 0 exAddr), .ev (.start 1 exAddr),
   .ev (.dialed 0 true), .ev (.lock 1), .turn 0 0, .turn 0 0, .turn 1 0, .take 0 500, .turn 1 0, .turn 0 0, .turn 0 0,
   .take 0 500, .turn 1 0, .turn 1 0, .turn 0 0, .ev (.recv 0), .ev (.data 0 exFlowPeer.st.l.wire), .ev (.recv 0),
   .ev (.recv 0), .ev (.wake 1)]

set_option maxRecDepth 40000 in
example : (aioRequest exCallA .sync = .ok (exAioReq exCallA) ∧ aioRequest exCallB .sync = .ok (exAioReq exCallB)) ∧
    DistinctIds (clientEvs exFlowClient) ∧
    (afRun exFlowMany .from38 exFlowClient).a.conns.map (fun k => (k.sent.map Prod.snd).flatten) =
      [received (outsideOf exFlowPeerEvs)] ∧
    (afRun exFlowMany .from38 exFlowClient).a.conns.map AConn.recvd = [exFlowPeer.st.l.wire] ∧
    exFlowPeer.st.l.wire = reply 9 0 [22] ∧
    exFlowPeer.st.l.tasks.map Task.st = [.ended, .ended] ∧
    (afRun exFlowMany .from38 exFlowClient).a.calls.map (fun c =>
      match c.pc with | .done r => some (syncResult r) | _ => none) = [none, some (.ok (.bytes [22]))] := by
  decide +kernel

set_option maxRecDepth 40000 in
/-- both sockets were full on the way -/
example : (afRun exFlowMany .from38 (exFlowClient.take 9)).flows.map CFlow.waiters = [[0, 1]] ∧
    (lfRun exFlowOne exServices exReg (exFlowPeerEvs.take 20)).waiters = [.task 1] := by
  decide +kernel

end Bolt
