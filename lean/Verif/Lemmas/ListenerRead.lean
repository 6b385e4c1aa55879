import Verif.Lemmas.ListenerInv
/-!
# What the reader has done so far is determined by the bytes received
-/
namespace Bolt
open Spec

theorem perform_fields (s : LSt) (a : Act) :
    (s.perform a).acts = s.acts ++ [a] ∧ (s.perform a).recvd = s.recvd ∧ (s.perform a).buf = s.buf ∧
    (s.perform a).eof = s.eof ∧ (s.perform a).lost = s.lost ∧ (s.perform a).reg = s.reg := by
  unfold LSt.perform
  dsimp only
  split
  · exact ⟨rfl, rfl, rfl, rfl, rfl, rfl⟩
  · split <;> exact ⟨rfl, rfl, rfl, rfl, rfl, rfl⟩
  · split <;> exact ⟨rfl, rfl, rfl, rfl, rfl, rfl⟩
  · exact ⟨rfl, rfl, rfl, rfl, rfl, rfl⟩
  · exact ⟨rfl, rfl, rfl, rfl, rfl, rfl⟩

/-- the reader, at the start of an iteration somewhere in the stream, finds a header with this id -/
def HeaderAt (stream : Bytes) (i : Int) : Prop :=
  ∃ l last f cl hl nl rest, RSteps {} stream l ⟨.hdr, last⟩ (fixedPart true f cl hl nl ++ rest) ∧
    Fields.Fit true f ∧ f.requestId = i

theorem HeaderAt.append {stream : Bytes} {i : Int} (h : HeaderAt stream i) (x : Bytes) : HeaderAt (stream ++ x) i := by
  obtain ⟨l, last, f, cl, hl, nl, rest, h1, h2, h3⟩ := h
  exact ⟨l, last, f, cl, hl, nl, rest ++ x, by simpa [List.append_assoc] using h1.append x, h2, h3⟩

/-- after some of the stream has been read, the id in `header` was found in it -/
theorem readerIter_last {r r' : ReadSt} {b b' : Bytes} {a : Option Act}
    (h : readerIter r b false = some (r', b', a)) :
    r'.last = r.last ∨ ∃ f cl hl nl rest, r = ⟨.hdr, r.last⟩ ∧ b = fixedPart true f cl hl nl ++ rest ∧
      Fields.Fit true f ∧ r'.last = some f.requestId := by
  unfold readerIter at h
  split at h
  · next hp =>
    dsimp only at h
    split at h
    · next hn =>
      have hl : (b.take PkgClass.boltRequest.headerSize).length = 22 := by
        rw [List.length_take]; rw [boltRequest_headerSize] at *; omega
      obtain ⟨f, cl, hl', nl, hf, -, -, -, hb, he⟩ := reqHdr_total _ hl
      rw [he] at h
      cases h
      right
      refine ⟨f, cl, hl', nl, b.drop PkgClass.boltRequest.headerSize, ?_, ?_, hf, rfl⟩
      · cases r; cases hp; rfl
      · rw [← hb, List.take_append_drop]
    · cases h
  all_goals
    left
    first
    | (cases h; done)
    | (first | dsimp only at h | skip
       split at h
       · first | (cases h; rfl) | (split at h <;> cases h <;> rfl)
       · cases h)

theorem headerAt_of_steps {b b' : Bytes} {l : List Act} {r : ReadSt} (h : RSteps {} b l r b') (i : Int)
    (hi : r.last = some i) : HeaderAt b i := by
  suffices ∀ {r0 r : ReadSt} {b0 b' : Bytes} {l0 l : List Act}, RSteps {} b l0 r0 b0 → RSteps r0 b0 l r b' →
      (∀ i, r0.last = some i → HeaderAt b i) → (∀ i, r.last = some i → HeaderAt b i) from
    this (.refl _ _) h (by intro i hi; cases hi) i hi
  intro r0 r b0 b' l0 l h0 h hl
  induction h generalizing l0 with
  | refl => exact hl
  | step h t ih =>
    refine ih (h0.trans (.one h)) ?_
    intro i hi
    rcases readerIter_last h with e | ⟨f, cl, hl', nl, rest, e1, e2, hf, e3⟩
    · exact hl i (e ▸ hi)
    · rw [e3] at hi; cases hi
      exact ⟨_, _, f, cl, hl', nl, rest, by rw [e1, e2] at h0; exact h0, hf, rfl⟩

/-- the actions of a run carry ids found in the stream -/
theorem headerAt_of_acts {b b' : Bytes} {l : List Act} {r : ReadSt} (h : RSteps {} b l r b') :
    ∀ a ∈ l, ∀ i, actId a = some i → HeaderAt b i := by
  suffices ∀ {r0 r : ReadSt} {b0 b' : Bytes} {l0 l : List Act}, r0.Ok → RSteps {} b l0 r0 b0 → RSteps r0 b0 l r b' →
      (∀ a ∈ l, ∀ i, actId a = some i → HeaderAt b i) from
    this ReadSt.ok_init (.refl _ _) h
  intro r0 r b0 b' l0 l hok h0 h
  induction h generalizing l0 with
  | refl => intro a ha; cases ha
  | step h t ih =>
    have h1 := h0.trans (.one h)
    have hk := readerIter_ok hok h
    intro x hx i hi
    rw [List.mem_append] at hx
    rcases hx with hx | hx
    · simp at hx
      exact headerAt_of_steps h1 i (hk.2.1 x i hx hi)
    · exact ih hk.1 h1 x hx i hi

theorem readerIter_any {r : ReadSt} {b : Bytes} {e : Bool} {x : ReadSt × Bytes × Option Act}
    (h : readerIter r b e = some x) : readerIter r b false = some x ∨
      (e = true ∧ readerIter r b false = none ∧ r.phase ≠ .stopped ∧
        x = (⟨.stopped, r.last⟩, b, some (.close r.last .connectionClosed))) := by
  cases e with
  | false => exact .inl h
  | true =>
    cases hi : readerIter r b false with
    | some y => rw [readerIter_eof hi] at h; exact .inl h
    | none =>
      by_cases hst : r.phase = .stopped
      · rw [readerIter_stopped hst] at h; cases h
      · rw [readerIter_eof_none hi hst] at h
        cases h
        exact .inr ⟨rfl, rfl, hst, rfl⟩

/-- The reader's position and actions after a schedule, in terms of the bytes received. -/
def ReadInv (s : LSt) : Prop :=
  ∃ l rd, RSteps {} s.recvd l rd s.buf ∧
    ((s.acts = l ∧ s.rd = rd) ∨
     (s.lost = true ∧ s.acts = l ∧ s.rd.phase = .stopped) ∨
     (s.eof = true ∧ readerIter rd s.buf false = none ∧ rd.phase ≠ .stopped ∧ s.rd.phase = .stopped ∧
       s.acts = l ++ [.close rd.last .connectionClosed]))

theorem ReadInv.congr {s s' : LSt} (h : ReadInv s) (e1 : s'.recvd = s.recvd) (e2 : s'.buf = s.buf)
    (e3 : s'.acts = s.acts) (e4 : s'.rd = s.rd) (e5 : s'.lost = s.lost) (e6 : s'.eof = s.eof) : ReadInv s' := by
  unfold ReadInv at *
  rw [e1, e2, e3, e4, e5, e6]
  exact h

theorem write_fields (s : LSt) (o : Origin) (m : Bytes) : ∃ out, s.write o m = { s with out := out } := by
  unfold LSt.write; split
  · exact ⟨s.out, rfl⟩
  · exact ⟨_, rfl⟩

theorem ReadInv.reader {svc : Services} {s : LSt} (hinv : LInv svc s) (h : ReadInv s) : ReadInv s.reader := by
  unfold LSt.reader
  split
  · next htail =>
    obtain ⟨l, rd, hs, hc⟩ := h
    rcases hc with ⟨ha, hr⟩ | ⟨hl, ha, hp⟩ | ⟨he, hn, hne, hp, ha⟩
    · subst hr
      split
      · exact ⟨l, s.rd, hs, .inl ⟨ha, rfl⟩⟩
      · next rd' buf' hi =>
        rcases readerIter_any hi with hi | ⟨-, -, -, hx⟩
        · exact ⟨l, rd', by simpa using hs.trans (.one hi), .inl ⟨ha, rfl⟩⟩
        · cases hx
      · next rd' buf' a hi =>
        have hok := readerIter_ok hinv.rdOk hi
        have hp := hinv.perform a htail (fun i ha => hok.1.last i (hok.2.1 a i rfl ha)) rd' hok.1 buf'
        obtain ⟨f1, f2, f3, f4, f5, -⟩ := perform_fields { s with rd := rd', buf := buf' } a
        rcases readerIter_any hi with hi | ⟨he, hn, hst, hx⟩
        · refine ⟨l ++ [a], rd', ?_, .inl ⟨?_, hp.2⟩⟩
          · rw [f2, f3]; exact hs.trans (.one hi)
          · rw [f1, ← ha]
        · cases hx
          refine ⟨l, s.rd, ?_, .inr (.inr ⟨?_, ?_, hst, ?_, ?_⟩)⟩
          · rw [f2, f3]; exact hs
          · rw [f4]; exact he
          · rw [f3]; exact hn
          · rw [hp.2]
          · rw [f1, ← ha]
    · rw [readerIter_stopped hp]
      exact ⟨l, rd, hs, .inr (.inl ⟨hl, ha, hp⟩)⟩
    · rw [readerIter_stopped hp]
      exact ⟨l, rd, hs, .inr (.inr ⟨he, hn, hne, hp, ha⟩)⟩
  · obtain ⟨out, hw⟩ := write_fields s (.reader (s.acts.length - 1)) (by assumption)
    rw [hw]
    exact h.congr rfl rfl rfl rfl rfl rfl
  · exact h.congr rfl rfl rfl rfl rfl rfl
  · obtain ⟨out, hw⟩ := write_fields s (.reader (s.acts.length - 1)) (by assumption)
    rw [hw]
    exact h.congr rfl rfl rfl rfl rfl rfl

/-- parts of the state that events of tasks and the executor leave alone -/
structure SameReader (s s' : LSt) : Prop where
  recvd : s'.recvd = s.recvd
  buf : s'.buf = s.buf
  acts : s'.acts = s.acts
  rd : s'.rd = s.rd
  lost : s'.lost = s.lost
  eof : s'.eof = s.eof
  tail : s'.tail = s.tail
  closed : s'.closed = s.closed

theorem SameReader.rfl' (s : LSt) : SameReader s s := ⟨rfl, rfl, rfl, rfl, rfl, rfl, rfl, rfl⟩

theorem dispatch_same (svc : Services) (s : LSt) (i : Nat) (t : Task) (r : Req) (fresh : PyStr) :
    SameReader s (s.dispatch svc i t r fresh) := by
  unfold LSt.dispatch
  split
  · exact ⟨rfl, rfl, rfl, rfl, rfl, rfl, rfl, rfl⟩
  · split
    · exact ⟨rfl, rfl, rfl, rfl, rfl, rfl, rfl, rfl⟩
    · split
      · exact ⟨rfl, rfl, rfl, rfl, rfl, rfl, rfl, rfl⟩
      · dsimp only
        split
        · exact ⟨rfl, rfl, rfl, rfl, rfl, rfl, rfl, rfl⟩
        · exact ⟨rfl, rfl, rfl, rfl, rfl, rfl, rfl, rfl⟩
        · split <;> exact ⟨rfl, rfl, rfl, rfl, rfl, rfl, rfl, rfl⟩

/-- events of tasks, executor, clock and registry do not touch the reader -/
def LEv.isReader : LEv → Bool
  | .data _ | .eof | .reset | .reader => true
  | _ => false

theorem lstep_same (svc : Services) (s : LSt) (ev : LEv) (h : ev.isReader = false) : SameReader s (lstep svc s ev) := by
  cases ev with
  | data | eof | reset | reader => cases h
  | run i fresh =>
    simp only [lstep]
    split
    · split
      · exact dispatch_same ..
      · exact .rfl' s
    · exact .rfl' s
  | result i =>
    simp only [lstep]
    split
    · split
      · split
        · exact .rfl' s
        · exact ⟨rfl, rfl, rfl, rfl, rfl, rfl, rfl, rfl⟩
        · exact .rfl' s
      · exact .rfl' s
    · exact .rfl' s
  | expire i =>
    simp only [lstep]
    split
    · split
      · split
        · unfold LSt.setTask LSt.cancelFut
          split <;> exact ⟨rfl, rfl, rfl, rfl, rfl, rfl, rfl, rfl⟩
        · exact .rfl' s
      · exact .rfl' s
    · exact .rfl' s
  | write i =>
    simp only [lstep]
    split
    · split
      · unfold LSt.setTask LSt.write
        split <;> exact ⟨rfl, rfl, rfl, rfl, rfl, rfl, rfl, rfl⟩
      · exact .rfl' s
    · exact .rfl' s
  | futStart k =>
    simp only [lstep]
    split
    · exact ⟨rfl, rfl, rfl, rfl, rfl, rfl, rfl, rfl⟩
    · exact .rfl' s
  | futFinish k o =>
    simp only [lstep]
    split
    · exact ⟨rfl, rfl, rfl, rfl, rfl, rfl, rfl, rfl⟩
    · exact .rfl' s
  | tick d => exact ⟨rfl, rfl, rfl, rfl, rfl, rfl, rfl, rfl⟩
  | register r => exact ⟨rfl, rfl, rfl, rfl, rfl, rfl, rfl, rfl⟩

theorem ReadInv.step {svc : Services} {s : LSt} (hinv : LInv svc s) (h : ReadInv s) (ev : LEv) :
    ReadInv (lstep svc s ev) := by
  cases hev : ev.isReader with
  | false =>
    have := lstep_same svc s ev hev
    exact h.congr this.recvd this.buf this.acts this.rd this.lost this.eof
  | true =>
    cases ev with
    | data bs =>
      simp only [lstep]
      cases heof : s.eof with
      | true => simpa using h
      | false =>
        obtain ⟨l, rd, hs, hc⟩ := h
        rw [if_neg (by simp)]
        refine ⟨l, rd, hs.append bs, ?_⟩
        rcases hc with hc | hc | ⟨he, -⟩
        · exact .inl hc
        · exact .inr (.inl hc)
        · rw [heof] at he; cases he
    | eof =>
      obtain ⟨l, rd, hs, hc⟩ := h
      refine ⟨l, rd, hs, ?_⟩
      rcases hc with hc | hc | ⟨he, hc⟩
      · exact .inl hc
      · exact .inr (.inl hc)
      · exact .inr (.inr ⟨rfl, hc⟩)
    | reset =>
      obtain ⟨l, rd, hs, hc⟩ := h
      refine ⟨l, rd, hs, ?_⟩
      rcases hc with ⟨hc, -⟩ | ⟨-, hc, -⟩ | ⟨h1, h2, h3, h4, h5⟩
      · exact .inr (.inl ⟨rfl, hc, rfl⟩)
      · exact .inr (.inl ⟨rfl, hc, rfl⟩)
      · exact .inr (.inr ⟨h1, h2, h3, rfl, h5⟩)
    | reader => exact h.reader hinv
    | _ => cases hev

theorem ReadInv.run (svc : Services) (reg : Registry) (evs : List LEv) : ReadInv (lrun svc reg evs) := by
  unfold lrun
  suffices ∀ s, LInv svc s → ReadInv s → ReadInv (evs.foldl (lstep svc) s) from
    this _ (LInv.init svc reg) ⟨[], {}, .refl _ _, .inl ⟨rfl, rfl⟩⟩
  induction evs with
  | nil => intro s _ h; exact h
  | cons e evs ih => intro s h1 h2; exact ih _ (h1.step e) (h2.step h1 e)

theorem reader_fields (s : LSt) : s.reader.recvd = s.recvd ∧ s.reader.eof = s.eof ∧ s.reader.lost = s.lost ∧
    s.reader.reg = s.reg := by
  unfold LSt.reader
  split
  · split
    · exact ⟨rfl, rfl, rfl, rfl⟩
    · exact ⟨rfl, rfl, rfl, rfl⟩
    · next rd buf a _ =>
      obtain ⟨-, f2, -, f4, f5, f6⟩ := perform_fields { s with rd := rd, buf := buf } a
      exact ⟨f2, f4, f5, f6⟩
  · obtain ⟨out, hw⟩ := write_fields s (.reader (s.acts.length - 1)) (by assumption)
    rw [hw]; exact ⟨rfl, rfl, rfl, rfl⟩
  · exact ⟨rfl, rfl, rfl, rfl⟩
  · obtain ⟨out, hw⟩ := write_fields s (.reader (s.acts.length - 1)) (by assumption)
    rw [hw]; exact ⟨rfl, rfl, rfl, rfl⟩

/-- the bytes, the end of the stream and the reset are the schedule's -/
theorem lrun_env (svc : Services) (reg : Registry) (evs : List LEv) :
    (lrun svc reg evs).recvd = received evs ∧ (lrun svc reg evs).eof = sawEof evs ∧
      (lrun svc reg evs).lost = evs.contains .reset := by
  unfold lrun
  suffices ∀ s, (evs.foldl (lstep svc) s).recvd = s.recvd ++ (if s.eof then [] else received evs) ∧
      (evs.foldl (lstep svc) s).eof = (s.eof || sawEof evs) ∧
      (evs.foldl (lstep svc) s).lost = (s.lost || evs.contains .reset) by
    simpa using this { reg := reg }
  induction evs with
  | nil => intro s; simp [received, sawEof]
  | cons e evs ih =>
    intro s
    rw [List.foldl_cons]
    obtain ⟨h1, h2, h3⟩ := ih (lstep svc s e)
    rw [h1, h2, h3]
    clear h1 h2 h3 ih
    cases hev : e.isReader with
    | false =>
      have := lstep_same svc s e hev
      simp only [this.recvd, this.eof, this.lost]
      cases e <;> first | (cases hev; done) | simp [received, sawEof]
    | true =>
      cases e with
      | data bs =>
        by_cases heof : s.eof = true
        · have : lstep svc s (.data bs) = s := by simp [lstep, heof]
          rw [this]; simp [heof, sawEof]
        · simp [lstep, heof, received, sawEof]
      | eof => simp [lstep, received, sawEof]
      | reset =>
        have : received (.reset :: evs) = received evs := rfl
        simp [lstep, sawEof, this]
        rfl
      | reader =>
        simp only [lstep]
        obtain ⟨f1, f2, f3, -⟩ := reader_fields s
        have : received (.reader :: evs) = received evs := rfl
        simp only [f1, f2, f3, this]
        simp [sawEof]
      | _ => cases hev

/-- while there is no reset, an idle reader has done exactly what the bytes call for -/
theorem idle_cases {svc : Services} {s : LSt} (_hinv : LInv svc s) (h : ReadInv s) (hl : s.lost = false)
    (hidle : s.idle) : ∃ l rd b, RSteps {} s.recvd l rd b ∧ readerIter rd b false = none ∧
      s.acts = l ++ (if s.eof ∧ rd.phase ≠ .stopped then [.close rd.last .connectionClosed] else []) ∧
      b = s.buf := by
  obtain ⟨l, rd, hs, hc⟩ := h
  rcases hc with ⟨ha, hr⟩ | ⟨hc, -⟩ | ⟨he, hn, hne, hp, ha⟩
  · subst hr
    obtain ⟨-, hi⟩ := hidle
    cases hf : readerIter s.rd s.buf false with
    | none =>
      refine ⟨l, s.rd, s.buf, hs, hf, ?_, rfl⟩
      rw [if_neg, List.append_nil]
      · exact ha
      · rintro ⟨he, hne⟩
        rw [he, readerIter_eof_none hf hne] at hi
        cases hi
    | some x =>
      exfalso
      cases he : s.eof with
      | false => rw [he, hf] at hi; cases hi
      | true => rw [he, readerIter_eof hf] at hi; cases hi
  · rw [hl] at hc; cases hc
  · exact ⟨l, rd, s.buf, hs, hn, by rw [if_pos ⟨he, hne⟩]; exact ha, rfl⟩

end Bolt

namespace Bolt
open Spec

/-! ### messages are never taken back, and the reader's own replies are written -/

theorem lstep_out (svc : Services) (s : LSt) (ev : LEv) : ∃ x, (lstep svc s ev).out = s.out ++ x := by
  have hw : ∀ (o : Origin) (m : Bytes), ∃ x, (s.write o m).out = s.out ++ x := by
    intro o m
    unfold LSt.write
    split
    · exact ⟨[], by simp⟩
    · exact ⟨_, rfl⟩
  have hp : ∀ (s : LSt) (a : Act), (s.perform a).out = s.out := by
    intro s a
    unfold LSt.perform
    dsimp only
    split
    · rfl
    · split <;> rfl
    · split <;> rfl
    · rfl
    · rfl
  have h0 : ∀ s' : LSt, s'.out = s.out → ∃ x, s'.out = s.out ++ x := fun s' h => ⟨[], by simp [h]⟩
  cases ev with
  | data bs => simp only [lstep]; split <;> exact h0 _ rfl
  | eof => exact h0 _ rfl
  | reset => exact h0 _ rfl
  | reader =>
    simp only [lstep]
    unfold LSt.reader
    split
    · split
      · exact h0 _ rfl
      · exact h0 _ rfl
      · exact h0 _ (hp _ _)
    · exact hw _ _
    · exact h0 _ rfl
    · exact hw _ _
  | run i fresh =>
    simp only [lstep]
    split
    · split
      · unfold LSt.dispatch
        split
        · exact h0 _ rfl
        · split
          · exact h0 _ rfl
          · split
            · exact h0 _ rfl
            · dsimp only
              split
              · exact h0 _ rfl
              · exact h0 _ rfl
              · split <;> exact h0 _ rfl
      · exact h0 _ rfl
    · exact h0 _ rfl
  | result i =>
    simp only [lstep]
    split
    · split
      · split <;> exact h0 _ rfl
      · exact h0 _ rfl
    · exact h0 _ rfl
  | expire i =>
    simp only [lstep]
    split
    · split
      · split
        · unfold LSt.setTask LSt.cancelFut
          split <;> exact h0 _ rfl
        · exact h0 _ rfl
      · exact h0 _ rfl
    · exact h0 _ rfl
  | write i =>
    simp only [lstep]
    split
    · split
      · exact hw _ _
      · exact h0 _ rfl
    · exact h0 _ rfl
  | futStart k => simp only [lstep]; split <;> exact h0 _ rfl
  | futFinish k o => simp only [lstep]; split <;> exact h0 _ rfl
  | tick d => exact h0 _ rfl
  | register r => exact h0 _ rfl

/-- without a reset, the connection is closed only by the reader's last action, and every earlier reply of the reader
has been written -/
structure ReplyInv (s : LSt) : Prop where
  closed : s.closed = true → s.lost = true ∨ (s.rd.phase = .stopped ∧ s.tail = .reading)
  closing : ∀ mo, s.tail = .closing mo → s.rd.phase = .stopped
  written : ∀ (n : Nat) (a : Act) (m : Bytes), s.acts[n]? = some a → actReply a = some m →
    s.lost = true ∨ (Origin.reader n, m) ∈ s.out ∨ (n + 1 = s.acts.length ∧ s.tail ≠ .reading)

theorem perform_closed (s : LSt) (a : Act) : (s.perform a).closed = s.closed ∧ (s.perform a).out = s.out := by
  unfold LSt.perform
  dsimp only
  split
  · exact ⟨rfl, rfl⟩
  · split <;> exact ⟨rfl, rfl⟩
  · split <;> exact ⟨rfl, rfl⟩
  · exact ⟨rfl, rfl⟩
  · exact ⟨rfl, rfl⟩

theorem perform_tail {s : LSt} (a : Act) (ha : ∀ i, actId a = some i → IdOk i)
    (hr : s.tail = .reading) :
    (∀ m, actReply a = some m → (s.perform a).tail ≠ .reading) ∧
    (∀ mo, (s.perform a).tail = .closing mo → ∃ i st, a = .close i st) := by
  cases a with
  | dispatch r =>
    refine ⟨(by intro m h; cases h), ?_⟩
    intro mo h
    simp only [LSt.perform] at h
    rw [hr] at h; cases h
  | heartbeat id =>
    refine ⟨(by intro m h; cases h), ?_⟩
    intro mo h
    simp only [LSt.perform] at h
    split at h <;> (simp only [hr] at h; cases h)
  | reject id st =>
    have hm := failMsg_ok id (ha id rfl) st
    refine ⟨?_, ?_⟩
    · intro m h
      simp only [LSt.perform, hm]
      simp
    · intro mo h
      simp only [LSt.perform, hm] at h
      cases h
  | close id st =>
    refine ⟨?_, fun mo h => ⟨id, st, rfl⟩⟩
    intro m h
    simp [LSt.perform]
  | crash =>
    refine ⟨(by intro m h; cases h), ?_⟩
    intro mo h
    simp only [LSt.perform] at h
    rw [hr] at h; cases h

theorem readerIter_close {r r' : ReadSt} {b b' : Bytes} {e : Bool} {a : Act}
    (h : readerIter r b e = some (r', b', some a)) : r'.phase = a.next := by
  unfold readerIter at h
  split at h
  all_goals
    first
    | (cases h; done)
    | (first | dsimp only at h | skip
       split at h
       · first | (cases h; done) | (cases h; rfl) | (split at h <;> cases h <;> rfl)
       · split at h
         · cases h; rfl
         · cases h)

theorem ReplyInv.step {svc : Services} {s : LSt} (hinv : LInv svc s) (h : ReplyInv s) (ev : LEv) :
    ReplyInv (lstep svc s ev) := by
  obtain ⟨x, hx⟩ := lstep_out svc s ev
  cases hev : ev.isReader with
  | false =>
    have e := lstep_same svc s ev hev
    refine ⟨?_, ?_, ?_⟩
    · rw [e.closed, e.lost, e.rd, e.tail]; exact h.closed
    · rw [e.tail, e.rd]; exact h.closing
    · rw [e.acts, e.lost, e.tail, hx]
      intro n a m h1 h2
      rcases h.written n a m h1 h2 with h | h | h
      · exact .inl h
      · exact .inr (.inl (List.mem_append_left _ h))
      · exact .inr (.inr h)
  | true =>
    cases ev with
    | data bs =>
      simp only [lstep]
      split
      · exact h
      · exact ⟨h.closed, h.closing, h.written⟩
    | eof => exact ⟨h.closed, h.closing, h.written⟩
    | reset => exact ⟨fun _ => .inl rfl, (by intro mo h; cases h), fun _ _ _ _ _ => .inl rfl⟩
    | reader =>
      clear hx
      simp only [lstep]
      unfold LSt.reader
      split
      · next htail =>
        split
        · exact h
        · next rd buf hi =>
          refine ⟨?_, ?_, ?_⟩
          · intro hc
            rcases h.closed hc with h | ⟨hp, -⟩
            · exact .inl h
            · rw [readerIter_stopped hp] at hi; cases hi
          · intro mo hmo; rw [htail] at hmo; cases hmo
          · exact h.written
        · next rd buf a hi =>
          have hok := readerIter_ok hinv.rdOk hi
          have hp := hinv.perform a htail (fun i ha => hok.1.last i (hok.2.1 a i rfl ha)) rd hok.1 buf
          obtain ⟨f1, f2, f3, f4, f5, -⟩ := perform_fields { s with rd := rd, buf := buf } a
          obtain ⟨g1, g2⟩ := perform_closed { s with rd := rd, buf := buf } a
          obtain ⟨t1, t2⟩ := perform_tail (s := { s with rd := rd, buf := buf }) a
            (fun i ha => hok.1.last i (hok.2.1 a i rfl ha)) htail
          refine ⟨?_, ?_, ?_⟩
          · rw [g1, f5]
            intro hc
            rcases h.closed hc with h | ⟨hp, -⟩
            · exact .inl h
            · rw [readerIter_stopped hp] at hi; cases hi
          · intro mo hmo
            obtain ⟨i, st, rfl⟩ := t2 mo hmo
            rw [hp.2]
            exact readerIter_close hi
          · rw [f1, f5, g2]
            intro n b m hn hm
            rw [List.getElem?_append] at hn
            split at hn
            · next hlt =>
              rcases h.written n b m hn hm with h | h | h
              · exact .inl h
              · exact .inr (.inl h)
              · exact absurd htail h.2
            · next hlt =>
              have hlt' : s.acts.length ≤ n := Nat.le_of_not_lt hlt
              rw [List.getElem?_singleton] at hn
              split at hn
              · next h0 =>
                cases hn
                refine .inr (.inr ⟨?_, t1 m hm⟩)
                simp at h0 ⊢
                omega
              · cases hn
      · next m htail =>
        refine ⟨?_, ?_, ?_⟩
        · intro hc
          have hc' : s.closed = true := by simpa [LSt.write, apply_ite] using hc
          rcases h.closed hc' with h | ⟨-, hp⟩
          · left; simpa [LSt.write, apply_ite] using h
          · rw [htail] at hp; cases hp
        · intro mo hmo; cases hmo
        · intro n a m' hn hm
          have hn' : s.acts[n]? = some a := by simpa [LSt.write, apply_ite] using hn
          rcases h.written n a m' hn' hm with h1 | h1 | ⟨h1, -⟩
          · left; simpa [LSt.write, apply_ite] using h1
          · right; left
            unfold LSt.write
            split
            · exact h1
            · exact List.mem_append_left _ h1
          · obtain ⟨b, hb, hbm⟩ := hinv.replying m htail
            rw [List.getLast?_eq_getElem?] at hb
            have e : n = s.acts.length - 1 := by omega
            rw [e] at hn'
            rw [hn'] at hb
            cases hb
            rw [hm] at hbm
            cases hbm
            by_cases hc : s.closed = true
            · rcases h.closed hc with h2 | ⟨-, hp⟩
              · left; simpa [LSt.write, apply_ite] using h2
              · rw [htail] at hp; cases hp
            · right; left
              simp [LSt.write, hc, e]
      · next htail =>
        refine ⟨fun _ => .inr ⟨h.closing _ htail, rfl⟩, ?_, ?_⟩
        · intro mo hmo; cases hmo
        · intro n a m' hn hm
          rcases h.written n a m' hn hm with h1 | h1 | ⟨h1, -⟩
          · exact .inl h1
          · exact .inr (.inl h1)
          · obtain ⟨b, hb, hbm⟩ := hinv.closing none htail
            rw [List.getLast?_eq_getElem?] at hb
            have e : n = s.acts.length - 1 := by omega
            rw [e] at hn
            rw [show s.acts[s.acts.length - 1]? = some a from hn] at hb
            cases hb
            rw [hm] at hbm
            cases hbm
      · next m htail =>
        refine ⟨?_, ?_, ?_⟩
        · intro _
          right
          refine ⟨?_, rfl⟩
          have := h.closing _ htail
          simpa [LSt.write, apply_ite] using this
        · intro mo hmo; cases hmo
        · intro n a m' hn hm
          have hn' : s.acts[n]? = some a := by simpa [LSt.write, apply_ite] using hn
          rcases h.written n a m' hn' hm with h1 | h1 | ⟨h1, -⟩
          · left; simpa [LSt.write, apply_ite] using h1
          · right; left
            unfold LSt.write
            split
            · exact h1
            · exact List.mem_append_left _ h1
          · obtain ⟨b, hb, hbm⟩ := hinv.closing (some m) htail
            rw [List.getLast?_eq_getElem?] at hb
            have e : n = s.acts.length - 1 := by omega
            rw [e] at hn'
            rw [hn'] at hb
            cases hb
            rw [hm] at hbm
            cases hbm
            by_cases hc : s.closed = true
            · rcases h.closed hc with h2 | ⟨-, hp⟩
              · left; simpa [LSt.write, apply_ite] using h2
              · rw [htail] at hp; cases hp
            · right; left
              simp [LSt.write, hc, e]
    | _ => cases hev

theorem ReplyInv.run (svc : Services) (reg : Registry) (evs : List LEv) : ReplyInv (lrun svc reg evs) := by
  unfold lrun
  suffices ∀ s, LInv svc s → ReplyInv s → ReplyInv (evs.foldl (lstep svc) s) from
    this _ (LInv.init svc reg) ⟨(by intro h; cases h), (by intro mo h; cases h), (by intro n a m h; cases h)⟩
  induction evs with
  | nil => intro s _ h; exact h
  | cons e evs ih => intro s h1 h2; exact ih _ (h1.step e) (h2.step h1 e)

end Bolt
