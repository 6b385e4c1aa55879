import Verif.Props.Intake
/-!
# C199: requests of which only a part arrives
-/
namespace Bolt
open Spec

/-! ## The specification -/

/-- `part` is what arrived of the frame `q`: not all of it -/
def Spec.AnyFrame.CutTo (q : AnyFrame) (part : Bytes) : Prop := ∃ more, more ≠ [] ∧ part ++ more = q.bytes

/-! ## A part of a frame -/

theorem CutTo.lt {q : AnyFrame} {part : Bytes} (h : q.CutTo part) : part.length < q.bytes.length := by
  obtain ⟨more, hm, e⟩ := h
  rw [← e, List.length_append]
  have := List.length_pos_iff.2 hm
  omega

/-- it is read as the beginning of a frame, and nothing is done -/
theorem CutTo.wants {q : AnyFrame} {part : Bytes} (hq : q.Ok) (h : q.CutTo part) (last : Option Int) :
    Wants last part [] (if part.length < 22 then last else some q.f.requestId) true := by
  have hlt := CutTo.lt h
  obtain ⟨more, hm, e⟩ := h
  split
  · next h22 => exact .short h22
  · next h22 =>
    obtain ⟨b1, b2, b3⟩ := hq.body
    have hfix : (fixedPart true q.f q.cls.length q.hdr.length q.content.length).length = 22 := by
      rw [fixedPart_length]; rfl
    have hb : q.bytes = fixedPart true q.f q.cls.length q.hdr.length q.content.length ++
        (q.cls ++ (q.hdr ++ q.content)) := by
      unfold AnyFrame.bytes frame
      simp only [List.append_assoc]
    have hlen : q.bytes.length = 22 + (q.cls.length + (q.hdr.length + q.content.length)) := by
      rw [hb, List.length_append, hfix]
      simp only [List.length_append]
    have hpart : part = q.bytes.take part.length := by
      rw [← e, List.take_append_of_le_length (Nat.le_refl _), List.take_length]
    have h1 : part = fixedPart true q.f q.cls.length q.hdr.length q.content.length ++
        (q.cls ++ (q.hdr ++ q.content)).take (part.length - 22) := by
      have := hpart
      rw [hb, List.take_append, hfix, List.take_of_length_le (by rw [hfix]; omega)] at this
      exact this
    by_cases hh : part.length < 22 + (q.cls.length + q.hdr.length)
    · rw [h1]
      refine .partHead hq.fit b1 b2 b3 ?_
      rw [List.length_take]
      omega
    · have h2 : part = frameHead q.f q.cls q.hdr q.content.length ++
          q.content.take (part.length - 22 - q.cls.length - q.hdr.length) := by
        have := h1
        rw [List.take_append, List.take_of_length_le (by omega), List.take_append,
          List.take_of_length_le (by omega)] at this
        unfold frameHead
        simp only [List.append_assoc]
        exact this
      rw [h2]
      refine .partBody hq.fit b1 b2 b3 hq.decodes ?_
      rw [List.length_take]
      omega

/-- whole frames and a part of one more -/
theorem CutTo.frames {qs : List AnyFrame} (hqs : ∀ q ∈ qs, q.Ok) {q : AnyFrame} {part : Bytes} (hq : q.Ok)
    (h : q.CutTo part) (last : Option Int) :
    Wants last (framesBytes qs ++ part) (qs.map AnyFrame.verdict)
      (if part.length < 22 then (match qs.getLast? with | some p => some p.f.requestId | none => last)
       else some q.f.requestId) true := by
  induction qs generalizing last with
  | nil =>
    exact CutTo.wants hq h last
  | cons x xs ih =>
    have := ih (fun y hy => hqs y (by simp [hy])) (some x.f.requestId)
    have e : (match (x :: xs).getLast? with | some p => some p.f.requestId | none => last) =
        (match xs.getLast? with | some p => some p.f.requestId | none => some x.f.requestId) := by
      cases xs with
      | nil => rfl
      | cons y ys => rw [List.getLast?_cons_cons, List.getLast?_eq_some_getLast (List.cons_ne_nil y ys)]
    rw [e]
    have hf := Wants.frame (last := last) (hqs x (by simp)) this
    simpa [framesBytes, List.append_assoc] using hf

theorem last_id (qs : List AnyFrame) : (match qs.getLast? with | some p => some p.f.requestId | none => none) =
    qs.getLast?.map fun p => p.f.requestId := by
  cases qs.getLast? <;> rfl

/-! ## C199, the asyncio listener -/

/-- C199. At any moment of any schedule, with resets, the end of the stream or without: if what has arrived is some whole
frames and a part of one more, then what the listener has done is what the first so many of the whole frames ask for, in
their order, and maybe the message at the end of the stream. -/
theorem C199_aio_acts (svc : Services) (reg : Registry) (evs : List LEv) (qs : List AnyFrame) (q : AnyFrame) (part : Bytes)
    (hqs : ∀ q ∈ qs, q.Ok) (hq : q.Ok) (hc : q.CutTo part) (hb : received evs = framesBytes qs ++ part) :
    ∃ n, (lrun svc reg evs).acts = (qs.take n).map AnyFrame.verdict ∨
      (sawEof evs = true ∧ (lrun svc reg evs).acts = qs.map AnyFrame.verdict ++
        [.close (if part.length < 22 then qs.getLast?.map (fun p => p.f.requestId) else some q.f.requestId)
          .connectionClosed]) := by
  have hw := CutTo.frames hqs hq hc none
  rw [← hb] at hw
  obtain ⟨e1, e2, -⟩ := lrun_env svc reg evs
  obtain ⟨l, rd, h1, hc⟩ := ReadInv.run svc reg evs
  rw [e1] at h1
  obtain ⟨rd', b', g1, g2, g3, -⟩ := stream_reads hw
  obtain ⟨l', hs, hl⟩ := h1.to_stuck g1 g2
  have htake : ∀ (l l' : List Act), qs.map AnyFrame.verdict = l ++ l' → l = (qs.take l.length).map AnyFrame.verdict := by
    intro l l' h
    rw [List.map_take, h, List.take_append_of_le_length (Nat.le_refl _), List.take_length]
  refine ⟨l.length, ?_⟩
  rcases hc with ⟨ha, -⟩ | ⟨-, ha, -⟩ | ⟨he, hstuck, -, -, ha⟩
  · exact .inl (ha.trans (htake l l' hl))
  · exact .inl (ha.trans (htake l l' hl))
  · obtain ⟨rfl, rfl, rfl⟩ := h1.unique hstuck g1 g2
    refine .inr ⟨e2 ▸ he, ?_⟩
    rw [ha, g3, last_id]

/-- C199, the calls of the asyncio listener: the tasks are those of the first so many of the whole frames, each once and in
their order. -/
theorem C199_aio_tasks (svc : Services) (reg : Registry) (evs : List LEv) (qs : List AnyFrame) (q : AnyFrame) (part : Bytes)
    (hqs : ∀ q ∈ qs, q.Ok) (hq : q.Ok) (hc : q.CutTo part) (hb : received evs = framesBytes qs ++ part) :
    ∃ n, (lrun svc reg evs).tasks.map Task.kind = (qs.take n).filterMap fun q => actTask q.verdict := by
  rw [(LInv.run svc reg evs).kinds]
  obtain ⟨n, h | ⟨-, h⟩⟩ := C199_aio_acts svc reg evs qs q part hqs hq hc hb
  · refine ⟨n, ?_⟩
    rw [h, List.filterMap_map]
    rfl
  · refine ⟨qs.length, ?_⟩
    rw [h, List.filterMap_append, List.filterMap_map, List.take_length,
      show ∀ i, List.filterMap actTask [Act.close i .connectionClosed] = [] from fun _ => rfl, List.append_nil]
    rfl

/-- C199, the methods that the asyncio listener runs: each has the content of one of the whole frames. -/
theorem C199_aio_calls (svc : Services) (reg : Registry) (evs : List LEv) (qs : List AnyFrame) (q : AnyFrame) (part : Bytes)
    (hqs : ∀ q ∈ qs, q.Ok) (hq : q.Ok) (hc : q.CutTo part) (hb : received evs = framesBytes qs ++ part) (x : Fut)
    (hx : x ∈ (lrun svc reg evs).futs) : ∃ p ∈ qs, p.PassesFor ∧ x.body = p.content := by
  obtain ⟨k, hk, rfl⟩ := List.getElem_of_mem hx
  have h := LInv.run svc reg evs
  obtain ⟨i, t, ht, hf⟩ := h.futOwner k hk
  have htk := h.task i t ht
  unfold TaskOk at htk
  split at htk
  · rw [htk.1] at hf; cases hf
  · next r hr =>
    obtain ⟨f', a, b, reg', h0, fresh, e1, e2, -⟩ := htk.2.2 k hf
    rw [List.getElem?_eq_getElem hk] at e1
    cases e1
    obtain ⟨n, hn⟩ := C199_aio_tasks svc reg evs qs q part hqs hq hc hb
    have hm : t.kind ∈ (lrun svc reg evs).tasks.map Task.kind := List.mem_map_of_mem (List.mem_of_getElem? ht)
    rw [hn, List.mem_filterMap] at hm
    obtain ⟨p, hp, hv⟩ := hm
    refine ⟨p, List.mem_of_mem_take hp, ?_⟩
    rw [hr] at hv
    unfold AnyFrame.verdict at hv
    split at hv
    · injection hv with hv; cases hv
    · next h0 =>
      split at hv
      · cases hv
      · next h1 =>
        injection hv with hv
        injection hv with hv
        refine ⟨⟨h0, fun e => h1 ⟨h0, .inl e⟩, ?_⟩, by rw [e2, ← hv]⟩
        by_cases hcl : p.cls = reqClass
        · exact hcl
        · exact absurd ⟨h0, .inr hcl⟩ h1

/-- And when the reader has gone as far as it can on a connection that is not reset, the whole frames have all been dealt
with; at the end of the stream CONNECTION_CLOSED follows, with the id of the cut request if that had arrived. -/
theorem C199_aio_rest (svc : Services) (reg : Registry) (evs : List LEv) (qs : List AnyFrame) (q : AnyFrame) (part : Bytes)
    (hqs : ∀ q ∈ qs, q.Ok) (hq : q.Ok) (hc : q.CutTo part) (hb : received evs = framesBytes qs ++ part)
    (hn : .reset ∉ evs) (hi : (lrun svc reg evs).idle) :
    (lrun svc reg evs).acts = qs.map AnyFrame.verdict ++
      (if sawEof evs then
        [.close (if part.length < 22 then qs.getLast?.map (fun p => p.f.requestId) else some q.f.requestId)
          .connectionClosed] else []) := by
  have hw := CutTo.frames hqs hq hc none
  rw [← hb] at hw
  obtain ⟨rd', b', g1, g2, g3, g4⟩ := stream_reads hw
  obtain ⟨l, rd, b, h1, h2, h3⟩ := run_cases svc reg evs hn hi
  obtain ⟨rfl, rfl, rfl⟩ := h1.unique h2 g1 g2
  have hne : rd.phase ≠ .stopped := fun e => by cases g4.1 e
  rw [h3, g3]
  cases sawEof evs with
  | false => simp
  | true =>
    rw [if_pos ⟨rfl, hne⟩, if_pos rfl, last_id]

/-! ## C199, the socket listener -/

theorem cut_incomplete {q : AnyFrame} {part : Bytes} (hq : q.Ok) (h : q.CutTo part) : Incomplete part := by
  have hw := CutTo.wants hq h none
  generalize ho : true = o at hw
  generalize (if part.length < 22 then none else some q.f.requestId) = l at hw
  generalize ha : ([] : List Act) = as at hw
  generalize hl : (none : Option Int) = l0 at hw
  cases hw with
  | short h => exact .inl h
  | @partHead _ f cl hl nl bs hf h1 h2 h3 h' => exact .inr ⟨f, cl, hl, nl, bs, hf, h1, h2, h3, rfl, .inl h'⟩
  | @partBody _ f cn hb nl d bs hf h1 h2 h3 hd h =>
    refine .inr ⟨f, cn.length, hb.length, nl, cn ++ (hb ++ bs), hf, h1, h2, h3, ?_, .inr ⟨?_, d, ?_⟩⟩
    · unfold frameHead; simp only [List.append_assoc]
    · simp only [List.length_append]; omega
    · rw [List.drop_append_of_le_length (Nat.le_refl _), List.drop_length, List.nil_append,
        List.take_append_of_le_length (Nat.le_refl _), List.take_length]
      exact hd
  | frame => cases ha
  | codec => cases ha
  | unicode => cases ho

/-- what a reset changes about a turn of the thread: nothing, or the connection is left with nothing done -/
def ResetTurn (s r r' : SSt) : Prop :=
  (r.phase = .done ∧ r.calls = s.calls ∧ r.out = s.out) ∨ r = { r' with reset := true }

theorem readexactly_reset {s : SSt} (n : Nat) (k : SSt → Bytes → SSt)
    (hk : ∀ (s' : SSt) bs, s'.calls = s.calls → s'.out = s.out → ResetTurn s (k { s' with reset := true } bs) (k s' bs)) :
    ResetTurn s (({ s with reset := true } : SSt).readexactly n k) (s.readexactly n k) := by
  unfold SSt.readexactly
  dsimp only
  by_cases h : s.acc.length < n
  · rw [if_pos h, if_pos rfl]
    exact .inl ⟨rfl, rfl, rfl⟩
  · rw [if_neg h, if_neg h]
    exact hk { s with acc := [] } s.acc rfl rfl

theorem send_reset {s s' : SSt} (m : Except PyExc Bytes) (h1 : s'.calls = s.calls) (h2 : s'.out = s.out) :
    ResetTurn s (({ s' with reset := true } : SSt).send m) (s'.send m) := by
  unfold SSt.send
  cases m with
  | error e => exact .inl ⟨rfl, h1, h2⟩
  | ok bs => exact .inl ⟨rfl, h1, h2⟩

theorem serve_reset (svc : Services) {s s' : SSt} (fresh : PyStr) (h : ReqHdr) (cn : Bytes) (d : PyDict PyStr PyStr)
    (body : Bytes) (h1 : s'.calls = s.calls) (h2 : s'.out = s.out) :
    ResetTurn s (({ s' with reset := true } : SSt).serve svc fresh h cn d body) (s'.serve svc fresh h cn d body) := by
  unfold SSt.serve
  dsimp only
  repeat' split
  all_goals first
    | exact send_reset _ h1 h2
    | exact .inl ⟨rfl, h1, h2⟩
    | exact .inr rfl

theorem handler_reset (svc : Services) (s : SSt) (fresh : PyStr) :
    ResetTurn s (({ s with reset := true } : SSt).handler svc fresh) (s.handler svc fresh) := by
  unfold SSt.handler
  dsimp only
  split
  · refine readexactly_reset _ _ fun s' bs h1 h2 => ?_
    split
    · exact .inl ⟨rfl, h1, h2⟩
    · exact .inr rfl
  · exact readexactly_reset _ _ fun s' bs h1 h2 => .inr rfl
  · refine readexactly_reset _ _ fun s' bs h1 h2 => ?_
    split
    · exact .inl ⟨rfl, h1, h2⟩
    · exact .inr rfl
  · exact readexactly_reset _ _ fun s' bs h1 h2 => serve_reset svc fresh _ _ _ bs h1 h2
  · exact .inr rfl
  · exact .inr rfl

theorem sreceived_filter (evs : List SEv) : sreceived (evs.filter (· ≠ .reset)) = sreceived evs := by
  induction evs with
  | nil => rfl
  | cons e evs ih => cases e <;> simp_all [sreceived]

/-- a connection that was left stays so -/
theorem sstep_done (svc : Services) {s : SSt} (h : s.phase = .done) (e : SEv) :
    (sstep svc s e).phase = .done ∧ (sstep svc s e).calls = s.calls ∧ (sstep svc s e).out = s.out := by
  cases e with
  | data bs => simp only [sstep]; split <;> exact ⟨h, rfl, rfl⟩
  | eof => exact ⟨h, rfl, rfl⟩
  | reset => exact ⟨h, rfl, rfl⟩
  | handler f => simp only [sstep, SSt.handler, h]; exact ⟨trivial, trivial, trivial⟩
  | finish o => simp only [sstep, h]; exact ⟨trivial, trivial, trivial⟩
  | register r => exact ⟨h, rfl, rfl⟩

theorem sreceived_grows (evs : List SEv) (e : SEv) : ∃ x, sreceived (evs ++ [e]) = sreceived evs ++ x := by
  induction evs with
  | nil => exact ⟨_, rfl⟩
  | cons a evs ih =>
    obtain ⟨x, hx⟩ := ih
    cases a with
    | data bs => exact ⟨x, by simp only [List.cons_append, sreceived, hx, List.append_assoc]⟩
    | eof => exact ⟨[], rfl⟩
    | _ => exact ⟨x, by simp only [List.cons_append, sreceived, hx]⟩

/-- C199 for the socket listener, at any moment of any schedule, with resets or without: a request of which only a part
arrives is not executed, and nothing is written. -/
theorem C199_sock (svc : Services) (reg : Registry) (evs : List SEv) (q : AnyFrame) (hq : q.Ok)
    (hc : q.CutTo (sreceived evs)) : (srun svc reg evs).calls = [] ∧ (srun svc reg evs).out = [] := by
  have quiet : ∀ evs : List SEv, .reset ∉ evs → q.CutTo (sreceived evs) →
      (srun svc reg evs).calls = [] ∧ (srun svc reg evs).out = [] := by
    intro evs hn hc
    have hi := cut_incomplete hq hc
    rcases C110_every_stream svc reg evs hn with ⟨-, -, -, -, h1, h2⟩ | ⟨h, -⟩ | ⟨h, -⟩
    · exact ⟨h2, h1⟩
    · exact absurd hi h
    · exact absurd hi h
  have hf : ∀ evs : List SEv, .reset ∉ evs.filter (· ≠ .reset) := by
    intro evs h
    simp at h
  suffices h : ∀ evs : List SEv, q.CutTo (sreceived evs) →
      ((srun svc reg evs).phase = .done ∧ (srun svc reg evs).calls = [] ∧ (srun svc reg evs).out = []) ∨
      ∃ b, srun svc reg evs = { srun svc reg (evs.filter (· ≠ .reset)) with reset := b } by
    rcases h evs hc with ⟨-, h⟩ | ⟨b, h⟩
    · exact h
    · have := quiet _ (hf evs) (by rw [sreceived_filter]; exact hc)
      rw [h]
      exact this
  intro evs
  induction evs using snoc_induct with
  | nil => exact fun _ => .inr ⟨false, rfl⟩
  | snoc evs e ih =>
    intro hc'
    have hc : q.CutTo (sreceived evs) := by
      obtain ⟨x, hx⟩ := sreceived_grows evs e
      obtain ⟨more, hm, e⟩ := hc'
      rw [hx, List.append_assoc] at e
      exact ⟨x ++ more, fun h => hm (List.append_eq_nil_iff.1 h).2, e⟩
    have hrun : srun svc reg (evs ++ [e]) = sstep svc (srun svc reg evs) e := by rw [srun_append]; rfl
    rcases ih hc with ⟨h1, h2, h3⟩ | ⟨b, h⟩
    · obtain ⟨g1, g2, g3⟩ := sstep_done svc h1 e
      rw [hrun]
      exact .inl ⟨g1, g2.trans h2, g3.trans h3⟩
    · have hq0 := quiet _ (hf evs) (by rw [sreceived_filter]; exact hc)
      have hr0 : (srun svc reg (evs.filter (· ≠ .reset))).reset = false := by
        obtain ⟨-, -, e3, -⟩ := srun_env svc reg (evs.filter (· ≠ .reset))
        rw [e3]
        simp
      have hfil : e ≠ .reset → srun svc reg ((evs ++ [e]).filter (· ≠ .reset)) =
          sstep svc (srun svc reg (evs.filter (· ≠ .reset))) e := by
        intro he
        rw [List.filter_append]
        have : [e].filter (· ≠ .reset) = [e] := by simp [he]
        rw [this, srun_append]
        rfl
      have hfil' : srun svc reg ((evs ++ [SEv.reset]).filter (· ≠ .reset)) = srun svc reg (evs.filter (· ≠ .reset)) := by
        rw [List.filter_append]
        have : [SEv.reset].filter (· ≠ .reset) = [] := rfl
        rw [this, List.append_nil]
      rw [hrun, h]
      clear hrun h ih
      generalize srun svc reg (evs.filter (· ≠ .reset)) = s' at *
      by_cases he : e = .reset
      · subst he
        rw [hfil']
        exact .inr ⟨true, rfl⟩
      · rw [hfil he]
        cases b with
        | false =>
          have hss : ({ s' with reset := false } : SSt) = s' := by
            have : ∀ b, s'.reset = b → ({ s' with reset := b } : SSt) = s' := by
              intro b hb
              subst hb
              rfl
            exact this _ hr0
          rw [hss]
          exact .inr ⟨_, rfl⟩
        | true =>
          cases e with
          | reset => exact absurd rfl he
          | data bs =>
            refine .inr ⟨true, ?_⟩
            simp only [sstep]
            split <;> rfl
          | eof => exact .inr ⟨true, rfl⟩
          | register r => exact .inr ⟨true, rfl⟩
          | handler f =>
            rcases handler_reset svc s' f with ⟨g1, g2, g3⟩ | g
            · exact .inl ⟨g1, g2.trans hq0.1, g3.trans hq0.2⟩
            · exact .inr ⟨true, g⟩
          | finish o =>
            simp only [sstep]
            split
            · next id hp =>
              cases o with
              | raised x => exact .inl ⟨rfl, hq0.1, hq0.2⟩
              | ret v =>
                dsimp only
                rcases send_reset (s := s') (s' := { s' with result := some (.ret v) }) (resultMsg v id) rfl rfl with
                  ⟨g1, g2, g3⟩ | g
                · exact .inl ⟨g1, g2.trans hq0.1, g3.trans hq0.2⟩
                · exact .inr ⟨true, g⟩
            · exact .inr ⟨true, rfl⟩

/-! ## Concrete cases -/

/-- a request, and the first 30 bytes of another; then the client has gone -/
def exCutEvs : List LEv :=
  [.data ((exReq 3 [1]).bytes ++ (exReq 4 [9]).bytes.take 30), .reader, .reader, .reader, .reader, .reader, .reader, .eof,
   .reader, .reader, .reader, .run 0 (py "t"), .futStart 0, .futFinish 0 (.ret (.bytes [7])), .result 0]

theorem exCut (k : Nat) (hk : k < (exReq 4 [9]).any.bytes.length) :
    (exReq 4 [9]).any.CutTo ((exReq 4 [9]).any.bytes.take k) := by
  refine ⟨(exReq 4 [9]).any.bytes.drop k, ?_, List.take_append_drop _ _⟩
  intro h
  have := congrArg List.length h
  rw [List.length_drop] at this
  simp only [List.length_nil] at this
  omega

set_option maxRecDepth 40000 in
/-- the first request is executed, the second is not; CONNECTION_CLOSED is written with the id of the second -/
example : (∀ q ∈ [(exReq 3 [1]).any], q.Ok) ∧ (exReq 4 [9]).any.Ok ∧
    (exReq 4 [9]).any.CutTo ((exReq 4 [9]).any.bytes.take 30) ∧
    received exCutEvs = framesBytes [(exReq 3 [1]).any] ++ (exReq 4 [9]).any.bytes.take 30 ∧
    (lrun exServices exReg exCutEvs).idle ∧
    (lrun exServices exReg exCutEvs).futs.map Fut.body = [[1]] ∧
    (lrun exServices exReg exCutEvs).acts = [.dispatch (exReq 3 [1]).req, .close (some 4) .connectionClosed] := by
  have hok : ∀ id b, (id = 3 ∨ id = 4) → (b = [1] ∨ b = [9]) → AnyFrame.Ok (exReq id b).any := by
    intro id b h1 h2
    have : (exReq id b).Ok := by
      rcases h1 with rfl | rfl <;> rcases h2 with rfl | rfl <;>
        exact exReq_ok _ _ (by constructor <;> decide) (by decide)
    exact ⟨this.fit, this.body, this.decodes⟩
  refine ⟨?_, hok _ _ (.inr rfl) (.inr rfl), exCut 30 (by decide +kernel), by decide +kernel, by decide +kernel,
    by decide +kernel, by decide +kernel⟩
  intro q hq
  rw [List.mem_singleton.1 hq]
  exact hok _ _ (.inl rfl) (.inl rfl)

set_option maxRecDepth 40000 in
/-- the socket listener, with all but the content, and a reset -/
example :
    let evs : List SEv := [.data ((exReq 4 [9]).any.bytes.take 40), .handler [], .handler [], .reset, .handler [], .handler []]
    sreceived evs = (exReq 4 [9]).any.bytes.take 40 ∧ (exReq 4 [9]).any.CutTo (sreceived evs) ∧
    (srun exServices exReg evs).phase = .done ∧ (srun exServices exReg evs).calls = [] :=
  ⟨by decide +kernel, exCut 40 (by decide +kernel), by decide +kernel, by decide +kernel⟩

end Bolt
