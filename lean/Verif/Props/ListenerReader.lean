import Verif.Lemmas.ListenerRead
/-!
# C66–C70: what the listener's reader makes of a byte stream
-/
namespace Bolt
open Spec

/-! ### preliminaries -/

theorem RSteps.to_stuck {r r1 r2 : ReadSt} {b b1 b2 : Bytes} {l1 l2 : List Act} (h1 : RSteps r b l1 r1 b1)
    (h2 : RSteps r b l2 r2 b2) (hn : readerIter r2 b2 false = none) :
    ∃ l, RSteps r1 b1 l r2 b2 ∧ l2 = l1 ++ l := by
  rcases h1.confluent h2 with h | ⟨l, h, e⟩
  · exact h
  · obtain ⟨rfl, rfl, rfl⟩ := h.stuck hn
    exact ⟨[], .refl _ _, by simpa using e.symm⟩

/-- two runs to the end are the same run -/
theorem RSteps.unique {r r1 r2 : ReadSt} {b b1 b2 : Bytes} {l1 l2 : List Act} (h1 : RSteps r b l1 r1 b1)
    (n1 : readerIter r1 b1 false = none) (h2 : RSteps r b l2 r2 b2) (n2 : readerIter r2 b2 false = none) :
    l1 = l2 ∧ r1 = r2 ∧ b1 = b2 := by
  obtain ⟨l, h, e⟩ := h1.to_stuck h2 n2
  obtain ⟨rfl, rfl, rfl⟩ := h.stuck n1
  exact ⟨by simpa using e.symm, rfl, rfl⟩

/-- at the start of an iteration the id left over from the previous one makes no difference -/
theorem readerIter_hdr_last (a a' : Option Int) (b : Bytes) :
    readerIter ⟨.hdr, a⟩ b false = readerIter ⟨.hdr, a'⟩ b false := by
  unfold readerIter
  dsimp only
  by_cases h : PkgClass.boltRequest.headerSize ≤ b.length
  · rw [if_pos h, if_pos h]
    have hl : (b.take PkgClass.boltRequest.headerSize).length = 22 := by
      rw [List.length_take]; rw [boltRequest_headerSize] at *; omega
    obtain ⟨f, cl, hl', nl, -, -, -, -, -, he⟩ := reqHdr_total _ hl
    rw [he]
  · rw [if_neg h, if_neg h]; rfl

theorem RSteps.last_irrelevant {a a' : Option Int} {b b1 b2 : Bytes} {l1 l2 : List Act} {r1 r2 : ReadSt}
    (h1 : RSteps ⟨.hdr, a⟩ b l1 r1 b1) (n1 : readerIter r1 b1 false = none)
    (h2 : RSteps ⟨.hdr, a'⟩ b l2 r2 b2) (n2 : readerIter r2 b2 false = none) :
    l1 = l2 ∧ r1.phase = r2.phase := by
  cases h1 with
  | refl =>
    rw [readerIter_hdr_last a a'] at n1
    obtain ⟨rfl, rfl, -⟩ := h2.stuck n1
    exact ⟨rfl, rfl⟩
  | step h t =>
    rw [readerIter_hdr_last a a'] at h
    have := RSteps.unique (.step h t) n1 h2 n2
    exact ⟨this.1, by rw [this.2.1]⟩

theorem handleFrame_verdict (q : AnyFrame) :
    handleFrame ⟨q.f.ptype, q.f.cmdcode, q.f.requestId, q.f.seventh, q.cls.length, q.hdr.length, q.content.length⟩
      q.cls q.header q.content = q.verdict := by
  unfold handleFrame AnyFrame.verdict AnyFrame.Refused reqClass
  simp only [CmdCode.code]
  by_cases h0 : q.f.cmdcode = 0
  · simp [h0]
  · by_cases h2 : q.f.cmdcode = 2
    · simp [h2, onError]
    · by_cases hc : q.cls = pyb "com.alipay.sofa.rpc.core.request.SofaRequest"
      · simp [h0, h2, hc]
      · simp [h0, h2, hc, onError]

theorem verdict_next (q : AnyFrame) : q.verdict.next = .hdr := by
  unfold AnyFrame.verdict
  split
  · rfl
  · split <;> rfl

theorem reads_any (q : AnyFrame) (hq : q.Ok) (last : Option Int) (rest : Bytes) :
    RSteps ⟨.hdr, last⟩ (q.bytes ++ rest) [q.verdict] ⟨.hdr, some q.f.requestId⟩ rest := by
  have := reads_frame q.f q.cls q.hdr q.content q.header hq.fit hq.body hq.decodes last rest
  rw [handleFrame_verdict, verdict_next] at this
  exact this

theorem reads_frames (qs : List AnyFrame) (hq : ∀ q ∈ qs, q.Ok) (last : Option Int) (rest : Bytes) :
    ∃ last', RSteps ⟨.hdr, last⟩ (framesBytes qs ++ rest) (qs.map AnyFrame.verdict) ⟨.hdr, last'⟩ rest ∧
      last' = (match qs.getLast? with | some q => some q.f.requestId | none => last) := by
  induction qs generalizing last with
  | nil => exact ⟨last, .refl _ _, rfl⟩
  | cons q qs ih =>
    obtain ⟨last', h, e⟩ := ih (fun x hx => hq x (by simp [hx])) (some q.f.requestId)
    refine ⟨last', ?_, ?_⟩
    · have := (reads_any q (hq q (by simp)) last (framesBytes qs ++ rest)).trans h
      simpa [framesBytes, List.append_assoc] using this
    · cases qs with
      | nil => exact e
      | cons x xs => rw [e, List.getLast?_cons_cons, List.getLast?_eq_some_getLast (List.cons_ne_nil x xs)]

/-- what an undisturbed schedule amounts to -/
theorem run_cases (svc : Services) (reg : Registry) (evs : List LEv) (hn : .reset ∉ evs)
    (hi : (lrun svc reg evs).idle) :
    ∃ l rd b, RSteps {} (received evs) l rd b ∧ readerIter rd b false = none ∧
      (lrun svc reg evs).acts =
        l ++ (if sawEof evs ∧ rd.phase ≠ .stopped then [.close rd.last .connectionClosed] else []) := by
  obtain ⟨e1, e2, e3⟩ := lrun_env svc reg evs
  have hl : (lrun svc reg evs).lost = false := by
    rw [e3]; simpa using hn
  obtain ⟨l, rd, b, h1, h2, h3, -⟩ := idle_cases (LInv.run svc reg evs) (ReadInv.run svc reg evs) hl hi
  rw [e1] at h1
  rw [e2] at h3
  exact ⟨l, rd, b, h1, h2, h3⟩

/-- the reply of a reader action, once the reader has gone on, is on the wire -/
theorem replied (svc : Services) (reg : Registry) (evs : List LEv) (hn : .reset ∉ evs)
    (hi : (lrun svc reg evs).idle) (n : Nat) (a : Act) (m : Bytes) (ha : (lrun svc reg evs).acts[n]? = some a)
    (hm : actReply a = some m) : (Origin.reader n, m) ∈ (lrun svc reg evs).out := by
  obtain ⟨e1, e2, e3⟩ := lrun_env svc reg evs
  have hl : (lrun svc reg evs).lost = false := by
    rw [e3]; simpa using hn
  rcases (ReplyInv.run svc reg evs).written n a m ha hm with h | h | ⟨-, h⟩
  · rw [hl] at h; cases h
  · exact h
  · exact absurd hi.1 h

/-! ## C66 -/

/-- C66. What the reader does with a stream is determined by the bytes and by whether the stream has ended: any two
schedules that deliver the same bytes, in whatever chunks and interleaved with whatever other events, in which the
reader gets to run until it has to wait, do the same things in the same order and start the same tasks. -/
theorem C66_chunking (svc svc' : Services) (reg reg' : Registry) (evs evs' : List LEv)
    (hb : received evs = received evs') (he : sawEof evs = sawEof evs') (hn : .reset ∉ evs) (hn' : .reset ∉ evs')
    (hi : (lrun svc reg evs).idle) (hi' : (lrun svc' reg' evs').idle) :
    (lrun svc reg evs).acts = (lrun svc' reg' evs').acts ∧
    (lrun svc reg evs).tasks.map Task.kind = (lrun svc' reg' evs').tasks.map Task.kind := by
  obtain ⟨l, rd, b, h1, h2, h3⟩ := run_cases svc reg evs hn hi
  obtain ⟨l', rd', b', h1', h2', h3'⟩ := run_cases svc' reg' evs' hn' hi'
  rw [← hb] at h1'
  obtain ⟨rfl, rfl, rfl⟩ := h1.unique h2 h1' h2'
  have e : (lrun svc reg evs).acts = (lrun svc' reg' evs').acts := by rw [h3, h3', he]
  exact ⟨e, by rw [(LInv.run svc reg evs).kinds, (LInv.run svc' reg' evs').kinds, e]⟩

/-- C66, before the reader has caught up: on a stream that has not ended, at any moment of any schedule the reader
has done an initial part of what any other schedule that delivers these bytes, or more bytes, ends up doing. -/
theorem C66_prefix (svc svc' : Services) (reg reg' : Registry) (evs evs' : List LEv)
    (hb : received evs <+: received evs') (he : sawEof evs = false) (hn : .reset ∉ evs) (hn' : .reset ∉ evs')
    (hi' : (lrun svc' reg' evs').idle) :
    (lrun svc reg evs).acts <+: (lrun svc' reg' evs').acts := by
  obtain ⟨e1, e2, e3⟩ := lrun_env svc reg evs
  obtain ⟨l', rd', b', h1', h2', h3'⟩ := run_cases svc' reg' evs' hn' hi'
  obtain ⟨l, rd, hs, hc⟩ := ReadInv.run svc reg evs
  obtain ⟨x, hx⟩ := hb
  have hs' := hs.append x
  rw [e1, hx] at hs'
  obtain ⟨l2, -, hl2⟩ := hs'.to_stuck h1' h2'
  have ha : (lrun svc reg evs).acts = l := by
    rcases hc with h | ⟨h, -⟩ | ⟨h, -⟩
    · exact h.1
    · rw [e3] at h; simp at h; exact absurd h hn
    · rw [e2, he] at h; cases h
  rw [ha, h3', hl2, List.append_assoc]
  exact List.prefix_append _ _

/-- steps the reader can still make: four reads per frame -/
def ReadSt.rank (r : ReadSt) : Nat :=
  match r.phase with
  | .cls _ => 4
  | .shdr _ _ => 3
  | .body _ _ _ => 2
  | .hdr => 1
  | .stopped => 0

theorem readerIter_rank {r r' : ReadSt} {b b' : Bytes} {e : Bool} {a : Option Act}
    (h : readerIter r b e = some (r', b', a)) : 5 * b'.length + r'.rank < 5 * b.length + r.rank := by
  have hnext : ∀ (x : Act) (l : Option Int), ReadSt.rank ⟨x.next, l⟩ ≤ 1 := by
    intro x l; cases x <;> simp [Act.next, ReadSt.rank]
  have hs := boltRequest_headerSize
  unfold readerIter at h
  split at h
  · next hp =>
    dsimp only at h
    split at h
    · next hle =>
      split at h
      · cases h
        have := hnext (onError (by assumption) r.last) r.last
        rw [List.length_drop]
        simp only [ReadSt.rank, hp] at *
        omega
      · cases h
        rw [List.length_drop]
        simp only [ReadSt.rank, hp]
        omega
    · split at h
      · cases h; simp [ReadSt.rank, hp]
      · cases h
  · next hp =>
    dsimp only at h
    split at h
    · cases h
      rw [List.length_drop]
      simp only [ReadSt.rank, hp]
      omega
    · split at h
      · cases h; simp [ReadSt.rank, hp]
      · cases h
  · next hp =>
    dsimp only at h
    split at h
    · split at h
      · cases h
        have := hnext (onError (by assumption) r.last) r.last
        rw [List.length_drop]
        simp only [ReadSt.rank, hp] at *
        omega
      · cases h
        rw [List.length_drop]
        simp only [ReadSt.rank, hp]
        omega
    · split at h
      · cases h; simp [ReadSt.rank, hp]
      · cases h
  · next hh cn d hp =>
    dsimp only at h
    split at h
    · cases h
      have := hnext (handleFrame hh cn d (b.take hh.contentLen.toNat)) r.last
      rw [List.length_drop]
      simp only [ReadSt.rank, hp] at *
      omega
    · split at h
      · cases h; simp [ReadSt.rank, hp]
      · cases h
  · cases h

theorem write_same (s : LSt) (o : Origin) (m : Bytes) : (s.write o m).rd = s.rd ∧ (s.write o m).buf = s.buf := by
  unfold LSt.write; split <;> exact ⟨rfl, rfl⟩

/-- C66: the reader always gets to that point, after finitely many turns. -/
theorem C66_progress (svc : Services) (reg : Registry) (evs : List LEv) :
    ∃ n, (lrun svc reg (evs ++ List.replicate n .reader)).idle := by
  suffices ∀ (m : Nat) (evs : List LEv),
      2 * (5 * (lrun svc reg evs).buf.length + (lrun svc reg evs).rd.rank) +
        (if (lrun svc reg evs).tail = .reading then 0 else 1) = m →
      ∃ n, (lrun svc reg (evs ++ List.replicate n .reader)).idle from this _ evs rfl
  intro m
  induction m using Nat.strongRecOn with
  | ind m ih =>
    intro evs hm
    by_cases hi : (lrun svc reg evs).idle
    · exact ⟨0, by simpa using hi⟩
    · have key : ∀ s : LSt, LInv svc s → ¬ s.idle →
          2 * (5 * s.reader.buf.length + s.reader.rd.rank) + (if s.reader.tail = .reading then 0 else 1) <
          2 * (5 * s.buf.length + s.rd.rank) + (if s.tail = .reading then 0 else 1) := by
        intro s hinv hi
        by_cases ht : s.tail = .reading
        · rw [if_pos ht]
          have hr : s.reader = match readerIter s.rd s.buf s.eof with
              | none => s
              | some (rd, buf, none) => { s with rd := rd, buf := buf }
              | some (rd, buf, some a) => LSt.perform { s with rd := rd, buf := buf } a := by
            unfold LSt.reader
            split
            · rfl
            all_goals (next h => rw [ht] at h; cases h)
          rw [hr]
          cases h : readerIter s.rd s.buf s.eof with
          | none => exact absurd ⟨ht, h⟩ hi
          | some x =>
            obtain ⟨rd, buf, a⟩ := x
            have := readerIter_rank h
            cases a with
            | none => dsimp only; rw [if_pos ht]; omega
            | some a =>
              have hok := readerIter_ok hinv.rdOk h
              have hp := hinv.perform a ht (fun i ha => hok.1.last i (hok.2.1 a i rfl ha)) rd hok.1 buf
              obtain ⟨-, -, f3, -, -, -⟩ := perform_fields { s with rd := rd, buf := buf } a
              dsimp only
              rw [f3, hp.2]
              dsimp only
              split <;> omega
        · have h1 : s.reader.tail = .reading ∧ s.reader.rd = s.rd ∧ s.reader.buf = s.buf := by
            unfold LSt.reader
            split
            · next h => exact absurd h ht
            · exact ⟨rfl, (write_same s _ _).1, (write_same s _ _).2⟩
            · exact ⟨rfl, rfl, rfl⟩
            · exact ⟨rfl, (write_same s _ _).1, (write_same s _ _).2⟩
          rw [h1.2.1, h1.2.2, if_pos h1.1, if_neg ht]
          omega
      have e : lrun svc reg (evs ++ [.reader]) = (lrun svc reg evs).reader := by
        unfold lrun; rw [List.foldl_append]; rfl
      have hlt := key _ (LInv.run svc reg evs) hi
      rw [← e, hm] at hlt
      obtain ⟨n, hn⟩ := ih _ hlt (evs ++ [.reader]) rfl
      refine ⟨n + 1, ?_⟩
      rw [List.replicate_succ]
      simpa [List.append_assoc] using hn

/-! ## C67 -/

theorem request_verdict (q : ReqFrame) (hq : q.Ok) : q.any.verdict = .dispatch q.req := by
  have h0 := hq.cmd.1
  have h2 := hq.cmd.2
  simp [AnyFrame.verdict, ReqFrame.any, AnyFrame.Refused, h0, h2, ReqFrame.req]

/-- C67. After a stream that is a concatenation of well-formed requests has been read, the server has dispatched them,
each once and in order, with the ids, headers, bodies, types and timeouts of the frames, and has started no other
task; a stream that has ended is closed after that. -/
theorem C67_pipelined (svc : Services) (reg : Registry) (evs : List LEv) (qs : List ReqFrame) (hq : ∀ q ∈ qs, q.Ok)
    (hb : received evs = (qs.map ReqFrame.bytes).flatten) (hn : .reset ∉ evs) (hi : (lrun svc reg evs).idle) :
    (lrun svc reg evs).acts = (qs.map fun q => Act.dispatch q.req) ++
      (if sawEof evs then [.close (qs.getLast?.map fun q => q.f.requestId) .connectionClosed] else []) ∧
    (lrun svc reg evs).tasks.map Task.kind = qs.map fun q => TaskKind.dispatch q.req := by
  have hd : ∀ qs : List ReqFrame, (∀ q ∈ qs, q.Ok) →
      (qs.map ReqFrame.any).map AnyFrame.verdict = qs.map fun q => Act.dispatch q.req := by
    intro qs hq
    rw [List.map_map]
    apply List.map_congr_left
    intro q hx
    exact request_verdict q (hq q hx)
  obtain ⟨l, rd, b, h1, h2, h3⟩ := run_cases svc reg evs hn hi
  have hany : ∀ q ∈ qs.map ReqFrame.any, q.Ok := by
    intro q hx
    rw [List.mem_map] at hx
    obtain ⟨x, hx, rfl⟩ := hx
    exact ⟨(hq x hx).fit, (hq x hx).body, (hq x hx).decodes⟩
  obtain ⟨last', hr, hlast⟩ := reads_frames (qs.map ReqFrame.any) hany none []
  have eb : framesBytes (qs.map ReqFrame.any) ++ [] = received evs := by
    rw [hb, List.append_nil, framesBytes, List.map_map]; rfl
  rw [eb, hd qs hq] at hr
  have hstop : readerIter ⟨.hdr, last'⟩ [] false = none := by rfl
  obtain ⟨rfl, rfl, rfl⟩ := h1.unique h2 hr hstop
  have hl : last' = qs.getLast?.map fun q => q.f.requestId := by
    rw [hlast, List.getLast?_map]
    cases qs.getLast? <;> rfl
  have ha : (lrun svc reg evs).acts = (qs.map fun q => Act.dispatch q.req) ++
      (if sawEof evs then [.close (qs.getLast?.map fun q => q.f.requestId) .connectionClosed] else []) := by
    rw [h3, ← hl]; simp
  refine ⟨ha, ?_⟩
  rw [(LInv.run svc reg evs).kinds, ha, List.filterMap_append]
  have : ∀ qs : List ReqFrame, (qs.map fun q => Act.dispatch q.req).filterMap actTask =
      qs.map fun q => TaskKind.dispatch q.req := by
    intro qs
    induction qs with
    | nil => rfl
    | cons q qs ih => simp [actTask, ih]
  rw [this]
  split <;> simp [actTask]

/-! ## C68 -/

/-- C68. A frame with a wrong class name or a RESPONSE command code, between any frames before it and any bytes after
it: it is answered CLIENT_SEND_ERROR with its id, and everything else is handled as on a connection on which it was
not sent. -/
theorem C68_survives_rejection (svc svc' : Services) (reg reg' : Registry) (evs evs' : List LEv)
    (pre : List AnyFrame) (bad : AnyFrame) (post : Bytes) (hpre : ∀ q ∈ pre, q.Ok) (hbad : bad.Ok)
    (href : bad.Refused) (hb : received evs = framesBytes pre ++ bad.bytes ++ post)
    (hb' : received evs' = framesBytes pre ++ post) (he : sawEof evs = false) (he' : sawEof evs' = false)
    (hn : .reset ∉ evs) (hn' : .reset ∉ evs') (hi : (lrun svc reg evs).idle) (hi' : (lrun svc' reg' evs').idle) :
    (∃ l, (lrun svc' reg' evs').acts = pre.map AnyFrame.verdict ++ l ∧
      (lrun svc reg evs).acts =
        pre.map AnyFrame.verdict ++ [.reject bad.f.requestId .clientSendError] ++ l) ∧
    (lrun svc reg evs).tasks.map Task.kind = (lrun svc' reg' evs').tasks.map Task.kind ∧
    (Origin.reader pre.length, reply bad.f.requestId 0x08 []) ∈ (lrun svc reg evs).out := by
  obtain ⟨l, rd, b, h1, h2, h3⟩ := run_cases svc reg evs hn hi
  obtain ⟨l', rd', b', h1', h2', h3'⟩ := run_cases svc' reg' evs' hn' hi'
  rw [hb] at h1
  rw [hb'] at h1'
  rw [he] at h3
  rw [he'] at h3'
  simp only [Bool.false_eq_true, false_and, if_false, List.append_nil] at h3 h3'
  have hv : bad.verdict = .reject bad.f.requestId .clientSendError := by
    unfold AnyFrame.verdict
    rw [if_neg href.1, if_pos href]
  obtain ⟨a1, r1, -⟩ := reads_frames pre hpre none (bad.bytes ++ post)
  obtain ⟨a2, r2, -⟩ := reads_frames pre hpre none post
  have r3 := r1.trans (reads_any bad hbad a1 post)
  rw [← List.append_assoc, hv] at r3
  obtain ⟨x, hx, ex⟩ := r3.to_stuck h1 h2
  obtain ⟨y, hy, ey⟩ := r2.to_stuck h1' h2'
  obtain ⟨rfl, -⟩ := RSteps.last_irrelevant hx h2 hy h2'
  have hA : (lrun svc reg evs).acts =
      pre.map AnyFrame.verdict ++ [.reject bad.f.requestId .clientSendError] ++ x := by rw [h3, ex]
  have hA' : (lrun svc' reg' evs').acts = pre.map AnyFrame.verdict ++ x := by rw [h3', ey]
  refine ⟨⟨x, hA', hA⟩, ?_, ?_⟩
  · rw [(LInv.run svc reg evs).kinds, (LInv.run svc' reg' evs').kinds, hA, hA']
    rw [List.filterMap_append, List.filterMap_append, List.filterMap_append]
    simp [actTask]
  · refine replied svc reg evs hn hi _ (.reject bad.f.requestId .clientSendError) _ ?_ rfl
    rw [hA]
    simp

/-! ## C69 -/

/-- C69 as listed. -/
def C69_full : Prop :=
  ∀ (svc svc' : Services) (reg reg' : Registry) (evs evs' : List LEv)
    (pre : List AnyFrame) (f : Fields) (cls hdr content : Bytes) (e : PyExc) (post : Bytes), (∀ q ∈ pre, q.Ok) →
    Fields.Fit true f → BodyFit cls hdr content → headerFromBytes hdr = .error e →
    received evs = framesBytes pre ++ frame true f cls hdr content ++ post →
    received evs' = framesBytes pre ++ post → sawEof evs = false → sawEof evs' = false →
    .reset ∉ evs → .reset ∉ evs' → (lrun svc reg evs).idle → (lrun svc' reg' evs').idle →
    (∃ l, (lrun svc' reg' evs').acts = pre.map AnyFrame.verdict ++ l ∧
      (lrun svc reg evs).acts = pre.map AnyFrame.verdict ++ [.reject f.requestId .codecException] ++ l) ∧
    (Origin.reader pre.length, reply f.requestId 0x09 []) ∈ (lrun svc reg evs).out

/-- reading a frame with an undecodable header: the content is not read -/
theorem reads_bad (f : Fields) (cls hdr content : Bytes) (e : PyExc) (hf : Fields.Fit true f)
    (hb : BodyFit cls hdr content) (he : headerFromBytes hdr = .error e) (last : Option Int) (rest : Bytes) :
    RSteps ⟨.hdr, last⟩ (frame true f cls hdr content ++ rest) [onError e (some f.requestId)]
      ⟨(onError e (some f.requestId)).next, some f.requestId⟩ (content ++ rest) := by
  have h1 := reads_prefix f cls hdr content.length hf hb.1 hb.2.1 hb.2.2 last (content ++ rest)
  have e1 : fixedPart true f cls.length hdr.length content.length ++ cls ++ hdr ++ (content ++ rest) =
      frame true f cls hdr content ++ rest := by simp [frame, List.append_assoc]
  rw [e1] at h1
  have h2 : readerIter ⟨.shdr ⟨f.ptype, f.cmdcode, f.requestId, f.seventh, cls.length, hdr.length, content.length⟩ cls,
      some f.requestId⟩ (hdr ++ (content ++ rest)) false =
      some (⟨(onError e (some f.requestId)).next, some f.requestId⟩, content ++ rest,
        some (onError e (some f.requestId))) := by
    unfold readerIter
    dsimp only
    rw [if_pos (by simp)]
    have ht : (hdr ++ (content ++ rest)).take ((hdr.length : Int).toNat) = hdr := by simp
    have hd : (hdr ++ (content ++ rest)).drop ((hdr.length : Int).toNat) = content ++ rest := by simp
    rw [ht, hd, he]
  exact h1.trans (.one h2)

/-- C69, what holds. A frame whose header bytes are not a sequence of length-prefixed strings is answered
CODEC_EXCEPTION with its id; but the reader then goes on with the frame's own content, and not with what follows it.
A frame with empty content is therefore survived. A frame whose header strings are not UTF-8 is answered UNKNOWN, the
reader ends, and nothing after it is read. Missing for C69: the content is not skipped, and the case of invalid
UTF-8. -/
theorem C69_undecodable_header_partial (svc svc' : Services) (reg reg' : Registry) (evs evs' : List LEv)
    (pre : List AnyFrame) (f : Fields) (cls hdr content : Bytes) (e : PyExc) (post : Bytes)
    (hpre : ∀ q ∈ pre, q.Ok) (hf : Fields.Fit true f) (hbf : BodyFit cls hdr content)
    (hh : headerFromBytes hdr = .error e)
    (hb : received evs = framesBytes pre ++ frame true f cls hdr content ++ post)
    (hb' : received evs' = framesBytes pre ++ (content ++ post)) (he : sawEof evs = false)
    (he' : sawEof evs' = false)
    (hn : .reset ∉ evs) (hn' : .reset ∉ evs') (hi : (lrun svc reg evs).idle) (hi' : (lrun svc' reg' evs').idle) :
    (e.isProtocolError = true ∧
      (∃ l, (lrun svc' reg' evs').acts = pre.map AnyFrame.verdict ++ l ∧
        (lrun svc reg evs).acts = pre.map AnyFrame.verdict ++ [.reject f.requestId .codecException] ++ l) ∧
      (Origin.reader pre.length, reply f.requestId 0x09 []) ∈ (lrun svc reg evs).out) ∨
    (e.isProtocolError = false ∧
      (lrun svc reg evs).acts = pre.map AnyFrame.verdict ++ [.close (some f.requestId) .unknown] ∧
      (Origin.reader pre.length, reply f.requestId 0x03 []) ∈ (lrun svc reg evs).out) := by
  obtain ⟨l, rd, b, h1, h2, h3⟩ := run_cases svc reg evs hn hi
  obtain ⟨l', rd', b', h1', h2', h3'⟩ := run_cases svc' reg' evs' hn' hi'
  rw [hb] at h1
  rw [hb'] at h1'
  rw [he] at h3
  rw [he'] at h3'
  simp only [Bool.false_eq_true, false_and, if_false, List.append_nil] at h3 h3'
  have hce : e ≠ .clientError := by
    rintro rfl
    rcases headerFromBytes_error hh with h | h <;> cases h
  obtain ⟨a1, r1, -⟩ := reads_frames pre hpre none (frame true f cls hdr content ++ post)
  have r3 := r1.trans (reads_bad f cls hdr content e hf hbf hh a1 post)
  rw [← List.append_assoc] at r3
  obtain ⟨x, hx, ex⟩ := r3.to_stuck h1 h2
  by_cases hp : e.isProtocolError = true
  · left
    have ho : onError e (some f.requestId) = .reject f.requestId .codecException := by
      simp [onError, hce, hp]
    rw [ho] at hx ex
    obtain ⟨a2, r2, -⟩ := reads_frames pre hpre none (content ++ post)
    obtain ⟨y, hy, ey⟩ := r2.to_stuck h1' h2'
    obtain ⟨rfl, -⟩ := RSteps.last_irrelevant hx h2 hy h2'
    have hA : (lrun svc reg evs).acts =
        pre.map AnyFrame.verdict ++ [.reject f.requestId .codecException] ++ x := by rw [h3, ex]
    refine ⟨hp, ⟨x, by rw [h3', ey], hA⟩, ?_⟩
    refine replied svc reg evs hn hi _ (.reject f.requestId .codecException) _ ?_ rfl
    rw [hA]
    simp
  · right
    have ho : onError e (some f.requestId) = .close (some f.requestId) .unknown := by
      simp [onError, hce, hp]
    rw [ho] at hx ex
    obtain ⟨rfl, -, -⟩ := hx.stuck (readerIter_stopped rfl _ _)
    have hA : (lrun svc reg evs).acts =
        pre.map AnyFrame.verdict ++ [.close (some f.requestId) .unknown] := by rw [h3, ex, List.append_nil]
    refine ⟨by simpa using hp, hA, ?_⟩
    refine replied svc reg evs hn hi _ (.close (some f.requestId) .unknown) _ ?_ rfl
    rw [hA]
    simp

/-- services nobody calls -/
def noServices : Services := ⟨fun _ _ _ _ _ => .error .typeError, fun _ _ => .error .attributeError⟩

/-- A frame whose header bytes are a single zero, and whose content is a heartbeat frame. -/
def exSmuggle : Bytes := frame true ⟨1, 1, 1, 1, 5, 11, 100⟩ reqClass [0]
  (frame true ⟨1, 1, 0, 1, 666, 11, 100⟩ [] [] [])

set_option maxRecDepth 20000 in
/-- The content of a frame that has been refused is obeyed: a heartbeat that no client sent is answered. -/
theorem C69_violated : ¬ C69_full := by
  intro h
  obtain ⟨⟨l, h1, h2⟩, -⟩ := h noServices noServices [] []
    (.data exSmuggle :: List.replicate 9 .reader) [] [] ⟨1, 1, 1, 1, 5, 11, 100⟩
    reqClass [0] (frame true ⟨1, 1, 0, 1, 666, 11, 100⟩ [] [] []) .decodeError []
    (by intro q hq; cases hq) (by constructor <;> decide +kernel) (by decide +kernel) (by decide +kernel) (by decide +kernel)
    (by decide +kernel) (by decide +kernel) (by decide +kernel) (by decide +kernel) (by decide +kernel) (by constructor <;> decide +kernel) (by constructor <;> decide +kernel)
  have e1 : l = [] := by
    have : (lrun noServices [] []).acts = [] := rfl
    rw [this] at h1
    simpa using h1.symm
  rw [e1] at h2
  revert h2
  decide +kernel

set_option maxRecDepth 20000 in
example : (lrun noServices [] (.data exSmuggle :: List.replicate 9 .reader)).acts =
    [.reject 5 .codecException, .heartbeat 666] := by decide +kernel

/-! ### concrete streams -/

/-- header bytes of `{'service': 's', 'sofa_head_method_name': 'm'}` -/
def exHdrBytes : Bytes :=
  [0, 0, 0, 7] ++ pyb "service" ++ [0, 0, 0, 1] ++ pyb "s" ++
  [0, 0, 0, 21] ++ pyb "sofa_head_method_name" ++ [0, 0, 0, 1] ++ pyb "m"

def exReqHeader : PyDict PyStr PyStr := [(py "service", py "s"), (py "sofa_head_method_name", py "m")]

/-- a two-way request with timeout 100 -/
def exReq (id : Int) (content : Bytes) : ReqFrame := ⟨⟨1, 1, 1, 1, id, 11, 100⟩, exHdrBytes, exReqHeader, content⟩

set_option maxRecDepth 20000 in
theorem exReq_ok (id : Int) (content : Bytes) (hid : IdOk id) (hc : content.length < 4294967296) :
    (exReq id content).Ok :=
  ⟨⟨by simp [exReq], by simp [exReq], by simp [exReq], by simp [exReq], hid, by simp [exReq], by simp [exReq]⟩,
    ⟨by decide, show exHdrBytes.length < 65536 by decide, hc⟩,
    show headerFromBytes exHdrBytes = .ok exReqHeader by decide +kernel, by simp [exReq]⟩

/-- C67's and C66's hypotheses are met: two pipelined requests, in three chunks or in one. -/
def exTwo : Bytes := (exReq 3 [1, 2]).bytes ++ (exReq 4 [9]).bytes

set_option maxRecDepth 40000 in
example : let evs : List LEv := [.data (exTwo.take 30), .reader, .data ((exTwo.drop 30).take 60), .reader, .reader,
      .data (exTwo.drop 90)] ++ List.replicate 6 .reader
    received evs = ([exReq 3 [1, 2], exReq 4 [9]].map ReqFrame.bytes).flatten ∧
    (lrun noServices [] evs).tail = .reading ∧
    readerIter (lrun noServices [] evs).rd (lrun noServices [] evs).buf false = none ∧
    (lrun noServices [] evs).acts = [.dispatch (exReq 3 [1, 2]).req, .dispatch (exReq 4 [9]).req] ∧
    (lrun noServices [] (.data exTwo :: List.replicate 8 .reader)).acts = (lrun noServices [] evs).acts := by
  decide +kernel

/-- C68's hypotheses are met by a response sent to the server. -/
def exRefused : AnyFrame := ⟨⟨1, 1, 2, 1, 77, 11, 100⟩, reqClass, [], [], [5]⟩

theorem exRefused_ok : exRefused.Ok ∧ exRefused.Refused :=
  ⟨⟨by constructor <;> decide, by decide, by decide⟩, by decide⟩

set_option maxRecDepth 40000 in
example : let evs : List LEv := [.data ((exReq 3 []).bytes ++ exRefused.bytes ++ (exReq 4 []).bytes)] ++
      List.replicate 14 .reader
    (lrun noServices [] evs).acts =
      [.dispatch (exReq 3 []).req, .reject 77 .clientSendError, .dispatch (exReq 4 []).req] ∧
    (lrun noServices [] evs).wire = reply 77 8 [] := by
  decide +kernel

end Bolt
