import Verif.Model.SyncClient
import Verif.Props.Wire
/-! C49-C54: the synchronous client. -/
namespace Bolt
open Spec

/-! ## Receiving one frame -/

theorem declaredLength_fixed (r : Bool) (f : Fields) (cl hl nl : Nat) (h1 : cl < 65536) (h2 : hl < 65536)
    (h3 : nl < 4294967296) (rest : Bytes) :
    Spec.declaredLength r (fixedPart r f cl hl nl ++ rest) = (if r then 22 else 20) + (cl + hl + nl) := by
  cases r <;>
  · simp only [Spec.declaredLength, Spec.u16At, Spec.u32At, fixedPart, s1, s2, s4, be2, be4,
      List.cons_append, List.nil_append, Bool.false_eq_true, if_false, if_true,
      List.getD_cons_zero, List.getD_cons_succ, Nat.reduceAdd]
    rw [u8 (by omega), u8 (by omega), u8 (by omega), u8 (by omega), u8 (by omega), u8 (by omega), u8 (by omega),
      u8 (by omega)]
    omega

/-- the header of the first bytes declares the length of the frame -/
theorem header_declares (c : PkgClass) (bs : Bytes) (hl : c.headerSize ≤ bs.length) :
    ∃ h n, boltHeaderFromStream c bs = .ok h ∧ bodySize h = .ok (n : Nat) ∧
      Spec.declaredLength c.isRequest bs = c.headerSize + n ∧ n ≤ 65535 + 65535 + 4294967295 := by
  obtain ⟨h, hh⟩ := boltHeaderFromStream_total c bs hl
  obtain ⟨f, cl, hl', nl, rfl, hf, h1, h2, h3, h4⟩ := (boltHeaderFromStream_ok_iff c bs h).1 hh
  refine ⟨_, cl + hl' + nl, hh, ?_, ?_, by omega⟩
  · simp only [bodySize]
    cases c <;> simp [hdrOf, BoltHdr.get, PyDict.get?, PkgClass.isRequest, bind, Except.bind, pure, Except.pure]
  · have := declaredLength_fixed c.isRequest f cl hl' nl h1 h2 h3 (bs.drop c.headerSize)
    rw [← h4, List.take_append_drop] at this
    rw [this, headerSize_eq]

/-- What one complete response frame at the front of `stream` means to a caller waiting for `reqId`; `none` while it
is incomplete. -/
def Spec.responseOutcome (reqId : Int) (stream : Bytes) : Option (Except PyExc PyObj) :=
  if stream.length < 20 then none
  else if stream.length < Spec.declaredLength false stream then none
  else some (match fromStream .boltResponse (stream.take (Spec.declaredLength false stream)) with
    | .error e => .error e
    | .ok p => if p.requestId = .int reqId then (if p.respstatus = .success then .ok p.content else .error .serverError)
      else .error .serverError)

/-- invariant of the receiving loop while it runs on `stream` -/
structure RecvInv (stream : Bytes) (s : RecvSt) : Prop where
  parts : s.buf ++ s.rest = stream
  open_ : s.connClosed = false ∧ s.connBack = false
  prog : (s.hdr = none ∧ s.total = 20 ∧ s.buf.length < 20) ∨
    (∃ h, s.hdr = some h ∧ boltHeaderFromStream .boltResponse (stream.take 20) = .ok h ∧ 20 ≤ s.buf.length ∧
      s.total = Spec.declaredLength false stream ∧ s.buf.length < s.total)

/-- the state after the loop has read exactly one frame -/
def Finished (reqId : Int) (stream : Bytes) (s : RecvSt) : Prop :=
  ∃ r, s.out = some r ∧ Spec.responseOutcome reqId stream = some r ∧
    s.buf = stream.take (Spec.declaredLength false stream) ∧
    s.rest = stream.drop (Spec.declaredLength false stream) ∧ s.connBack = true ∧ s.connClosed = false

theorem boltHeader_take (c : PkgClass) (bs : Bytes) (n : Nat) (h : c.headerSize ≤ n) :
    boltHeaderFromStream c (bs.take n) = boltHeaderFromStream c bs := by
  unfold boltHeaderFromStream
  rw [List.take_take, Nat.min_eq_left h]

theorem headerSize_resp : PkgClass.boltResponse.headerSize = 20 := rfl

theorem declaredLength_ge (stream : Bytes) : 20 ≤ Spec.declaredLength false stream := by
  unfold Spec.declaredLength; simp only [Bool.false_eq_true, if_false]; omega

theorem declaredLength_le (stream : Bytes) : Spec.declaredLength false stream ≤ 4295098385 := by
  have h : ∀ i, (stream.getD i 0).toNat < 256 := fun i => UInt8.toNat_lt _
  have h12 := h 12
  have h13 := h 13
  have h14 := h 14
  have h15 := h 15
  have h16 := h 16
  have h17 := h 17
  have h18 := h 18
  have h19 := h 19
  simp only [Spec.declaredLength, Spec.u32At, Spec.u16At, Bool.false_eq_true, if_false, Nat.reduceAdd]
  omega

theorem finish_eq (reqId : Int) (stream : Bytes) (hl : 20 ≤ stream.length)
    (hd : Spec.declaredLength false stream ≤ stream.length) (h : BoltHdr)
    (hh : boltHeaderFromStream .boltResponse (stream.take 20) = .ok h) :
    Spec.responseOutcome reqId stream
      = some (finishSync reqId (stream.take (Spec.declaredLength false stream)) h) := by
  have hge := declaredLength_ge stream
  unfold Spec.responseOutcome
  rw [if_neg (by omega), if_neg (by omega)]
  congr 1
  have h20 : boltHeaderFromStream .boltResponse (stream.take (Spec.declaredLength false stream)) = .ok h := by
    rw [boltHeader_take _ _ _ (by rw [headerSize_resp]; exact hge), ← hh, boltHeader_take _ _ _ (by rw [headerSize_resp]; exact Nat.le_refl _)]
  have e : fromStream .boltResponse (stream.take (Spec.declaredLength false stream))
      = boltContentFromStream .boltResponse
          ((stream.take (Spec.declaredLength false stream)).drop PkgClass.boltResponse.headerSize) h := by
    unfold fromStream
    rw [h20]; rfl
  rw [e]
  unfold finishSync
  cases boltContentFromStream .boltResponse
      ((stream.take (Spec.declaredLength false stream)).drop PkgClass.boltResponse.headerSize) h with
  | error e => rfl
  | ok p =>
    simp only
    by_cases h1 : p.requestId = .int reqId
    · by_cases h2 : p.respstatus = .success <;> simp [h1, h2]
    · simp [h1]

theorem take_of_prefix {a b s : Bytes} (h : a ++ b = s) : a = s.take a.length ∧ b = s.drop a.length := by
  subst h; simp

theorem take_append_drop_length (l : Bytes) (k : Nat) : l.take k ++ l.drop (l.take k).length = l := by
  rw [List.length_take]
  by_cases h : k ≤ l.length
  · rw [Nat.min_eq_left h, List.take_append_drop]
  · rw [Nat.min_eq_right (by omega), List.take_of_length_le (by omega)]; simp

/-- one `recv` round from a running state: it either goes on or has finished one frame -/
theorem recv_step (reqId : Int) (stream : Bytes) (s : RecvSt) (hi : RecvInv stream s) (ho : s.out = none) (n : Nat) :
    let s' := recvStep reqId s (.recv n)
    (s'.out = none ∧ RecvInv stream s' ∧ (s.rest ≠ [] → s.buf.length < s'.buf.length)) ∨ Finished reqId stream s' := by
  obtain ⟨parts, hopen, prog⟩ := hi
  have hlt : s.buf.length < s.total := by
    rcases prog with ⟨_, h1, h2⟩ | ⟨_, _, _, _, _, h⟩ <;> omega
  generalize hk : s.rest.take (min (n + 1) (s.total - s.buf.length)) = chunk
  have hcl : s.buf.length + chunk.length ≤ s.total := by
    rw [← hk, List.length_take]; omega
  have hpos : s.rest ≠ [] → 0 < chunk.length := by
    intro hr
    have : 0 < s.rest.length := List.length_pos_iff.2 hr
    rw [← hk, List.length_take]; omega
  have hparts : s.buf ++ chunk ++ s.rest.drop chunk.length = stream := by
    have : chunk ++ s.rest.drop chunk.length = s.rest := by
      rw [← hk]; exact take_append_drop_length _ _
    rw [List.append_assoc, this, parts]
  have hstep : recvStep reqId s (.recv n) = loopTest reqId (parseHdr
      { s with buf := s.buf ++ chunk, rest := s.rest.drop chunk.length }) := by
    simp only [recvStep, ho, Option.isSome_none, Bool.false_eq_true, if_false, hk]
  obtain ⟨hp1, hp2⟩ := take_of_prefix hparts
  rw [hstep]
  have hlen : (s.buf ++ chunk).length = s.buf.length + chunk.length := List.length_append
  -- what happens once the header is known
  have fin : ∀ (s1 : RecvSt) (h : BoltHdr), s1.buf = s.buf ++ chunk → s1.rest = s.rest.drop chunk.length →
      s1.hdr = some h → s1.out = none → s1.connBack = false → s1.connClosed = false →
      boltHeaderFromStream .boltResponse (stream.take 20) = .ok h → 20 ≤ (s.buf ++ chunk).length →
      s1.total = Spec.declaredLength false stream → (s.buf ++ chunk).length ≤ s1.total →
      (((loopTest reqId s1).out = none ∧ RecvInv stream (loopTest reqId s1) ∧
        (s.rest ≠ [] → s.buf.length < (loopTest reqId s1).buf.length)) ∨ Finished reqId stream (loopTest reqId s1)) := by
    intro s1 h hb hr hh ho1 hcb hcc hhd h20 ht hle
    unfold loopTest
    rw [ho1]
    simp only [Option.isSome_none, Bool.false_eq_true, if_false]
    by_cases hc : s1.buf.length < s1.total
    · rw [if_pos hc]
      left
      refine ⟨ho1, ⟨by rw [hb, hr]; exact hparts, ⟨hcc, hcb⟩, .inr ⟨h, hh, hhd, by rw [hb]; exact h20, ht, hc⟩⟩, ?_⟩
      intro hne
      have := hpos hne
      rw [hb]; omega
    · rw [if_neg hc]
      right
      have hL : (s.buf ++ chunk).length = Spec.declaredLength false stream := by
        rw [hb] at hc; omega
      rw [hh]
      have hsl : (s.buf ++ chunk).length ≤ stream.length := by
        have := congrArg List.length hparts
        rw [List.length_append] at this; omega
      have f1 := finish_eq reqId stream (Nat.le_trans h20 hsl) (by omega) h hhd
      rw [← hL, ← hp1] at f1
      refine ⟨_, rfl, ?_, ?_, ?_, rfl, hcc⟩
      · rw [hb]; exact f1
      · show s1.buf = _
        rw [hb, ← hL]; exact hp1
      · show s1.rest = _
        rw [hr, ← hL]; exact hp2
  rcases prog with ⟨hh, ht, hb20⟩ | ⟨h, hh, hhd, h20, ht, _⟩
  · by_cases hfull : 20 ≤ (s.buf ++ chunk).length
    · have h20 : PkgClass.boltResponse.headerSize ≤ (s.buf ++ chunk).length := hfull
      obtain ⟨h, m, e1, e2, e3, _⟩ := header_declares .boltResponse (s.buf ++ chunk) h20
      have hdl : Spec.declaredLength false stream = 20 + m := by
        have h' : stream.take 20 = (s.buf ++ chunk).take 20 := by
          rw [← hparts, List.take_append_of_le_length hfull]
        have hs20 : PkgClass.boltResponse.headerSize ≤ stream.length := by
          have := congrArg List.length hparts
          rw [List.length_append] at this
          rw [headerSize_resp]; omega
        obtain ⟨h2, m2, g1, g2, g3, _⟩ := header_declares .boltResponse stream hs20
        have : h2 = h := by
          have x1 := boltHeader_take .boltResponse stream 20 (Nat.le_refl _)
          have x2 := boltHeader_take .boltResponse (s.buf ++ chunk) 20 (Nat.le_refl _)
          rw [g1, h', x2, e1] at x1
          injection x1 with x1; exact x1.symm
        subst this
        rw [e2] at g2
        have g2 := Except.ok.inj g2
        have : m = m2 := by omega
        subst this
        exact g3
      have hp : parseHdr { s with buf := s.buf ++ chunk, rest := s.rest.drop chunk.length } =
          { s with buf := s.buf ++ chunk, rest := s.rest.drop chunk.length, hdr := some h, total := s.total + m } := by
        unfold parseHdr
        rw [if_pos (by simp only [hh, Option.isNone_none, Bool.true_and, decide_eq_true_eq]; omega)]
        simp only [e1, e2, Int.toNat_natCast]
      rw [hp]
      refine fin _ h rfl rfl rfl ho hopen.2 hopen.1 ?_ hfull (by simp only; omega) (by simp only; omega)
      have h' : stream.take 20 = (s.buf ++ chunk).take 20 := by
        rw [← hparts, List.take_append_of_le_length hfull]
      rw [h', boltHeader_take .boltResponse _ 20 (Nat.le_refl _), e1]
    · left
      have hp : parseHdr { s with buf := s.buf ++ chunk, rest := s.rest.drop chunk.length } =
          { s with buf := s.buf ++ chunk, rest := s.rest.drop chunk.length } := by
        unfold parseHdr
        rw [if_neg (by simp only [hh, Option.isNone_none, Bool.true_and, decide_eq_true_eq]; omega)]
      rw [hp]
      have hl : loopTest reqId { s with buf := s.buf ++ chunk, rest := s.rest.drop chunk.length } =
          { s with buf := s.buf ++ chunk, rest := s.rest.drop chunk.length } := by
        unfold loopTest
        simp only [ho, Option.isSome_none, Bool.false_eq_true, if_false]
        rw [if_pos (by omega)]
      rw [hl]
      refine ⟨ho, ⟨hparts, hopen, .inl ⟨hh, ht, by simp only; omega⟩⟩, ?_⟩
      intro hne
      have := hpos hne
      simp only; omega
  · have hp : parseHdr { s with buf := s.buf ++ chunk, rest := s.rest.drop chunk.length } =
        { s with buf := s.buf ++ chunk, rest := s.rest.drop chunk.length } := by
      unfold parseHdr
      rw [if_neg (by simp [hh])]
    rw [hp]
    exact fin _ h rfl rfl hh ho hopen.2 hopen.1 hhd (by omega) ht (by simp only; omega)

theorem recvStep_ended (reqId : Int) (s : RecvSt) (ev : RecvEv) (h : s.out.isSome = true) : recvStep reqId s ev = s := by
  unfold recvStep; rw [if_pos h]

theorem recvRun_snoc (reqId : Int) (stream : Bytes) (evs : List RecvEv) (ev : RecvEv) :
    recvRun reqId stream (evs ++ [ev]) = recvStep reqId (recvRun reqId stream evs) ev := by
  simp [recvRun]

theorem recvInv_init (stream : Bytes) : RecvInv stream { rest := stream } :=
  ⟨rfl, ⟨rfl, rfl⟩, .inl ⟨rfl, rfl, (by show 0 < 20; omega)⟩⟩

/-- Every run: still receiving; or it has read exactly one frame; or it ended by a timeout or a socket error. -/
theorem recv_run (reqId : Int) (stream : Bytes) (evs : List RecvEv) :
    ((recvRun reqId stream evs).out = none ∧ RecvInv stream (recvRun reqId stream evs)) ∨
    Finished reqId stream (recvRun reqId stream evs) ∨
    ((recvRun reqId stream evs).out = some (.error .timeoutError) ∧ .timeout ∈ evs ∧
      (recvRun reqId stream evs).connClosed = true ∧ (recvRun reqId stream evs).connBack = false) ∨
    (∃ e, (recvRun reqId stream evs).out = some (.error e) ∧ .fail e ∈ evs ∧
      (recvRun reqId stream evs).connClosed = false ∧ (recvRun reqId stream evs).connBack = false) := by
  generalize hn : evs.length = n
  induction n generalizing evs with
  | zero =>
    have : evs = [] := List.eq_nil_of_length_eq_zero hn
    subst this
    exact .inl ⟨rfl, recvInv_init stream⟩
  | succ n ih =>
    obtain ⟨evs, ev, rfl⟩ : ∃ l e, evs = l ++ [e] :=
      ⟨evs.dropLast, evs.getLast (by intro h; simp [h] at hn), (List.dropLast_concat_getLast _).symm⟩
    have ih := ih evs (by simpa using hn)
    rw [recvRun_snoc]
    rcases ih with ⟨ho, hi⟩ | hf | ⟨h1, h2, h3, h4⟩ | ⟨e, h1, h2, h3, h4⟩
    · cases ev with
      | timeout =>
        right; right; left
        have : recvStep reqId (recvRun reqId stream evs) .timeout =
            { recvRun reqId stream evs with connClosed := true, out := some (.error .timeoutError) } := by
          unfold recvStep; rw [if_neg (by simp [ho])]
        rw [this]
        exact ⟨rfl, by simp, rfl, hi.open_.2⟩
      | fail e =>
        right; right; right
        have : recvStep reqId (recvRun reqId stream evs) (.fail e) =
            { recvRun reqId stream evs with out := some (.error e) } := by
          unfold recvStep; rw [if_neg (by simp [ho])]
        rw [this]
        exact ⟨e, rfl, by simp, hi.open_⟩
      | recv n =>
        rcases recv_step reqId stream _ hi ho n with ⟨h1, h2, _⟩ | h
        · exact .inl ⟨h1, h2⟩
        · exact .inr (.inl h)
    · obtain ⟨r, h1, _⟩ := id hf
      rw [recvStep_ended _ _ _ (by rw [h1]; rfl)]
      exact .inr (.inl hf)
    · rw [recvStep_ended _ _ _ (by rw [h1]; rfl)]
      exact .inr (.inr (.inl ⟨h1, by simp [h2], h3, h4⟩))
    · rw [recvStep_ended _ _ _ (by rw [h1]; rfl)]
      exact .inr (.inr (.inr ⟨e, h1, by simp [h2], h3, h4⟩))

/-! ## C49 -/

/-- a run in which `recv` always returned something, the `i`-th time at most `ns[i] + 1` bytes -/
def chunked (ns : List Nat) : List RecvEv := ns.map .recv

theorem chunked_outcome (reqId : Int) (stream : Bytes) (ns : List Nat) :
    ((recvRun reqId stream (chunked ns)).out = none ∧ RecvInv stream (recvRun reqId stream (chunked ns))) ∨
    Finished reqId stream (recvRun reqId stream (chunked ns)) := by
  rcases recv_run reqId stream (chunked ns) with h | h | ⟨_, h, _⟩ | ⟨e, _, h, _⟩
  · exact .inl h
  · exact .inr h
  · simp [chunked] at h
  · simp [chunked] at h

theorem inv_lt (stream : Bytes) (s : RecvSt) (h : RecvInv stream s) : s.buf.length < Spec.declaredLength false stream := by
  have := declaredLength_ge stream
  rcases h.prog with ⟨_, _, h⟩ | ⟨_, _, _, _, h1, h2⟩
  · omega
  · omega

/-- while there is something to read, every round reads something -/
theorem chunked_progress (reqId : Int) (stream : Bytes) (ns : List Nat)
    (h : (recvRun reqId stream (chunked ns)).out = none)
    (hne : ∀ k, k < ns.length → (recvRun reqId stream (chunked (ns.take k))).rest ≠ []) :
    ns.length ≤ (recvRun reqId stream (chunked ns)).buf.length := by
  generalize hn : ns.length = m
  induction m generalizing ns with
  | zero => omega
  | succ m ih =>
    obtain ⟨l, x, rfl⟩ : ∃ l e, ns = l ++ [e] :=
      ⟨ns.dropLast, ns.getLast (by intro h; simp [h] at hn), (List.dropLast_concat_getLast _).symm⟩
    have hl : l.length = m := by simpa using hn
    have e : chunked (l ++ [x]) = chunked l ++ [.recv x] := by simp [chunked]
    rw [e, recvRun_snoc] at h ⊢
    rcases chunked_outcome reqId stream l with ⟨h1, h2⟩ | ⟨r, h1, _⟩
    · have i1 := ih l h1 (fun k hk => by
        have := hne k (by simp; omega)
        rwa [List.take_append_of_le_length (by omega)] at this) hl
      rcases recv_step reqId stream _ h2 h1 x with ⟨_, _, h3⟩ | ⟨r, h3, _⟩
      · have hr := hne l.length (by simp)
        rw [List.take_left'  rfl] at hr
        have := h3 hr
        omega
      · rw [h3] at h; cases h
    · rw [recvStep_ended _ _ _ (by rw [h1]; rfl), h1] at h; cases h

/-- C49. For any response stream and any way `recv` cuts it: as long as the frame is incomplete the call keeps
waiting; if it has ended its outcome is the one determined by the byte stream alone; once the stream holds a complete
frame and as many rounds as bytes were made the call has ended; so two chunkings give the same outcome. -/
theorem C49_segmentation (reqId : Int) (stream : Bytes) (ns ms : List Nat) :
    (Spec.responseOutcome reqId stream = none → (recvRun reqId stream (chunked ns)).out = none) ∧
    ((recvRun reqId stream (chunked ns)).out = none ∨
      (recvRun reqId stream (chunked ns)).out = Spec.responseOutcome reqId stream) ∧
    (Spec.responseOutcome reqId stream ≠ none → Spec.declaredLength false stream ≤ ns.length →
      (recvRun reqId stream (chunked ns)).out = Spec.responseOutcome reqId stream) ∧
    ((recvRun reqId stream (chunked ns)).out ≠ none → (recvRun reqId stream (chunked ms)).out ≠ none →
      (recvRun reqId stream (chunked ns)).out = (recvRun reqId stream (chunked ms)).out) := by
  have main : ∀ ns, (recvRun reqId stream (chunked ns)).out = none ∨
      (recvRun reqId stream (chunked ns)).out = Spec.responseOutcome reqId stream := by
    intro ns
    rcases chunked_outcome reqId stream ns with h | ⟨r, h1, h2, _⟩
    · exact .inl h.1
    · exact .inr (by rw [h1, h2])
  refine ⟨?_, main ns, ?_, ?_⟩
  · intro h
    rcases main ns with h1 | h1
    · exact h1
    · rw [h1, h]
  · intro h hl
    rcases main ns with h1 | h1
    · exfalso
      have hlen : Spec.declaredLength false stream ≤ stream.length := by
        unfold Spec.responseOutcome at h
        split at h
        · exact absurd rfl h
        · split at h
          · exact absurd rfl h
          · omega
      have noout : ∀ k, (recvRun reqId stream (chunked (ns.take k))).out = none := by
        intro k
        rcases chunked_outcome reqId stream (ns.take k) with g | ⟨r, g, _⟩
        · exact g.1
        · have stay : ∀ (l : List RecvEv) (s : RecvSt), s.out = some r → (l.foldl (recvStep reqId) s).out = some r := by
            intro l
            induction l with
            | nil => exact fun s h => h
            | cons e l ih => exact fun s h => ih _ (by rw [recvStep_ended _ _ _ (by rw [h]; rfl)]; exact h)
          have e : chunked ns = chunked (ns.take k) ++ chunked (ns.drop k) := by
            simp [chunked, List.take_append_drop]
          rw [e] at h1
          have := stay (chunked (ns.drop k)) _ g
          rw [recvRun, List.foldl_append] at h1
          rw [recvRun] at this
          rw [this] at h1
          cases h1
      have hinv : ∀ k, RecvInv stream (recvRun reqId stream (chunked (ns.take k))) := by
        intro k
        rcases chunked_outcome reqId stream (ns.take k) with g | ⟨r, g, _⟩
        · exact g.2
        · rw [noout k] at g; cases g
      have hp := chunked_progress reqId stream ns h1 (fun k hk => by
        intro hr
        have h3 := hinv k
        have h4 := inv_lt stream _ h3
        have h5 := congrArg List.length h3.parts
        rw [hr, List.append_nil] at h5
        omega)
      have h3 := hinv ns.length
      rw [List.take_length] at h3
      have := inv_lt stream _ h3
      omega
    · exact h1
  · intro h1 h2
    rcases main ns with g | g
    · exact absurd g h1
    · rcases main ms with g2 | g2
      · exact absurd g2 h2
      · rw [g, g2]

/-- a 25-byte response with id 7 followed by four bytes of something else, in three chunkings -/
def exRespStream : Bytes := frame false ⟨1, 0, 2, 1, 7, 11, 0⟩ [] [] [104, 101, 108, 108, 111] ++ [1, 2, 3, 4]

set_option maxRecDepth 20000 in
example : (recvRun 7 exRespStream (chunked [4000, 4000])).out = some (.ok (.bytes [104, 101, 108, 108, 111])) ∧
    (recvRun 7 exRespStream (chunked (List.replicate 25 0))).out = some (.ok (.bytes [104, 101, 108, 108, 111])) ∧
    (recvRun 7 exRespStream (chunked [10, 3, 12, 2])).out = none ∧
    (recvRun 8 exRespStream (chunked [10, 3, 12, 2, 1])).out = some (.error .serverError) ∧
    (recvRun 7 exRespStream (chunked [4000, 4000])).rest = [1, 2, 3, 4] := by decide

/-! ## C50 -/

theorem rawInvoke_id {C : Type} {a : CallArgs} {env : Nat → Attempt C} {i : Int} {c : C}
    (h : (rawInvoke a env).1 = .ok (i, c)) : i = a.id := by
  unfold rawInvoke at h
  split at h
  · cases h
  · simp only at h
    split at h
    · cases h
    · split at h
      · cases h
      · injection h with h; injection h with h _; exact h.symm

theorem invokeSync_ended {C : Type} {a : CallArgs} {t : TimeoutArg} {env : Nat → Attempt C} {reg : Bool}
    {stream : Bytes} {evs : List RecvEv} {r : Except PyExc PyObj}
    (h : invokeSync a t env reg stream evs = .ended r) :
    (∃ e, r = .error e) ∨ (recvRun a.id stream evs).out = some r := by
  unfold invokeSync at h
  cases t with
  | other o => injection h with h; exact .inl ⟨_, h.symm⟩
  | int _ | float _ =>
    simp only at h
    split at h
    · cases h
    · injection h with h; exact .inl ⟨_, h.symm⟩
    · rename_i i c heq
      split at h
      · injection h with h; exact .inl ⟨_, h.symm⟩
      · split at h
        · cases h
        · rename_i r' hr
          injection h with h
          subst h
          have := rawInvoke_id heq
          simp only at this
          subst this
          exact .inr hr

/-- C50. Whatever the environment does: if `invoke_sync` returns, the peer's stream starts with one complete frame
which carries this call's request id, status SUCCESS (0) and exactly the returned content. And if the peer's frame
decodes but has another id or another status, no chunking lets the call return: it ends with `ServerError` if it ends
by reading. -/
theorem C50_own_success {C : Type} (a : CallArgs) (t : TimeoutArg) (env : Nat → Attempt C) (reg : Bool)
    (stream : Bytes) (evs : List RecvEv) :
    (∀ v, invokeSync a t env reg stream evs = .ended (.ok v) →
      ∃ f cn hb ct rest, stream = frame false f cn hb ct ++ rest ∧ BodyFit cn hb ct ∧ Fields.Fit false f ∧ f.requestId = a.id ∧
        f.seventh = 0 ∧ v = .bytes ct) ∧
    (∀ f cn hb ct rest p ns, stream = frame false f cn hb ct ++ rest →
      fromStream .boltResponse (frame false f cn hb ct) = .ok p → BodyFit cn hb ct → Fields.Fit false f →
      (f.requestId ≠ a.id ∨ f.seventh ≠ 0) →
      (recvRun a.id stream (chunked ns)).out = none ∨
      (recvRun a.id stream (chunked ns)).out = some (.error .serverError)) := by
  constructor
  · intro v h
    rcases invokeSync_ended h with ⟨e, h1⟩ | h1
    · cases h1
    rcases recv_run a.id stream evs with ⟨h2, _⟩ | ⟨r, h2, h3, _⟩ | ⟨h2, _⟩ | ⟨e, h2, _⟩
    · rw [h2] at h1; cases h1
    · rw [h2] at h1
      injection h1 with h1
      subst h1
      unfold Spec.responseOutcome at h3
      split at h3
      · cases h3
      split at h3
      · cases h3
      injection h3 with h3
      split at h3
      · cases h3
      · rename_i p hp
        split at h3
        · rename_i hid
          split at h3
          · rename_i hst
            injection h3 with h3
            rw [fromStream_ok_iff] at hp
            obtain ⟨f, cn, hb, ct, d, hs, hf, hbody, hd, hdec⟩ := hp
            refine ⟨f, cn, hb, ct, stream.drop (Spec.declaredLength false stream), ?_, hbody, hf, ?_, ?_, ?_⟩
            · show stream = frame false f cn hb ct ++ _
              have hs' : stream.take (Spec.declaredLength false stream) = frame false f cn hb ct := hs
              rw [← hs', List.take_append_drop]
            · have := hdec.requestId
              rw [hid] at this; injection this with this; exact this.symm
            · have := hdec.respstatus
              simp only [PkgClass.isRequest, Bool.false_eq_true, if_false] at this
              rw [hst] at this
              exact this.symm
            · rw [← h3]; exact hdec.content
          · cases h3
        · cases h3
    · rw [h2] at h1; cases h1
    · rw [h2] at h1; cases h1
  · intro f cn hb ct rest p ns hs hp hbody hfit hne
    rcases (C49_segmentation a.id stream ns ns).2.1 with h | h
    · exact .inl h
    · right
      rw [h]
      have hL : Spec.declaredLength false stream = (frame false f cn hb ct).length := by
        rw [hs]; exact declaredLength_frame false f cn hb ct hbody rest
      have hlen : stream.length = (frame false f cn hb ct).length + rest.length := by rw [hs, List.length_append]
      have hge := declaredLength_ge stream
      unfold Spec.responseOutcome
      rw [if_neg (by omega), if_neg (by omega), hL]
      have e : stream.take (frame false f cn hb ct).length = frame false f cn hb ct := by
        rw [hs, List.take_left' rfl]
      rw [e, hp]
      rw [fromStream_ok_iff] at hp
      obtain ⟨f', cn', hb', ct', d, hs', hf', hbody', hd', hdec⟩ := hp
      obtain ⟨rfl, _⟩ := frame_inj hs' hfit hf' hbody hbody'
      simp only
      rcases hne with hne | hne
      · rw [if_neg]
        rw [hdec.requestId]
        intro hc; injection hc with hc; exact hne hc
      · split
        · rw [if_neg]
          intro hc
          have := hdec.respstatus
          simp only [PkgClass.isRequest, Bool.false_eq_true, if_false] at this
          rw [hc] at this
          exact hne this.symm
        · rfl

/-! ## C51 -/

/-- C51. Whatever happens, what was read and what is left make up the peer's stream, never more than one frame is
read, and a call that ended by reading (not by a timeout or socket error) has read exactly the bytes of one frame:
the following bytes are still on the connection. -/
theorem C51_one_frame (reqId : Int) (stream : Bytes) (evs : List RecvEv) :
    let s := recvRun reqId stream evs
    s.buf ++ s.rest = stream ∧ s.buf.length ≤ Spec.declaredLength false stream ∧
    (∀ r, s.out = some r → RecvEv.timeout ∉ evs → (∀ e, RecvEv.fail e ∉ evs) →
      s.buf.length = Spec.declaredLength false stream ∧ s.rest = stream.drop (Spec.declaredLength false stream)) := by
  intro s
  have key : ∀ evs : List RecvEv, (recvRun reqId stream evs).buf ++ (recvRun reqId stream evs).rest = stream ∧
      (recvRun reqId stream evs).buf.length ≤ Spec.declaredLength false stream := by
    intro evs
    generalize hn : evs.length = n
    induction n generalizing evs with
    | zero =>
      have : evs = [] := List.eq_nil_of_length_eq_zero hn
      subst this
      exact ⟨rfl, Nat.zero_le _⟩
    | succ n ih =>
      obtain ⟨evs, ev, rfl⟩ : ∃ l e, evs = l ++ [e] :=
        ⟨evs.dropLast, evs.getLast (by intro h; simp [h] at hn), (List.dropLast_concat_getLast _).symm⟩
      have ih := ih evs (by simpa using hn)
      rw [recvRun_snoc]
      by_cases ho : (recvRun reqId stream evs).out.isSome = true
      · rw [recvStep_ended _ _ _ ho]; exact ih
      · have ho' : (recvRun reqId stream evs).out = none := by simpa using ho
        cases ev with
        | timeout => unfold recvStep; rw [if_neg ho]; exact ih
        | fail e => unfold recvStep; rw [if_neg ho]; exact ih
        | recv k =>
          have hi : RecvInv stream (recvRun reqId stream evs) := by
            rcases recv_run reqId stream evs with h | ⟨r, h, _⟩ | ⟨h, _⟩ | ⟨e, h, _⟩
            · exact h.2
            all_goals (rw [ho'] at h; cases h)
          rcases recv_step reqId stream _ hi ho' k with ⟨_, h2, _⟩ | ⟨r, _, _, h3, h4, _⟩
          · exact ⟨h2.parts, Nat.le_of_lt (inv_lt stream _ h2)⟩
          · rw [h3, h4]
            exact ⟨List.take_append_drop _ _, by rw [List.length_take]; exact Nat.min_le_left _ _⟩
  refine ⟨(key evs).1, (key evs).2, ?_⟩
  intro r hr h1 h2
  rcases recv_run reqId stream evs with ⟨h, _⟩ | ⟨r', _, h3, h4, h5, _⟩ | ⟨_, h, _⟩ | ⟨e, _, h, _⟩
  · rw [show (recvRun reqId stream evs).out = some r from hr] at h; cases h
  · refine ⟨?_, h5⟩
    show (recvRun reqId stream evs).buf.length = _
    rw [h4, List.length_take]
    apply Nat.min_eq_left
    unfold Spec.responseOutcome at h3
    split at h3
    · cases h3
    split at h3
    · cases h3
    omega
  · exact absurd h h1
  · exact absurd h (h2 e)

/-! ## C52 -/

/-- Rounds with the time at which `select` returned: times do not decrease, and `select` reports a timeout only at or
after the deadline (its timeout is `deadline - now`, client.py:123). -/
def TimedRun (deadline : Int) (evs : List (Int × RecvEv)) : Prop :=
  evs.Pairwise (fun x y => x.1 ≤ y.1) ∧ ∀ x ∈ evs, x.2 = .timeout → deadline ≤ x.1

/-- C52 as listed, for the receiving loop: after a round that ends past the deadline the call has ended. -/
def C52_full : Prop :=
  ∀ (reqId : Int) (stream : Bytes) (deadline : Int) (evs : List (Int × RecvEv)), TimedRun deadline evs →
    (∃ x ∈ evs, deadline < x.1) → (recvRun reqId stream (evs.map (·.2))).out ≠ none

theorem recv_eof_forever (reqId : Int) (k : Nat) : recvRun reqId [] (List.replicate k (.recv 0)) = { rest := [] } := by
  induction k with
  | zero => rfl
  | succ k ih =>
    rw [List.replicate_succ', recvRun_snoc, ih]
    rfl

/-- C52 fails: a peer that closes the connection makes the loop spin for ever (`recv` returns nothing, `select`
reports the socket ready, the deadline is never looked at): for every number of rounds and every time there is such a
run, still waiting. -/
theorem C52_violated : ¬ C52_full ∧
    ∀ (reqId : Int) (deadline late : Int) (k : Nat), deadline < late →
      TimedRun deadline (List.replicate k (late, .recv 0)) ∧
      (recvRun reqId [] ((List.replicate k (late, RecvEv.recv 0)).map (·.2))).out = none := by
  have h2 : ∀ (reqId : Int) (deadline late : Int) (k : Nat), deadline < late →
      TimedRun deadline (List.replicate k (late, .recv 0)) ∧
      (recvRun reqId [] ((List.replicate k (late, RecvEv.recv 0)).map (·.2))).out = none := by
    intro reqId deadline late k _
    refine ⟨⟨?_, ?_⟩, ?_⟩
    · rw [List.pairwise_replicate]; right; exact Int.le_refl _
    · intro x hx he
      rw [(List.mem_replicate.1 hx).2] at he
      cases he
    · rw [List.map_replicate, recv_eof_forever]
  refine ⟨fun h => ?_, h2⟩
  have := h2 0 0 1 1 (by decide)
  exact h 0 [] 0 _ this.1 ⟨(1, .recv 0), by simp, by decide⟩ this.2

/-- a small call -/
def exCall : CallArgs :=
  { heap := [], ctx := some [], interface := .str (py "s"), method := .str (py "m"), content := .bytes [1],
    timeout := .int 1000, id := 7 }

set_option maxRecDepth 20000 in
theorem exCall_ok : ∃ p bs, exCall.request = .ok p ∧ p.toStream = .ok bs := by
  have h : (exCall.request.toOption.bind fun p => p.toStream.toOption).isSome = true := by decide
  cases hp : exCall.request with
  | error e => rw [hp] at h; cases h
  | ok p =>
    cases hs : p.toStream with
    | error e => simp [hp, hs, Except.toOption] at h
    | ok bs => exact ⟨p, bs, rfl, hs⟩

/-- C52 also fails before anything is received: `wait_for_write` has no timeout, so `send` may block for ever. -/
theorem C52_violated_by_send : ∃ (a : CallArgs), ∀ (env : Nat → Attempt Nat) (stream : Bytes) (evs : List RecvEv),
    env 0 = ⟨.ok 0, .hang⟩ → invokeSync a (.int 1000) env true stream evs = .hung := by
  refine ⟨exCall, ?_⟩
  intro env stream evs h
  obtain ⟨p, bs, hp, hs⟩ := exCall_ok
  have hl : attemptLoop p.toStream env 3 0 none = { attempts := 1, conn := some 0, hung := true } := by
    simp only [attemptLoop, h, hs]
  have he : ({ exCall with timeout := (TimeoutArg.int 1000).obj, ptype := .request } : CallArgs) = exCall := rfl
  simp only [invokeSync, he, rawInvoke, hp, hl, if_true]

/-- C52, what holds: (1) if nothing is ready any more after the deadline (the peer has neither sent more nor closed),
the first round past the deadline ends the call; (2) without EOF the number of rounds is bounded by the longest
possible frame. Missing: a peer that closes, or keeps data ready after the deadline, or never lets `send` proceed. -/
theorem C52_deadline_partial (reqId : Int) (stream : Bytes) (deadline : Int) :
    (∀ evs : List (Int × RecvEv), TimedRun deadline evs → (∀ x ∈ evs, deadline < x.1 → x.2 = .timeout) →
      (∃ x ∈ evs, deadline < x.1) → (recvRun reqId stream (evs.map (·.2))).out ≠ none) ∧
    (∀ ns : List Nat, (recvRun reqId stream (chunked ns)).out = none →
      (∀ k, k < ns.length → (recvRun reqId stream (chunked (ns.take k))).rest ≠ []) →
      ns.length < Spec.declaredLength false stream ∧ ns.length < 4295098385) := by
  constructor
  · intro evs _ hq ⟨x, hx, hlt⟩
    have ht := hq x hx hlt
    obtain ⟨l1, l2, rfl⟩ := List.append_of_mem hx
    have stay : ∀ (l : List RecvEv) (s : RecvSt), s.out ≠ none → (l.foldl (recvStep reqId) s).out ≠ none := by
      intro l
      induction l with
      | nil => exact fun s h => h
      | cons e l ih =>
        exact fun s h => ih _ (by rw [recvStep_ended _ _ _ (by cases hs : s.out <;> simp_all)]; exact h)
    rw [List.map_append, List.map_cons, ht, recvRun, List.foldl_append, List.foldl_cons]
    apply stay
    unfold recvStep
    split
    · rename_i h; intro hn; rw [hn] at h; cases h
    · simp
  · intro ns h hne
    have h1 := chunked_progress reqId stream ns h hne
    rcases chunked_outcome reqId stream ns with ⟨_, h2⟩ | ⟨r, h2, _⟩
    · have h3 := inv_lt stream _ h2
      refine ⟨by omega, ?_⟩
      have := declaredLength_le stream
      omega
    · rw [h2] at h; cases h

/-! ## C53 -/

/-- attempt `i` puts bytes on a connection -/
def Attempt.Transmits {C : Type} (stream : Except PyExc Bytes) (x : Attempt C) (c : C) (out : Bytes) : Prop :=
  x.getConn = .ok c ∧ ∃ bs n, stream = .ok bs ∧ x.send = .ok n ∧ out = bs.take n

/-- what the loop guarantees about the attempts `i, i + 1, ...` it made -/
def LoopGood {C : Type} (stream : Except PyExc Bytes) (env : Nat → Attempt C) (k i : Nat) (o : LoopOut C) : Prop :=
    i ≤ o.attempts ∧ o.attempts ≤ i + k ∧
    (∀ j, i ≤ j → j + 1 < o.attempts → (env j).getConn = .error .socketValueError ∨
      (∃ c, (env j).getConn = .ok c) ∧ (env j).send = .socketValue) ∧
    ((o.wire = [] ∧ ∀ j c b, i ≤ j → j < o.attempts → ¬ (env j).Transmits stream c b) ∨
     (∃ c b, o.wire = [(c, b)] ∧ o.conn = some c ∧ i < o.attempts ∧
        (env (o.attempts - 1)).Transmits stream c b))

theorem attemptLoop_spec {C : Type} (stream : Except PyExc Bytes) (env : Nat → Attempt C) (k i : Nat)
    (conn : Option C) : LoopGood stream env k i (attemptLoop stream env k i conn) := by
  induction k generalizing i conn with
  | zero =>
    refine ⟨Nat.le_refl _, Nat.le_refl _, fun j h1 h2 => ?_, .inl ⟨rfl, fun j c b h1 h2 => ?_⟩⟩
    · simp only [attemptLoop] at h2; omega
    · simp only [attemptLoop] at h2; omega
  | succ k ih =>
    -- a round that does not end the loop
    have cont : ∀ conn', attemptLoop stream env (k + 1) i conn = attemptLoop stream env k (i + 1) conn' →
        ((env i).getConn = .error .socketValueError ∨ (∃ c, (env i).getConn = .ok c) ∧ (env i).send = .socketValue) →
        LoopGood stream env (k + 1) i (attemptLoop stream env (k + 1) i conn) := by
      intro conn' he hr
      obtain ⟨h1, h2, h3, h4⟩ := ih (i + 1) conn'
      have hno : ∀ c b, ¬ (env i).Transmits stream c b := by
        rintro c b ⟨g1, bs, n, g2, g3, g4⟩
        rcases hr with hr | ⟨_, hr⟩
        · rw [hr] at g1; cases g1
        · rw [hr] at g3; cases g3
      rw [he]
      refine ⟨by omega, by omega, fun j g1 g2 => ?_, ?_⟩
      · by_cases hj : j = i
        · subst hj; exact hr
        · exact h3 j (by omega) g2
      · rcases h4 with ⟨h4, h5⟩ | ⟨c, b, h4, h5, h6, h7⟩
        · refine .inl ⟨h4, fun j c b g1 g2 => ?_⟩
          by_cases hj : j = i
          · subst hj; exact hno c b
          · exact h5 j c b (by omega) g2
        · exact .inr ⟨c, b, h4, h5, by omega, h7⟩
    -- a round that ends it without sending
    have stop : ∀ o : LoopOut C, attemptLoop stream env (k + 1) i conn = o → o.attempts = i + 1 → o.wire = [] →
        (∀ c b, ¬ (env i).Transmits stream c b) →
        LoopGood stream env (k + 1) i (attemptLoop stream env (k + 1) i conn) := by
      intro o he ha hw hno
      rw [he]
      refine ⟨by omega, by omega, fun j g1 g2 => by omega, .inl ⟨hw, fun j c b g1 g2 => ?_⟩⟩
      have : j = i := by omega
      subst this; exact hno c b
    cases hg : (env i).getConn with
    | error e =>
      by_cases he : e = .socketValueError
      · subst he
        exact cont conn (by simp only [attemptLoop, hg]) (.inl hg)
      · refine stop { attempts := i + 1, conn := conn } ?_ rfl rfl ?_
        · simp only [attemptLoop, hg]
        · rintro c b ⟨g1, _⟩; rw [hg] at g1; cases g1
    | ok c =>
      cases hs : stream with
      | error e =>
        subst hs
        refine stop { attempts := i + 1, conn := some c } ?_ rfl rfl ?_
        · simp only [attemptLoop, hg]
        · rintro c' b ⟨_, bs, n, g, _⟩; cases g
      | ok bs =>
        subst hs
        cases hx : (env i).send with
        | socketValue => exact cont (some c) (by simp only [attemptLoop, hg, hx]) (.inr ⟨⟨c, hg⟩, hx⟩)
        | fail e =>
          refine stop { attempts := i + 1, conn := some c } ?_ rfl rfl ?_
          · simp only [attemptLoop, hg, hx]
          · rintro c' b ⟨_, bs, n, _, g, _⟩; rw [hx] at g; cases g
        | hang =>
          refine stop { attempts := i + 1, conn := some c, hung := true } ?_ rfl rfl ?_
          · simp only [attemptLoop, hg, hx]
          · rintro c' b ⟨_, bs, n, _, g, _⟩; rw [hx] at g; cases g
        | ok n =>
          have he : attemptLoop (.ok bs) env (k + 1) i conn =
              { attempts := i + 1, wire := [(c, bs.take n)], conn := some c } := by
            simp only [attemptLoop, hg, hx]
          rw [he]
          refine ⟨by simp only; omega, by simp only; omega, fun j g1 g2 => by simp only at g2; omega,
            .inr ⟨c, _, rfl, rfl, by simp only; omega, ?_⟩⟩
          exact ⟨hg, bs, n, rfl, hx, rfl⟩

/-- C53. Whatever happens to the connections, a call makes at most three attempts; every attempt but the last failed
with `SocketValueError` before transmitting anything; and either nothing was transmitted at all, or exactly one
attempt, the last one made, transmitted (a prefix of) the request, on the connection that the call then uses. -/
theorem C53_at_most_once {C : Type} (a : CallArgs) (p : Pkg) (hp : a.request = .ok p) (env : Nat → Attempt C) :
    let o := (rawInvoke a env).2
    o.attempts ≤ 3 ∧
    (∀ j, j + 1 < o.attempts → (env j).getConn = .error .socketValueError ∨
      (∃ c, (env j).getConn = .ok c) ∧ (env j).send = .socketValue) ∧
    ((o.wire = [] ∧ ∀ j c b, j < o.attempts → ¬ (env j).Transmits p.toStream c b) ∨
     (∃ c b, o.wire = [(c, b)] ∧ o.conn = some c ∧ 0 < o.attempts ∧
        (env (o.attempts - 1)).Transmits p.toStream c b)) := by
  have e : (rawInvoke a env).2 = attemptLoop p.toStream env 3 0 none := by
    unfold rawInvoke; rw [hp]
  rw [e]
  obtain ⟨_, h2, h3, h4⟩ := attemptLoop_spec p.toStream env 3 0 none
  refine ⟨by omega, fun j hj => h3 j (by omega) hj, ?_⟩
  rcases h4 with ⟨h4, h5⟩ | ⟨c, b, h4, h5, h6, h7⟩
  · exact .inl ⟨h4, fun j c b hj => h5 j c b (by omega) hj⟩
  · exact .inr ⟨c, b, h4, h5, h6, h7⟩

set_option maxRecDepth 20000 in
/-- Two dead connections, then a live one. -/
example :
    let env : Nat → Attempt Nat := fun i => ⟨.ok i, if i < 2 then .socketValue else .ok 1000⟩
    (rawInvoke exCall env).1 = .ok (7, 2) ∧ (rawInvoke exCall env).2.attempts = 3 ∧
    (rawInvoke exCall env).2.wire.map (·.1) = [2] := by
  decide

/-! ## C54 -/

/-- C54 as listed: a connection given back is the one the next call to the same address uses (when it still looks
alive). -/
def C54_full : Prop :=
  ∀ (w : CliPools) (addr : PyStr × Int) (r : Bool) (c : ConnId), (callPools w addr r).2 = .ok c →
    (callPools (callPools w addr r).1 addr false).2 = .ok c

/-- C54 fails on the very first two calls. -/
theorem C54_violated : ¬ C54_full := by
  intro h
  have := h {} (py "h", 12200) false ⟨0, 0, 0⟩ (by decide)
  revert this
  decide

theorem freshPool_spec (addr : PyStr × Int) : ∃ m pool,
    ({ mgr := PoolMgr.init 10 } : MgrWorld (PyStr × Int)).poolFor {} addr = (m, .ok 0) ∧ m.pools = [pool] ∧
    pool = { free := some [0], num := 1, made := 1 } := by
  refine ⟨_, _, rfl, rfl, rfl⟩

theorem poolGetConn_spec (w : CliPools) (addr : PyStr × Int) (r : Bool) :
    (poolGetConn w addr r).1.mgrs.length = w.mgrs.length + 1 ∧
    (poolGetConn w addr r).2 = .ok ⟨w.mgrs.length, 0, 0⟩ := by
  obtain ⟨m, pool, h1, h2, h3⟩ := freshPool_spec addr
  have hg : getPool w addr = ({ mgrs := w.mgrs ++ [m] }, w.mgrs.length, .ok 0) := by
    simp only [getPool, h1]
  have hc : (pool.getConn {} false r).2 = .ok 0 := by
    subst h3; cases r <;> rfl
  have hb : ((w.mgrs ++ [m])[w.mgrs.length]?.bind fun m => m.pools[0]?) = some pool := by
    simp [h2]
  simp only [poolGetConn, hg, hb]
  refine ⟨by simp, ?_⟩
  rw [hc]

theorem callPools_spec (w : CliPools) (addr : PyStr × Int) (r : Bool) :
    (callPools w addr r).1.mgrs.length = w.mgrs.length + 2 ∧
    (callPools w addr r).2 = .ok ⟨w.mgrs.length, 0, 0⟩ := by
  obtain ⟨h1, h2⟩ := poolGetConn_spec w addr r
  have : poolGetConn w addr r = ((poolGetConn w addr r).1, .ok ⟨w.mgrs.length, 0, 0⟩) := Prod.ext rfl h2
  unfold callPools
  rw [this]
  simp only [getPool, List.length_append, List.length_cons, List.length_nil, h1]
  exact ⟨trivial, trivial⟩

theorem callsConns_get (calls : List ((PyStr × Int) × Bool)) (w : CliPools) (i : Nat) (r : Res ConnId)
    (h : (callsConns w calls)[i]? = some r) : r = .ok ⟨w.mgrs.length + 2 * i, 0, 0⟩ := by
  induction calls generalizing w i with
  | nil => simp [callsConns] at h
  | cons x calls ih =>
    obtain ⟨h1, h2⟩ := callPools_spec w x.1 x.2
    simp only [callsConns] at h
    cases i with
    | zero =>
      simp only [List.getElem?_cons_zero, Option.some.injEq] at h
      rw [← h, h2]; rfl
    | succ i =>
      rw [List.getElem?_cons_succ] at h
      rw [ih _ i h, h1]
      congr 2
      omega

/-- C54, what the code does instead: every call succeeds in getting a connection, the second and later ones never the
connection of an earlier call: in any sequence of calls (to any addresses, the same one included) no connection is
used twice. Missing for the listed claim: any reuse at all; `_get_pool` builds a new `PoolManager` per call. -/
theorem C54_never_reused_partial (w : CliPools) (calls : List ((PyStr × Int) × Bool)) (i j : Nat) (r s : Res ConnId)
    (hij : i < j) (hi : (callsConns w calls)[i]? = some r) (hj : (callsConns w calls)[j]? = some s) :
    ∃ c d, r = .ok c ∧ s = .ok d ∧ c ≠ d := by
  refine ⟨_, _, callsConns_get calls w i r hi, callsConns_get calls w j s hj, ?_⟩
  intro h
  injection h with h
  omega

example : callsConns {} [((py "h", 1), false), ((py "h", 1), false)] = [.ok ⟨0, 0, 0⟩, .ok ⟨2, 0, 0⟩] := by decide

end Bolt
