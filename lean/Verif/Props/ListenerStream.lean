import Verif.Props.ListenerReader
/-!
# C100: what the asyncio listener makes of an arbitrary byte stream
-/
namespace Bolt
open Spec

/-! ## The specification -/

/-- the beginning of a frame: fixed part, class name and header section -/
def Spec.frameHead (f : Fields) (cn hb : Bytes) (nl : Nat) : Bytes := fixedPart true f cn.length hb.length nl ++ cn ++ hb

/-- `Wants last bs as last' isOpen`: what is to be done with the bytes `bs`, for every `bs`. `last` is the id of the frame
before, `last'` that of the frame last begun, `isOpen` says that more could follow. -/
inductive Spec.Wants : Option Int → Bytes → List Act → Option Int → Bool → Prop
  /-- not even a fixed part -/
  | short {last bs} : bs.length < 22 → Wants last bs [] last true
  /-- class name or header section incomplete -/
  | partHead {last f cl hl nl bs} : Fields.Fit true f → cl < 65536 → hl < 65536 → nl < 4294967296 → bs.length < cl + hl →
      Wants last (fixedPart true f cl hl nl ++ bs) [] (some f.requestId) true
  /-- content incomplete -/
  | partBody {last f cn hb nl d bs} : Fields.Fit true f → cn.length < 65536 → hb.length < 65536 → nl < 4294967296 →
      headerFromBytes hb = .ok d → bs.length < nl → Wants last (frameHead f cn hb nl ++ bs) [] (some f.requestId) true
  /-- a complete frame with a decodable header -/
  | frame {last bs as last' o} {q : AnyFrame} : q.Ok → Wants (some q.f.requestId) bs as last' o →
      Wants last (q.bytes ++ bs) (q.verdict :: as) last' o
  /-- a header section that is no sequence of strings: an answer, and reading goes on after the header section -/
  | codec {last f cn hb nl bs as last' o} : Fields.Fit true f → cn.length < 65536 → hb.length < 65536 → nl < 4294967296 →
      headerFromBytes hb = .error .decodeError → Wants (some f.requestId) bs as last' o →
      Wants last (frameHead f cn hb nl ++ bs) (.reject f.requestId .codecException :: as) last' o
  /-- a string that is no UTF-8: an answer, and the end -/
  | unicode {last f cn hb nl bs} : Fields.Fit true f → cn.length < 65536 → hb.length < 65536 → nl < 4294967296 →
      headerFromBytes hb = .error .unicodeDecodeError →
      Wants last (frameHead f cn hb nl ++ bs) [.close (some f.requestId) .unknown] (some f.requestId) false

/-! ## Every byte sequence is covered -/

theorem stream_exists (bs : Bytes) : ∀ last, ∃ as last' o, Wants last bs as last' o := by
  generalize hn : bs.length = n
  induction n using Nat.strongRecOn generalizing bs with
  | _ n ih =>
    intro last
    by_cases h22 : bs.length < 22
    · exact ⟨_, _, _, .short h22⟩
    · obtain ⟨f, cl, hl, nl, hf, h1, h2, h3, e, -⟩ := reqHdr_total (bs.take 22) (by rw [List.length_take]; omega)
      have hbs : bs = fixedPart true f cl hl nl ++ bs.drop 22 := by rw [← e, List.take_append_drop]
      by_cases hh : (bs.drop 22).length < cl + hl
      · rw [hbs]
        exact ⟨_, _, _, .partHead hf h1 h2 h3 hh⟩
      · generalize bs.drop 22 = x at hbs hh
        have hlen := congrArg List.length hbs
        rw [List.length_append, fixedPart_length] at hlen
        simp only [if_true] at hlen
        have hx : x = x.take cl ++ ((x.drop cl).take hl ++ (x.drop cl).drop hl) := by
          rw [List.take_append_drop, List.take_append_drop]
        have hcn : (x.take cl).length = cl := by rw [List.length_take]; omega
        have hhb : ((x.drop cl).take hl).length = hl := by rw [List.length_take, List.length_drop]; omega
        have hy : ((x.drop cl).drop hl).length = x.length - cl - hl := by rw [List.length_drop, List.length_drop]
        have hbs' : bs = frameHead f (x.take cl) ((x.drop cl).take hl) nl ++ (x.drop cl).drop hl := by
          unfold frameHead
          rw [hcn, hhb, hbs]
          simp only [List.append_assoc, List.append_cancel_left_eq]
          exact hx
        generalize x.take cl = cn at hcn hbs'
        generalize (x.drop cl).take hl = hb at hhb hbs'
        generalize (x.drop cl).drop hl = y at hy hbs'
        subst hcn hhb
        cases hd : headerFromBytes hb with
        | error er =>
          rcases headerFromBytes_error hd with rfl | rfl
          · obtain ⟨as, last', o, hs⟩ := ih y.length (by omega) y rfl (some f.requestId)
            rw [hbs']
            exact ⟨_, _, _, .codec hf h1 h2 h3 hd hs⟩
          · rw [hbs']
            exact ⟨_, _, _, .unicode hf h1 h2 h3 hd⟩
        | ok d =>
          by_cases hc : y.length < nl
          · rw [hbs']
            exact ⟨_, _, _, .partBody hf h1 h2 h3 hd hc⟩
          · have hct : (y.take nl).length = nl := by rw [List.length_take]; omega
            obtain ⟨as, last', o, hs⟩ := ih (y.drop nl).length (by rw [List.length_drop]; omega) (y.drop nl) rfl
              (some f.requestId)
            have hq : bs = (⟨f, cn, hb, d, y.take nl⟩ : AnyFrame).bytes ++ y.drop nl := by
              unfold AnyFrame.bytes frame
              rw [hct, hbs']
              unfold frameHead
              simp only [List.append_assoc, List.take_append_drop]
            rw [hq]
            exact ⟨_, _, _, .frame ⟨hf, ⟨h1, h2, by rw [hct]; exact h3⟩, hd⟩ hs⟩

/-! ## The reader does that -/

theorem reads_head (f : Fields) (cl hl nl : Nat) (hf : Fields.Fit true f) (h8 : cl < 65536)
    (h9 : hl < 65536) (h10 : nl < 4294967296) (last : Option Int) (rest : Bytes) :
    readerIter ⟨.hdr, last⟩ (fixedPart true f cl hl nl ++ rest) false =
      some (⟨.cls ⟨f.ptype, f.cmdcode, f.requestId, f.seventh, cl, hl, nl⟩, some f.requestId⟩, rest, none) := by
  have hlen : (fixedPart true f cl hl nl).length = 22 := by rw [fixedPart_length]; rfl
  have := readerIter_append (r := ⟨.hdr, last⟩) (b := fixedPart true f cl hl nl) (b' := [])
    (r' := ⟨.cls ⟨f.ptype, f.cmdcode, f.requestId, f.seventh, cl, hl, nl⟩, some f.requestId⟩)
    (a := none) (e := false) ?_ rest
  · simpa using this
  · unfold readerIter
    dsimp only
    rw [if_pos (by rw [hlen, boltRequest_headerSize]; omega), take_fixedPart _ _ _ _ _ boltRequest_headerSize,
      reqHdr_fixed f _ _ _ hf h8 h9 h10, List.drop_eq_nil_of_le (by rw [hlen, boltRequest_headerSize]; omega)]

/-- a frame with an undecodable header section -/
theorem reads_undecodable (f : Fields) (cn hb : Bytes) (nl : Nat) (e : PyExc) (hf : Fields.Fit true f)
    (h8 : cn.length < 65536) (h9 : hb.length < 65536) (h10 : nl < 4294967296) (he : headerFromBytes hb = .error e)
    (last : Option Int) (rest : Bytes) :
    RSteps ⟨.hdr, last⟩ (frameHead f cn hb nl ++ rest) [onError e (some f.requestId)]
      ⟨(onError e (some f.requestId)).next, some f.requestId⟩ rest := by
  have h1 := reads_prefix f cn hb nl hf h8 h9 h10 last rest
  refine RSteps.trans (l := []) h1 (.one (a := some _) ?_)
  unfold readerIter
  dsimp only
  rw [if_pos (by simp)]
  have ht : (hb ++ rest).take ((hb.length : Int).toNat) = hb := by simp
  have hd : (hb ++ rest).drop ((hb.length : Int).toNat) = rest := by simp
  rw [ht, hd, he]

theorem stream_reads {last : Option Int} {bs : Bytes} {as : List Act} {last' : Option Int} {o : Bool}
    (h : Wants last bs as last' o) : ∃ rd b, RSteps ⟨.hdr, last⟩ bs as rd b ∧ readerIter rd b false = none ∧
      rd.last = last' ∧ (rd.phase = .stopped ↔ o = false) := by
  induction h with
  | @short last bs h =>
    refine ⟨_, _, .refl _ _, ?_, rfl, by simp⟩
    unfold readerIter
    dsimp only
    rw [if_neg (by rw [boltRequest_headerSize]; omega)]
    simp
  | @partHead last f cl hl nl bs hf h1 h2 h3 h =>
    have e1 := reads_head f cl hl nl hf h1 h2 h3 last bs
    by_cases hc : bs.length < cl
    · refine ⟨_, _, .one e1, ?_, rfl, by simp⟩
      unfold readerIter
      dsimp only
      rw [if_neg (by simp; omega)]
      simp
    · have e2 : readerIter ⟨.cls ⟨f.ptype, f.cmdcode, f.requestId, f.seventh, cl, hl, nl⟩, some f.requestId⟩ bs false =
          some (⟨.shdr ⟨f.ptype, f.cmdcode, f.requestId, f.seventh, cl, hl, nl⟩ (bs.take cl), some f.requestId⟩,
            bs.drop cl, none) := by
        unfold readerIter
        dsimp only
        rw [if_pos (by simp; omega)]
        simp
      refine ⟨_, _, .step (a := none) e1 (.one (a := none) e2), ?_, rfl, by simp⟩
      unfold readerIter
      dsimp only
      rw [if_neg (by simp; omega)]
      simp
  | @partBody last f cn hb nl d bs hf h1 h2 h3 hd h =>
    have e1 := reads_prefix f cn hb nl hf h1 h2 h3 last bs
    have e2 : readerIter ⟨.shdr ⟨f.ptype, f.cmdcode, f.requestId, f.seventh, cn.length, hb.length, nl⟩ cn,
        some f.requestId⟩ (hb ++ bs) false =
        some (⟨.body ⟨f.ptype, f.cmdcode, f.requestId, f.seventh, cn.length, hb.length, nl⟩ cn d, some f.requestId⟩,
          bs, none) := by
      unfold readerIter
      dsimp only
      rw [if_pos (by simp)]
      simp [hd]
    refine ⟨_, _, RSteps.trans (l := []) e1 (.one (a := none) e2), ?_, rfl, by simp⟩
    unfold readerIter
    dsimp only
    rw [if_neg (by simp; omega)]
    simp
  | @frame last bs as last' o q hq _ ih =>
    obtain ⟨rd, b, g1, g2, g3, g4⟩ := ih
    exact ⟨rd, b, (reads_any q hq last bs).trans g1, g2, g3, g4⟩
  | @codec last f cn hb nl bs as last' o hf h1 h2 h3 hd _ ih =>
    obtain ⟨rd, b, g1, g2, g3, g4⟩ := ih
    exact ⟨rd, b, (reads_undecodable f cn hb nl _ hf h1 h2 h3 hd last bs).trans g1, g2, g3, g4⟩
  | @unicode last f cn hb nl bs hf h1 h2 h3 hd =>
    refine ⟨_, _, reads_undecodable f cn hb nl _ hf h1 h2 h3 hd last bs, readerIter_stopped rfl _ _, rfl, ?_⟩
    simp only [onError, Act.next, PyExc.isProtocolError]
    simp

theorem stream_unique {last : Option Int} {bs : Bytes} {as as' : List Act} {l l' : Option Int} {o o' : Bool}
    (h : Wants last bs as l o) (h' : Wants last bs as' l' o') : as = as' ∧ l = l' ∧ o = o' := by
  obtain ⟨rd, b, g1, g2, g3, g4⟩ := stream_reads h
  obtain ⟨rd', b', g1', g2', g3', g4'⟩ := stream_reads h'
  obtain ⟨rfl, rfl, rfl⟩ := g1.unique g2 g1' g2'
  refine ⟨rfl, g3.symm.trans g3', ?_⟩
  cases o <;> cases o' <;> simp_all

theorem stream_acts {last : Option Int} {bs : Bytes} {as : List Act} {l : Option Int} {o : Bool}
    (h : Wants last bs as l o) : Act.crash ∉ as ∧ (o = true → ∀ i st, Act.close i st ∉ as) ∧
      (o = false → ∃ i st, Act.close i st ∈ as) := by
  induction h with
  | @frame last bs as last' o q hq _ ih =>
    have hv : q.verdict ≠ .crash ∧ ∀ i st, q.verdict ≠ .close i st := by
      unfold AnyFrame.verdict
      split
      · exact ⟨nofun, fun _ _ => nofun⟩
      · split
        · exact ⟨nofun, fun _ _ => nofun⟩
        · exact ⟨nofun, fun _ _ => nofun⟩
    refine ⟨?_, ?_, ?_⟩
    · rintro h
      rcases List.mem_cons.1 h with h | h
      · exact hv.1 h.symm
      · exact ih.1 h
    · intro ho i st h
      rcases List.mem_cons.1 h with h | h
      · exact hv.2 i st h.symm
      · exact ih.2.1 ho i st h
    · intro ho
      obtain ⟨i, st, h⟩ := ih.2.2 ho
      exact ⟨i, st, List.mem_cons_of_mem _ h⟩
  | @codec last f cn hb nl bs as last' o hf h1 h2 h3 hd _ ih =>
    refine ⟨?_, ?_, ?_⟩
    · rintro h
      rcases List.mem_cons.1 h with h | h
      · cases h
      · exact ih.1 h
    · intro ho i st h
      rcases List.mem_cons.1 h with h | h
      · cases h
      · exact ih.2.1 ho i st h
    · intro ho
      obtain ⟨i, st, h⟩ := ih.2.2 ho
      exact ⟨i, st, List.mem_cons_of_mem _ h⟩
  | unicode hf h1 h2 h3 hd => exact ⟨by simp, by simp, fun _ => ⟨_, _, List.mem_singleton_self _⟩⟩
  | _ => exact ⟨by simp, by simp, by simp⟩

/-! ## When the connection is closed -/

structure ClosedInv (s : LSt) : Prop where
  only : s.closed = true → s.lost = true ∨ ∃ i st, Act.close i st ∈ s.acts
  then_ : (∃ i st, Act.close i st ∈ s.acts) → s.closed = true ∨ ∃ mo, s.tail = .closing mo
  tail : ∀ mo, s.tail = .closing mo → ∃ i st, Act.close i st ∈ s.acts

theorem ClosedInv.congr {s s' : LSt} (h : ClosedInv s) (e1 : s'.closed = s.closed) (e2 : s'.lost = s.lost)
    (e3 : s'.acts = s.acts) (e4 : s'.tail = s.tail) : ClosedInv s' :=
  ⟨by rw [e1, e2, e3]; exact h.only, by rw [e1, e3, e4]; exact h.then_, by rw [e3, e4]; exact h.tail⟩

theorem perform_rest (s : LSt) (a : Act) : (s.perform a).lost = s.lost ∧ (s.perform a).acts = s.acts ++ [a] ∧
    ((∃ i st, a = .close i st) ∨ (s.perform a).tail = s.tail ∨ ∃ m, (s.perform a).tail = .replying m) := by
  unfold LSt.perform
  dsimp only
  split
  · exact ⟨rfl, rfl, .inr (.inl rfl)⟩
  · split <;> exact ⟨rfl, rfl, .inr (.inl rfl)⟩
  · split
    · exact ⟨rfl, rfl, .inr (.inr ⟨_, rfl⟩)⟩
    · exact ⟨rfl, rfl, .inr (.inl rfl)⟩
  · exact ⟨rfl, rfl, .inl ⟨_, _, rfl⟩⟩
  · exact ⟨rfl, rfl, .inr (.inl rfl)⟩

theorem ClosedInv.perform {s : LSt} (h : ClosedInv s) (hr : s.tail = .reading) (a : Act) : ClosedInv (s.perform a) := by
  have hc := (perform_closed s a).1
  obtain ⟨hl, ha, ht⟩ := perform_rest s a
  refine ⟨?_, ?_, ?_⟩
  · rw [hc, hl, ha]
    intro h1
    rcases h.only h1 with h2 | ⟨i, st, h2⟩
    · exact .inl h2
    · exact .inr ⟨i, st, List.mem_append_left _ h2⟩
  · rw [hc, ha]
    rintro ⟨i, st, h1⟩
    rcases List.mem_append.1 h1 with h2 | h2
    · rcases h.then_ ⟨i, st, h2⟩ with h3 | ⟨mo, h3⟩
      · exact .inl h3
      · rw [hr] at h3; cases h3
    · rw [← List.mem_singleton.1 h2]
      exact .inr ⟨_, rfl⟩
  · intro mo hmo
    rw [ha]
    rcases ht with ⟨i, st, rfl⟩ | ht | ⟨m, ht⟩
    · exact ⟨i, st, by simp⟩
    · rw [ht, hr] at hmo; cases hmo
    · rw [ht] at hmo; cases hmo

theorem write_rest (s : LSt) (o : Origin) (m : Bytes) : (s.write o m).closed = s.closed ∧ (s.write o m).lost = s.lost ∧
    (s.write o m).acts = s.acts ∧ (s.write o m).tail = s.tail := by
  unfold LSt.write
  split <;> exact ⟨rfl, rfl, rfl, rfl⟩

theorem ClosedInv.reader {s : LSt} (h : ClosedInv s) : ClosedInv s.reader := by
  unfold LSt.reader
  split
  · next hr =>
    split
    · exact h
    · exact h.congr rfl rfl rfl rfl
    · next rd buf a _ =>
      exact ClosedInv.perform (s := { s with rd := rd, buf := buf }) (h.congr rfl rfl rfl rfl) hr a
  · next m hm =>
    obtain ⟨w1, w2, w3, -⟩ := write_rest s (.reader (s.acts.length - 1)) m
    refine ⟨by dsimp only; rw [w1, w2, w3]; exact h.only, ?_, nofun⟩
    dsimp only
    rw [w1, w3]
    intro h1
    rcases h.then_ h1 with h2 | ⟨mo, h2⟩
    · exact .inl h2
    · rw [hm] at h2; cases h2
  · next hm => exact ⟨fun _ => .inr (h.tail _ hm), fun _ => .inl rfl, nofun⟩
  · next m hm =>
    obtain ⟨w1, w2, w3, -⟩ := write_rest s (.reader (s.acts.length - 1)) m
    exact ⟨fun _ => .inr (by dsimp only; rw [w3]; exact h.tail _ hm), fun _ => .inl rfl, nofun⟩

theorem dispatch_rest (svc : Services) (s : LSt) (i : Nat) (t : Task) (r : Req) (fresh : PyStr) :
    (s.dispatch svc i t r fresh).closed = s.closed ∧ (s.dispatch svc i t r fresh).lost = s.lost ∧
    (s.dispatch svc i t r fresh).acts = s.acts ∧ (s.dispatch svc i t r fresh).tail = s.tail := by
  unfold LSt.dispatch
  split
  · exact ⟨rfl, rfl, rfl, rfl⟩
  · split
    · exact ⟨rfl, rfl, rfl, rfl⟩
    · split
      · exact ⟨rfl, rfl, rfl, rfl⟩
      · dsimp only
        split
        · exact ⟨rfl, rfl, rfl, rfl⟩
        · exact ⟨rfl, rfl, rfl, rfl⟩
        · split <;> exact ⟨rfl, rfl, rfl, rfl⟩

theorem ClosedInv.run (svc : Services) (reg : Registry) (evs : List LEv) : ClosedInv (lrun svc reg evs) := by
  have step : ∀ (s : LSt) (e : LEv), ClosedInv s → ClosedInv (lstep svc s e) := by
    intro s e h
    cases e with
    | data bs => simp only [lstep]; split <;> exact h.congr rfl rfl rfl rfl
    | eof => exact h.congr rfl rfl rfl rfl
    | reset => exact ⟨fun _ => .inl rfl, fun _ => .inl rfl, nofun⟩
    | reader => exact h.reader
    | run i fresh =>
      simp only [lstep]
      split
      · split
        · obtain ⟨a, b, c, d⟩ := dispatch_rest svc s i _ _ fresh
          exact h.congr a b c d
        · exact h
      · exact h
    | result i =>
      simp only [lstep]
      split
      · split
        · split
          · exact h
          · exact h.congr rfl rfl rfl rfl
          · exact h
        · exact h
      · exact h
    | expire i =>
      simp only [lstep]
      split
      · split
        · split
          · refine ClosedInv.congr h ?_ ?_ ?_ ?_ <;> (unfold LSt.setTask LSt.cancelFut; split <;> rfl)
          · exact h
        · exact h
      · exact h
    | write i =>
      simp only [lstep]
      split
      · split
        · next m hm =>
          obtain ⟨a, b, c, d⟩ := write_rest s (.task i) m
          exact h.congr a b c d
        · exact h
      · exact h
    | futStart k => simp only [lstep]; split <;> exact h.congr rfl rfl rfl rfl
    | futFinish k o => simp only [lstep]; split <;> exact h.congr rfl rfl rfl rfl
    | tick d => exact h.congr rfl rfl rfl rfl
    | register r => exact h.congr rfl rfl rfl rfl
  have all : ∀ (evs : List LEv) (s : LSt), ClosedInv s → ClosedInv (evs.foldl (lstep svc) s) := by
    intro evs
    induction evs with
    | nil => intro s h; exact h
    | cons e evs ih => intro s h; exact ih _ (step s e h)
  exact all evs _ ⟨nofun, (by rintro ⟨i, st, h⟩; cases h), nofun⟩

/-- C100 (every stream): what the listener does with the bytes it receives is given by the grammar `Wants`, which covers
every byte sequence in exactly one way. Once the reader has caught up, without a reset, its actions are those of the
grammar, followed by CONNECTION_CLOSED (for the id of the frame last begun) if the stream has ended. It never dies from an
unbound variable. It closes the connection exactly if the stream has ended, or a frame has a header section with a string
that is no UTF-8: no other bytes whatsoever make it close, or stop reading. -/
theorem C100_every_stream (svc : Services) (reg : Registry) (evs : List LEv) (hn : .reset ∉ evs)
    (hi : (lrun svc reg evs).idle) :
    ∃ as last isOpen, Wants none (received evs) as last isOpen ∧
      (∀ as' last' o', Wants none (received evs) as' last' o' → as' = as ∧ last' = last ∧ o' = isOpen) ∧
      (lrun svc reg evs).acts =
        as ++ (if sawEof evs = true ∧ isOpen = true then [.close last .connectionClosed] else []) ∧
      Act.crash ∉ (lrun svc reg evs).acts ∧
      ((lrun svc reg evs).closed = true ↔ sawEof evs = true ∨ isOpen = false) := by
  obtain ⟨as, last, o, hw⟩ := stream_exists (received evs) none
  obtain ⟨l, rd, b, h1, h2, h3⟩ := run_cases svc reg evs hn hi
  obtain ⟨rd', b', g1, g2, g3, g4⟩ := stream_reads hw
  obtain ⟨rfl, rfl, rfl⟩ := g1.unique g2 h1 h2
  obtain ⟨c1, c2, c3⟩ := stream_acts hw
  have hacts : (lrun svc reg evs).acts =
      as ++ (if sawEof evs = true ∧ o = true then [.close last .connectionClosed] else []) := by
    rw [h3, g3]
    have : (sawEof evs = true ∧ rd'.phase ≠ .stopped) = (sawEof evs = true ∧ o = true) := by
      rw [Ne, g4]
      simp
    simp only [this]
  have hlost : (lrun svc reg evs).lost = false := by
    rw [(lrun_env svc reg evs).2.2]
    simpa using hn
  have hinv := ClosedInv.run svc reg evs
  refine ⟨as, last, o, hw, fun as' last' o' h => stream_unique h hw, hacts, ?_, ?_⟩
  · rw [hacts]
    intro h
    rcases List.mem_append.1 h with h | h
    · exact c1 h
    · split at h
      · simp at h
      · cases h
  · constructor
    · intro hc
      rcases hinv.only hc with h | ⟨i, st, h⟩
      · rw [hlost] at h; cases h
      · cases ho : o with
        | false => exact .inr rfl
        | true =>
          left
          rw [hacts] at h
          rcases List.mem_append.1 h with h | h
          · exact absurd h (c2 ho i st)
          · split at h
            · next hh => exact hh.1
            · cases h
    · intro hc
      have : ∃ i st, Act.close i st ∈ (lrun svc reg evs).acts := by
        rw [hacts]
        cases ho : o with
        | false =>
          obtain ⟨i, st, h⟩ := c3 ho
          exact ⟨i, st, List.mem_append_left _ h⟩
        | true =>
          rcases hc with hc | hc
          · exact ⟨last, .connectionClosed, by rw [if_pos ⟨hc, rfl⟩]; simp⟩
          · rw [ho] at hc; cases hc
      rcases hinv.then_ this with h | ⟨mo, h⟩
      · exact h
      · rw [hi.1] at h; cases h

/-- a request, a frame whose header section is cut off, a request with a string that is no UTF-8, and another request,
which is never read -/
def exMixed : Bytes :=
  (exReq 3 [1, 2]).bytes ++ frame true ⟨1, 1, 1, 1, 5, 11, 100⟩ reqClass [0] [] ++
    frame true ⟨1, 1, 1, 1, 6, 11, 100⟩ reqClass [0, 0, 0, 1, 0xff] [7] ++ (exReq 8 [9]).bytes

set_option maxRecDepth 40000 in
example : (lrun noServices [] (.data exMixed :: List.replicate 20 .reader)).idle ∧
    (lrun noServices [] (.data exMixed :: List.replicate 20 .reader)).acts =
      [.dispatch (exReq 3 [1, 2]).req, .reject 5 .codecException, .close (some 6) .unknown] ∧
    (lrun noServices [] (.data exMixed :: List.replicate 20 .reader)).closed = true := by
  unfold LSt.idle
  decide +kernel

end Bolt
