import Verif.Model.InputFlow
import Verif.Props.ListenerStream
import Verif.Lemmas.Rest
import Verif.Lemmas.AioRecvd
import Verif.Props.SyncClient
/-!
# C176: how much unread input a connection holds
-/
namespace Bolt
open Spec

namespace Spec

/-- how many bytes the reader of the listener is waiting for: the fixed header, or as many as the peer has declared -/
def asked : RPhase → Nat
  | .hdr => 22
  | .cls h => h.classLen.toNat
  | .shdr h _ => h.headerLen.toNat
  | .body h _ _ => h.contentLen.toNat
  | .stopped => 0

/-- the same for the reading task of the client, which reads the three sections at once -/
def askedBack : RecvPc → Nat
  | .hdr => 20
  | .body h => match bodySize h with
    | .ok n => n.toNat
    | .error _ => 0
  | .new | .ended => 0

end Spec

/-- C176 as listed, with the limits of asyncio: what a connection holds of unread input is bounded by a constant -/
def C176_full : Prop :=
  (∀ (svc : Services) (reg : Registry) (evs : List LEv),
    (lInRun inAsyncio svc reg evs).l.buf.length ≤ 2 * inAsyncio.limit + inAsyncio.chunk) ∧
  (∀ (v : PyVer) (evs : List AEv), ∀ k ∈ (aInRun inAsyncio v evs).a.conns,
    k.buf.length ≤ 2 * inAsyncio.limit + inAsyncio.chunk)

/-! ## The schedules with flow control are schedules -/

theorem lInRun_snoc (c : InCfg) (svc : Services) (reg : Registry) (evs : List LEv) (e : LEv) :
    lInRun c svc reg (evs ++ [e]) = lInStep c svc (lInRun c svc reg evs) e := by
  simp [lInRun, List.foldl_append]

theorem aInRun_snoc (c : InCfg) (v : PyVer) (evs : List AEv) (e : AEv) :
    aInRun c v (evs ++ [e]) = aInStep c v (aInRun c v evs) e := by
  simp [aInRun, List.foldl_append]

theorem lInStep_l (c : InCfg) (svc : Services) (s : LInSt) (e : LEv) :
    (lInStep c svc s e).l = lstep svc s.l e ∨ ((lInStep c svc s e) = s ∧ ∃ bs, e = .data bs) := by
  cases e with
  | data bs =>
    simp only [lInStep]
    split
    · exact .inl rfl
    · exact .inr ⟨rfl, bs, rfl⟩
  | _ => exact .inl rfl

theorem aInStep_a (c : InCfg) (v : PyVer) (s : AInSt) (e : AEv) :
    (aInStep c v s e).a = astep v s.a e ∨ ((aInStep c v s e) = s ∧ ∃ n bs, e = .data n bs) := by
  cases e with
  | data n bs =>
    simp only [aInStep]
    split
    · exact .inl rfl
    · exact .inr ⟨rfl, n, bs, rfl⟩
  | _ => exact .inl rfl

/-! ## The listener: what it asks for -/

/-- the lengths in the header at hand are those of two shorts and a long -/
def LensOk : RPhase → Prop
  | .cls h | .shdr h _ | .body h _ _ =>
    h.classLen.toNat < 65536 ∧ h.headerLen.toNat < 65536 ∧ h.contentLen.toNat < 4294967296
  | _ => True

theorem LensOk.asked {p : RPhase} (h : LensOk p) : asked p ≤ 4294967295 := by
  unfold Spec.asked
  unfold LensOk at h
  cases p <;> dsimp only at h ⊢ <;> omega

theorem Act.next_ok (a : Act) : LensOk a.next := by
  cases a <;> exact trivial

theorem readerIter_none {r : ReadSt} {buf : Bytes} {eof : Bool} (h : readerIter r buf eof = none) :
    r.phase = .stopped ∨ (buf.length < asked r.phase ∧ eof = false) := by
  unfold readerIter at h
  unfold asked
  cases hp : r.phase with
  | stopped => exact .inl rfl
  | _ =>
    right
    have := boltRequest_headerSize
    simp only [hp] at h
    repeat' split at h
    all_goals first
      | (cases h; done)
      | (refine ⟨?_, ?_⟩
         · dsimp only; omega
         · cases eof with
           | false => rfl
           | true => contradiction)

theorem readerIter_some {r r' : ReadSt} {buf buf' : Bytes} {eof : Bool} {a : Option Act} (hl : LensOk r.phase)
    (h : readerIter r buf eof = some (r', buf', a)) : LensOk r'.phase ∧
    ((asked r.phase ≤ buf.length ∧ buf' = buf.drop (asked r.phase) ∧ r.phase ≠ .stopped) ∨
      (buf.length < asked r.phase ∧ eof = true ∧ buf' = buf ∧ r'.phase = .stopped)) := by
  unfold readerIter at h
  unfold asked
  cases hp : r.phase with
  | stopped => simp only [hp] at h; cases h
  | hdr =>
    simp only [hp] at h
    split at h
    · next hlen =>
      rw [boltRequest_headerSize] at h hlen
      obtain ⟨f, cl, hl, nl, -, h8, h9, h10, -, e⟩ := reqHdr_total (buf.take 22) (by rw [List.length_take]; omega)
      rw [e] at h
      cases h
      exact ⟨⟨by dsimp only; omega, by dsimp only; omega, by dsimp only; omega⟩, .inl ⟨hlen, rfl, nofun⟩⟩
    · next hlen =>
      rw [boltRequest_headerSize] at hlen
      split at h
      · next he =>
        cases h
        exact ⟨trivial, .inr ⟨by dsimp only; omega, he, rfl, rfl⟩⟩
      · cases h
  | cls hd =>
    simp only [hp] at h hl
    split at h
    · next hlen =>
      cases h
      exact ⟨hl, .inl ⟨hlen, rfl, nofun⟩⟩
    · next hlen =>
      split at h
      · next he =>
        cases h
        exact ⟨trivial, .inr ⟨by dsimp only; omega, he, rfl, rfl⟩⟩
      · cases h
  | shdr hd cn =>
    simp only [hp] at h hl
    split at h
    · next hlen =>
      split at h
      · cases h
        exact ⟨Act.next_ok _, .inl ⟨hlen, rfl, nofun⟩⟩
      · cases h
        exact ⟨hl, .inl ⟨hlen, rfl, nofun⟩⟩
    · next hlen =>
      split at h
      · next he =>
        cases h
        exact ⟨trivial, .inr ⟨by dsimp only; omega, he, rfl, rfl⟩⟩
      · cases h
  | body hd cn d =>
    simp only [hp] at h hl
    split at h
    · next hlen =>
      cases h
      exact ⟨Act.next_ok _, .inl ⟨hlen, rfl, nofun⟩⟩
    · next hlen =>
      split at h
      · next he =>
        cases h
        exact ⟨trivial, .inr ⟨by dsimp only; omega, he, rfl, rfl⟩⟩
      · cases h

/-! ## The listener: the bound -/

/-- `len` bytes are held by a reader that asks for `n` -/
def Within (c : InCfg) (paused : Bool) (len n : Nat) : Prop :=
  len ≤ max (2 * c.limit) (n - 1) + c.chunk ∧ (paused = false → len ≤ max (2 * c.limit) (n - 1))

theorem Within.zero {c : InCfg} {p : Bool} {len : Nat} (h : Within c p len 0) (n : Nat) : Within c p len n := by
  unfold Within at *
  exact ⟨by omega, fun hp => by have := h.2 hp; omega⟩

theorem Within.fed {c : InCfg} {len more n : Nat} (h : Within c false len n) (hm : more ≤ c.chunk) :
    Within c (c.fed (len + more)) (len + more) n := by
  unfold Within InCfg.fed at *
  have := h.2 rfl
  refine ⟨by omega, fun hp => ?_⟩
  have := of_decide_eq_false hp
  omega

/-- a read that gets what it asked for -/
theorem Within.read {c : InCfg} {p : Bool} {len n : Nat} (h : Within c p len n) (hn : n ≤ len) :
    Within c (c.ran p false (len - n)) (len - n) 0 := by
  unfold Within InCfg.ran at *
  refine ⟨by omega, fun hp => ?_⟩
  cases p with
  | false => have := h.2 rfl; omega
  | true =>
    simp at hp
    omega

/-- a read that has to wait -/
theorem Within.wait {c : InCfg} {p q : Bool} {len n : Nat} (h : Within c p len n) (hn : len < n) : Within c q len n := by
  unfold Within at *
  exact ⟨h.1, fun _ => by omega⟩

/-- the reader goes on without having read -/
theorem Within.ran {c : InCfg} {p : Bool} {len n : Nat} (h : Within c p len n) : Within c (c.ran p false len) len n := by
  unfold Within InCfg.ran at *
  refine ⟨h.1, fun hp => ?_⟩
  cases p with
  | false => exact h.2 rfl
  | true =>
    simp at hp
    omega

/-- The invariant. A reader that has stopped because there is nothing more to come holds what it had. -/
structure LInOk (c : InCfg) (s : LInSt) : Prop where
  lens : LensOk s.l.rd.phase
  within : Within c s.paused s.l.buf.length (asked s.l.rd.phase) ∨
    (s.l.rd.phase = .stopped ∧ (s.l.eof = true ∨ s.l.closed = true) ∧
      s.l.buf.length ≤ max (2 * c.limit) 4294967294 + c.chunk)

theorem perform_phase (s : LSt) (a : Act) : (s.perform a).rd.phase = s.rd.phase ∨ (s.perform a).rd.phase = .stopped := by
  unfold LSt.perform
  dsimp only
  split
  · exact .inl rfl
  · split
    · exact .inl rfl
    · exact .inr rfl
  · split
    · exact .inl rfl
    · exact .inr rfl
  · exact .inl rfl
  · exact .inl rfl

theorem reader_closed (s : LSt) (h : s.closed = true) : s.reader.closed = true := by
  unfold LSt.reader
  split
  · split
    · exact h
    · exact h
    · rw [(perform_closed _ _).1]; exact h
  · obtain ⟨out, hw⟩ := write_fields s (.reader (s.acts.length - 1)) (by assumption)
    rw [hw]; exact h
  · rfl
  · rfl

theorem LInOk.reader {c : InCfg} {svc : Services} {s : LInSt} (h : LInOk c s) : LInOk c (lInStep c svc s .reader) := by
  rcases h with ⟨hl, hw | ⟨h1, h2, h3⟩⟩
  · simp only [lInStep, lstep]
    by_cases ht : s.l.tail = .reading
    · cases hi : readerIter s.l.rd s.l.buf s.l.eof with
      | none =>
        have e : s.l.reader = s.l := by unfold LSt.reader; simp only [ht, hi]
        rw [e]
        rcases readerIter_none hi with hs | ⟨hn, -⟩
        · have : s.l.waits = false := by unfold LSt.waits; simp [hs]
          rw [this]
          exact ⟨hl, .inl hw.ran⟩
        · exact ⟨hl, .inl (hw.wait hn)⟩
      | some x =>
        obtain ⟨r', buf', a⟩ := x
        have hwait : s.l.waits = false := by unfold LSt.waits; simp [hi]
        rw [hwait]
        obtain ⟨g1, g2⟩ := readerIter_some hl hi
        have key : s.l.reader.buf = buf' ∧ (s.l.reader.rd.phase = r'.phase ∨ s.l.reader.rd.phase = .stopped) ∧
            s.l.reader.eof = s.l.eof := by
          cases a with
          | none =>
            have e : s.l.reader = { s.l with rd := r', buf := buf' } := by unfold LSt.reader; simp only [ht, hi]
            rw [e]; exact ⟨rfl, .inl rfl, rfl⟩
          | some a =>
            have e : s.l.reader = LSt.perform { s.l with rd := r', buf := buf' } a := by
              unfold LSt.reader; simp only [ht, hi]
            rw [e]
            obtain ⟨-, -, f3, f4, -, -⟩ := perform_fields { s.l with rd := r', buf := buf' } a
            exact ⟨f3, perform_phase _ _, f4⟩
        obtain ⟨k1, k2, k3⟩ := key
        refine ⟨?_, ?_⟩
        · dsimp only
          rcases k2 with e | e
          · rw [e]; exact g1
          · rw [e]; exact trivial
        · dsimp only
          rcases g2 with ⟨q1, q2, -⟩ | ⟨q1, q2, q3, q4⟩
          · left
            rw [k1, q2, List.length_drop]
            exact (hw.read q1).zero _
          · right
            rw [k1, q3, k3]
            refine ⟨?_, .inl q2, ?_⟩
            · rcases k2 with e | e
              · rw [e]; exact q4
              · exact e
            · have := hl.asked
              have := hw.1
              omega
    · have e : s.l.reader.buf = s.l.buf ∧ s.l.reader.rd = s.l.rd := by
        unfold LSt.reader
        split
        · next h => exact absurd h ht
        · obtain ⟨out, hw⟩ := write_fields s.l (.reader (s.l.acts.length - 1)) (by assumption)
          rw [hw]; exact ⟨rfl, rfl⟩
        · exact ⟨rfl, rfl⟩
        · obtain ⟨out, hw⟩ := write_fields s.l (.reader (s.l.acts.length - 1)) (by assumption)
          rw [hw]; exact ⟨rfl, rfl⟩
      have hwait : s.l.waits = false := by unfold LSt.waits; simp [ht]
      rw [hwait]
      refine ⟨?_, .inl ?_⟩
      · dsimp only; rw [e.2]; exact hl
      · dsimp only; rw [e.1, e.2]; exact hw.ran
  · have hs : s.l.reader.buf = s.l.buf ∧ s.l.reader.rd = s.l.rd := by
      unfold LSt.reader
      split
      · rw [readerIter_stopped h1]; exact ⟨rfl, rfl⟩
      · obtain ⟨out, hw⟩ := write_fields s.l (.reader (s.l.acts.length - 1)) (by assumption)
        rw [hw]; exact ⟨rfl, rfl⟩
      · exact ⟨rfl, rfl⟩
      · obtain ⟨out, hw⟩ := write_fields s.l (.reader (s.l.acts.length - 1)) (by assumption)
        rw [hw]; exact ⟨rfl, rfl⟩
    simp only [lInStep, lstep]
    refine ⟨?_, .inr ⟨?_, ?_, ?_⟩⟩
    · dsimp only; rw [hs.2]; exact hl
    · dsimp only; rw [hs.2]; exact h1
    · dsimp only
      rcases h2 with h2 | h2
      · left; rw [(reader_fields s.l).2.1]; exact h2
      · right; exact reader_closed _ h2
    · dsimp only; rw [hs.1]; exact h3

theorem LInOk.step {c : InCfg} {svc : Services} {s : LInSt} (h : LInOk c s) (e : LEv) : LInOk c (lInStep c svc s e) := by
  cases hev : e.isReader with
  | false =>
    have hs := lstep_same svc s.l e hev
    have e1 : lInStep c svc s e = { s with l := lstep svc s.l e } := by
      cases e <;> first | (cases hev; done) | rfl
    rw [e1]
    refine ⟨?_, ?_⟩
    · dsimp only; rw [hs.rd]; exact h.lens
    · dsimp only; rw [hs.rd, hs.buf, hs.eof, hs.closed]; exact h.within
  | true =>
    cases e with
    | data bs =>
      simp only [lInStep]
      split
      · next ht =>
        simp only [LInSt.takes, Bool.and_eq_true, Bool.not_eq_true', decide_eq_true_eq] at ht
        obtain ⟨⟨⟨h1, h2⟩, h3⟩, h4⟩ := ht
        have e : lstep svc s.l (.data bs) = { s.l with recvd := s.l.recvd ++ bs, buf := s.l.buf ++ bs } := by
          simp [lstep, h3]
        rw [e]
        rcases h with ⟨hl, hw | ⟨-, hc | hc, -⟩⟩
        · refine ⟨hl, .inl ?_⟩
          dsimp only
          rw [List.length_append]
          rw [h1] at hw
          exact hw.fed h4
        · rw [h3] at hc; cases hc
        · rw [h2] at hc; cases hc
      · exact h
    | eof =>
      rcases h with ⟨hl, hw | ⟨h1, h2, h3⟩⟩
      · exact ⟨hl, .inl hw⟩
      · exact ⟨hl, .inr ⟨h1, .inl rfl, h3⟩⟩
    | reset =>
      refine ⟨trivial, .inr ⟨rfl, .inr rfl, ?_⟩⟩
      show s.l.buf.length ≤ _
      rcases h with ⟨hl, hw | ⟨h1, h2, h3⟩⟩
      · have := hl.asked
        have := hw.1
        omega
      · exact h3
    | reader => exact h.reader
    | _ => cases hev

theorem LInOk.run (c : InCfg) (svc : Services) (reg : Registry) (evs : List LEv) : LInOk c (lInRun c svc reg evs) := by
  induction evs using snoc_induct with
  | nil => exact ⟨trivial, .inl ⟨Nat.zero_le _, fun _ => Nat.zero_le _⟩⟩
  | snoc evs e ih => rw [lInRun_snoc]; exact ih.step e

/-! ## The client: the bound -/

/-- the same for a connection of the client -/
structure AInOk (c : InCfg) (paused : Bool) (k : AConn) : Prop where
  lens : askedBack k.pc ≤ 4295098365
  within : Within c paused k.buf.length (askedBack k.pc) ∨
    (k.pc = .ended ∧ k.closed = true ∧ k.buf.length ≤ max (2 * c.limit) 4295098364 + c.chunk)

theorem AInOk.most {c : InCfg} {p : Bool} {k : AConn} (h : AInOk c p k) :
    k.buf.length ≤ max (2 * c.limit) 4295098364 + c.chunk := by
  rcases h with ⟨h1, h2 | ⟨-, -, h2⟩⟩
  · have := h2.1
    omega
  · exact h2

theorem AInOk.congr {c : InCfg} {p : Bool} {k k' : AConn} (h : AInOk c p k) (e1 : k'.buf = k.buf) (e2 : k'.pc = k.pc)
    (e3 : k'.closed = k.closed) : AInOk c p k' := by
  obtain ⟨h1, h2⟩ := h
  exact ⟨by rw [e2]; exact h1, by rw [e1, e2, e3]; exact h2⟩

/-- the reading task has ended and closed the connection -/
theorem AInOk.end {c : InCfg} {p q : Bool} {k : AConn} (h : AInOk c p k) : AInOk c q { k with pc := .ended, closed := true } :=
  ⟨Nat.zero_le _, .inr ⟨rfl, rfl, h.most⟩⟩

theorem bodySize_hdr {bs : Bytes} {h : BoltHdr} (e : boltHeaderFromStream .boltResponse bs = .ok h) :
    askedBack (.body h) ≤ 4295098365 := by
  obtain ⟨f, cl, hl, nl, rfl, -, h8, h9, h10, -⟩ := (boltHeaderFromStream_ok_iff _ _ _).1 e
  have : bodySize (hdrOf .boltResponse f cl hl nl) = .ok ((cl + hl + nl : Nat) : Int) := by
    simp [bodySize, hdrOf, BoltHdr.get, PyDict.get?, PkgClass.isRequest, bind, Except.bind, pure, Except.pure]
  simp only [askedBack, this]
  omega

theorem boltResponse_headerSize : PkgClass.boltResponse.headerSize = 20 := rfl

/-- what a run of the reading task does to its connection -/
theorem recv_conn (s : ASt) {n : Nat} {k : AConn} (hk : s.conns[n]? = some k) (c : InCfg) (p : Bool) (h : AInOk c p k) :
    ∃ k', (s.recv n).conns[n]? = some k' ∧ (∀ m, m ≠ n → (s.recv n).conns[m]? = s.conns[m]?) ∧
      AInOk c (c.ran p k.waits k'.buf.length) k' := by
  have hn : n < s.conns.length := (List.getElem?_eq_some_iff.1 hk).1
  have key : ∀ (s' : ASt) (k' : AConn), s'.conns = s.conns.set n k' → AInOk c (c.ran p k.waits k'.buf.length) k' →
      ∃ k', s'.conns[n]? = some k' ∧ (∀ m, m ≠ n → s'.conns[m]? = s.conns[m]?) ∧
        AInOk c (c.ran p k.waits k'.buf.length) k' := by
    intro s' k' e h'
    refine ⟨k', by rw [e, List.getElem?_set]; simp [hn], fun m hm => ?_, h'⟩
    rw [e, List.getElem?_set, if_neg (Ne.symm hm)]
  have stay : AInOk c (c.ran p k.waits k.buf.length) k →
      ∃ k', s.conns[n]? = some k' ∧ (∀ m, m ≠ n → s.conns[m]? = s.conns[m]?) ∧
        AInOk c (c.ran p k.waits k'.buf.length) k' := fun h' => ⟨k, hk, fun _ _ => rfl, h'⟩
  unfold ASt.recv
  rw [hk]
  dsimp only
  split
  · next hp =>
    apply stay
    obtain ⟨h1, h2⟩ := h
    have : k.waits = false := by unfold AConn.waits; simp [hp]
    rw [this]
    refine ⟨h1, ?_⟩
    rcases h2 with h2 | h2
    · exact .inl h2.ran
    · exact .inr h2
  · next hp =>
    have hw : k.waits = false := by unfold AConn.waits; simp [hp]
    obtain ⟨h1, h2 | ⟨h2, -⟩⟩ := h
    · rw [hp] at h2
      have h3 : Within c (c.ran p k.waits k.buf.length) k.buf.length 0 := by rw [hw]; exact h2.ran
      split
      · exact key _ _ rfl ⟨Nat.zero_le _, .inl h3⟩
      · exact key _ _ rfl ⟨by dsimp only; unfold askedBack; decide, .inl (h3.zero _)⟩
    · rw [hp] at h2; cases h2
  · next hp =>
    split
    · exact key _ _ rfl h.end
    · next hc =>
      split
      · next hlen =>
        have hw : k.waits = false := by
          unfold AConn.waits; simp only [hp]; rw [decide_eq_false (by omega)]; exact Bool.and_false _
        rw [boltResponse_headerSize] at hlen
        have h2 : Within c p k.buf.length 20 := by
          rcases h with ⟨-, h2 | ⟨h2, -⟩⟩
          · rw [hp] at h2; exact h2
          · rw [hp] at h2; cases h2
        have h3 := h2.read hlen
        have h4 : Within c (c.ran p k.waits (k.buf.drop PkgClass.boltResponse.headerSize).length)
            (k.buf.drop PkgClass.boltResponse.headerSize).length 0 := by
          rw [hw, List.length_drop, boltResponse_headerSize]; exact h3
        split
        · exact key _ _ rfl ⟨by dsimp only; rw [hp]; decide, .inl (h4.zero _)⟩
        · next hd he => exact key _ _ rfl ⟨bodySize_hdr he, .inl (h4.zero _)⟩
      · next hlen =>
        split
        · exact key _ _ rfl h.end
        · apply stay
          rw [boltResponse_headerSize] at hlen
          rcases h with ⟨h1, h2 | ⟨h2, -⟩⟩
          · refine ⟨h1, .inl ?_⟩
            rw [hp] at h2 ⊢
            exact h2.wait (by show k.buf.length < 20; omega)
          · rw [hp] at h2; cases h2
  · next hd hp =>
    split
    · exact key _ _ rfl h.end
    · next hc =>
      split
      · exact key _ _ rfl h.end
      · next size hs =>
        have ha : askedBack k.pc = size.toNat := by rw [hp]; simp only [askedBack, hs]
        split
        · next hlen =>
          have hw : k.waits = false := by
            unfold AConn.waits; simp only [hp, hs]; rw [decide_eq_false (by omega)]; exact Bool.and_false _
          have h2 : Within c p k.buf.length size.toNat := by
            rcases h with ⟨-, h2 | ⟨h2, -⟩⟩
            · rw [ha] at h2; exact h2
            · rw [hp] at h2; cases h2
          have h4 : Within c (c.ran p k.waits (k.buf.drop size.toNat).length) (k.buf.drop size.toNat).length 0 := by
            rw [hw, List.length_drop]; exact h2.read hlen
          have h5 : AInOk c (c.ran p k.waits (k.buf.drop size.toNat).length)
              { k with buf := k.buf.drop size.toNat, pc := .hdr } := ⟨by show (20 : Nat) ≤ _; omega, .inl (h4.zero _)⟩
          split
          · exact key _ _ rfl h5
          · exact key _ _ (onPkg_conns _ _) h5
        · next hlen =>
          split
          · exact key _ _ rfl h.end
          · apply stay
            rcases h with ⟨h1, h2 | ⟨h2, -⟩⟩
            · exact ⟨h1, .inl (h2.wait (by rw [ha]; omega))⟩
            · rw [hp] at h2; cases h2

/-- what the other events do to a connection -/
theorem astep_conn (v : PyVer) (s : ASt) (e : AEv) (h1 : ∀ n, e ≠ .recv n) (h2 : ∀ n bs, e ≠ .data n bs) {m : Nat} {k' : AConn}
    (hk : (astep v s e).conns[m]? = some k') :
    (∃ a, k' = { addr := a }) ∨ ∃ k, s.conns[m]? = some k ∧ k'.buf = k.buf ∧ k'.pc = k.pc ∧ k'.closed = k.closed := by
  have same : ∀ {k'}, s.conns[m]? = some k' →
      (∃ a, k' = ({ addr := a } : AConn)) ∨ ∃ k, s.conns[m]? = some k ∧ k'.buf = k.buf ∧ k'.pc = k.pc ∧ k'.closed = k.closed :=
    fun {k'} h => .inr ⟨k', h, rfl, rfl, rfl⟩
  have mod : ∀ {k'} {n : Nat} {f : AConn → AConn}, (s.conns.modify n f)[m]? = some k' →
      (∀ k, (f k).buf = k.buf ∧ (f k).pc = k.pc ∧ (f k).closed = k.closed) →
      (∃ a, k' = ({ addr := a } : AConn)) ∨ ∃ k, s.conns[m]? = some k ∧ k'.buf = k.buf ∧ k'.pc = k.pc ∧ k'.closed = k.closed := by
    intro k' n f h hf
    rw [List.getElem?_modify] at h
    cases hm : s.conns[m]? with
    | none => rw [hm] at h; cases h
    | some k =>
      rw [hm] at h
      simp only [Option.map_eq_map, Option.map_some, Option.some.injEq] at h
      subst h
      refine .inr ⟨k, rfl, ?_⟩
      split
      · exact hf k
      · exact ⟨rfl, rfl, rfl⟩
  have brk : ∀ {k'} i c r a n, (s.broken i c r a n).conns[m]? = some k' →
      (∃ a, k' = ({ addr := a } : AConn)) ∨ ∃ k, s.conns[m]? = some k ∧ k'.buf = k.buf ∧ k'.pc = k.pc ∧ k'.closed = k.closed := by
    intro k' i c r a n h
    rw [broken_conns] at h
    exact mod h (fun _ => ⟨rfl, rfl, rfl⟩)
  cases e with
  | recv n => exact absurd rfl (h1 n)
  | data n bs => exact absurd rfl (h2 n bs)
  | call req => exact same hk
  | start i addr =>
    simp only [astep, ASt.start] at hk
    split at hk
    · split at hk
      · rw [send_conns] at hk; exact same hk
      · exact same hk
    · exact same hk
  | lock i =>
    simp only [astep, ASt.lockTurn] at hk
    split at hk
    · split at hk
      · split at hk
        · split at hk <;> exact same hk
        · exact same hk
      · exact same hk
    · exact same hk
  | dialed i ok =>
    simp only [astep, ASt.dialed] at hk
    split at hk
    · split at hk
      · next r a l hp =>
        split at hk
        · have : (s.conns ++ [({ addr := a } : AConn)])[m]? = some k' := by
            split at hk <;> exact hk
          rw [List.getElem?_append] at this
          split at this
          · exact same this
          · next hlt =>
            left
            rw [List.getElem?_singleton] at this
            split at this
            · cases this; exact ⟨a, rfl⟩
            · cases this
        · rw [sendFailed_conns] at hk; exact same hk
      · exact same hk
    · exact same hk
  | drained i ok =>
    simp only [astep, ASt.drained] at hk
    split at hk
    · split at hk
      · split at hk
        · split at hk
          · exact brk _ _ _ _ _ hk
          · exact mod hk (fun _ => ⟨rfl, rfl, rfl⟩)
        · exact brk _ _ _ _ _ hk
      · split at hk
        · split at hk
          · exact same hk
          · split at hk <;> exact same hk
        · exact brk _ _ _ _ _ hk
      · exact same hk
    · exact same hk
  | wake i =>
    simp only [astep, ASt.wake] at hk
    split at hk
    · split at hk
      · split at hk
        · split at hk <;> exact same hk
        · exact same hk
      · exact same hk
    · exact same hk
  | cancel i =>
    simp only [astep, ASt.cancel] at hk
    split at hk
    · split at hk
      · exact same hk
      · split at hk
        · rw [sendFailed_conns] at hk; exact same hk
        · exact same hk
      · split at hk
        · rw [sendFailed_conns] at hk; exact same hk
        · exact same hk
      · split at hk
        · exact brk _ _ _ _ _ hk
        · exact same hk
      · split at hk
        · exact brk _ _ _ _ _ hk
        · exact same hk
      · exact same hk
      · exact same hk
    · exact same hk
  | eof n => exact mod hk (fun _ => ⟨rfl, rfl, rfl⟩)
  | reset n => exact mod hk (fun _ => ⟨rfl, rfl, rfl⟩)

theorem AInOk.step {c : InCfg} {v : PyVer} {s : AInSt} (h : ∀ m k, s.a.conns[m]? = some k → AInOk c (s.paused m) k) (e : AEv)
    {m : Nat} {k : AConn} (hk : (aInStep c v s e).a.conns[m]? = some k) : AInOk c ((aInStep c v s e).paused m) k := by
  by_cases hr : ∃ n, e = .recv n
  · obtain ⟨n, rfl⟩ := hr
    simp only [aInStep, astep] at hk ⊢
    cases hn : s.a.conns[n]? with
    | none =>
      have e1 : s.a.recv n = s.a := by unfold ASt.recv; rw [hn]
      rw [e1] at hk
      have : m ≠ n := by rintro rfl; rw [hn] at hk; cases hk
      rw [if_neg this]
      exact h m k hk
    | some k0 =>
      obtain ⟨k', g1, g2, g3⟩ := recv_conn s.a hn c (s.paused n) (h n k0 hn)
      by_cases e1 : m = n
      · subst e1
        rw [g1] at hk
        cases hk
        rw [if_pos rfl]
        simpa [ASt.bufLen, g1] using g3
      · rw [if_neg e1]
        rw [g2 m e1] at hk
        exact h m k hk
  · by_cases hd : ∃ n bs, e = .data n bs
    · obtain ⟨n, bs, rfl⟩ := hd
      simp only [aInStep] at hk ⊢
      split at hk
      · next ht =>
        rw [if_pos ht]
        unfold AInSt.takes at ht
        split at ht
        · next k0 hn =>
          simp only [Bool.and_eq_true, Bool.not_eq_true', decide_eq_true_eq] at ht
          obtain ⟨⟨⟨⟨t1, t2⟩, t3⟩, t4⟩, t5⟩ := ht
          simp only [astep] at hk ⊢
          by_cases e1 : m = n
          · subst e1
            rw [modify_self hn] at hk
            cases hk
            simp only [t3, t4, Bool.or_self, Bool.false_eq_true, if_false, ASt.bufLen, modify_self hn, Option.map_some, Option.getD_some, if_true]
            rcases h m k0 hn with ⟨h1, h2 | ⟨-, h2, -⟩⟩
            · refine ⟨h1, .inl ?_⟩
              dsimp only
              rw [List.length_append]
              rw [t1] at h2
              exact h2.fed t5
            · rw [t2] at h2; cases h2
          · rw [if_neg e1]
            rw [modify_other (Ne.symm e1)] at hk
            exact h m k hk
        · cases ht
      · next ht => rw [if_neg ht]; exact h m k hk
    · have e1 : aInStep c v s e = { s with a := astep v s.a e } := by
        cases e with
        | recv n => exact absurd ⟨n, rfl⟩ hr
        | data n bs => exact absurd ⟨n, bs, rfl⟩ hd
        | _ => rfl
      rw [e1] at hk ⊢
      rcases astep_conn v s.a e (fun n he => hr ⟨n, he⟩) (fun n bs he => hd ⟨n, bs, he⟩) hk with ⟨a, rfl⟩ | ⟨k0, g1, g2, g3, g4⟩
      · exact ⟨Nat.zero_le _, .inl ⟨Nat.zero_le _, fun _ => Nat.zero_le _⟩⟩
      · exact (h m k0 g1).congr g2 g3 g4

theorem AInOk.run (c : InCfg) (v : PyVer) (evs : List AEv) :
    ∀ m k, (aInRun c v evs).a.conns[m]? = some k → AInOk c ((aInRun c v evs).paused m) k := by
  induction evs using snoc_induct with
  | nil => exact fun m k h => nomatch h
  | snoc evs e ih =>
    rw [aInRun_snoc]
    exact fun m k hk => AInOk.step ih e hk

/-! ## A peer that declares a long content -/

/-- the reader of the listener is waiting for the content of a frame, of which `j` bytes are there -/
structure LGrow (n j : Nat) (s : LInSt) : Prop where
  phase : ∃ h cn d, s.l.rd.phase = .body h cn d ∧ h.contentLen.toNat = n
  len : s.l.buf.length = j
  eof : s.l.eof = false
  closed : s.l.closed = false
  tail : s.l.tail = .reading
  acts : s.l.acts = []
  tasks : s.l.tasks = []
  free : s.paused = false

theorem LGrow.more {c : InCfg} {svc : Services} {n j : Nat} {s : LInSt} (h : LGrow n j s) (hc : 0 < c.chunk) (hj : j + 1 < n) :
    LGrow n (j + 1) (lInStep c svc (lInStep c svc s (.data [0])) .reader) := by
  obtain ⟨⟨l, p⟩, hl⟩ : ∃ x, x = s := ⟨s, rfl⟩
  subst hl
  obtain ⟨⟨hd, cn, d, g1, g2⟩, g3, g4, g5, g6, g7, g8, g9⟩ := h
  dsimp only at g1 g3 g4 g5 g6 g7 g8 g9
  have e1 : lInStep c svc ⟨l, p⟩ (.data [0]) =
      ⟨{ l with recvd := l.recvd ++ [0], buf := l.buf ++ [0] }, c.fed (l.buf ++ [0]).length⟩ := by
    have : LInSt.takes c ⟨l, p⟩ [0] = true := by
      simp only [LInSt.takes, g9, g4, g5]
      simp
      omega
    simp [lInStep, this, lstep, g4]
  have e2 : readerIter l.rd (l.buf ++ [0]) l.eof = none := by
    unfold readerIter
    simp only [g1]
    rw [if_neg (by rw [List.length_append, g3, List.length_singleton]; omega), g4]
    rfl
  have e3 : LSt.reader { l with recvd := l.recvd ++ [0], buf := l.buf ++ [0] } =
      { l with recvd := l.recvd ++ [0], buf := l.buf ++ [0] } := by
    unfold LSt.reader
    simp only [g6, e2]
  have e4 : LSt.waits { l with recvd := l.recvd ++ [0], buf := l.buf ++ [0] } = true := by
    unfold LSt.waits
    simp only [g6, e2, g1]
    simp
  rw [e1]
  simp only [lInStep, lstep, e3, e4, InCfg.ran]
  exact ⟨⟨hd, cn, d, g1, g2⟩, by simp [g3], g4, g5, g6, g7, g8, by simp⟩

theorem headerFromBytes_nil : headerFromBytes [] = .ok [] := by decide

theorem LGrow.start (c : InCfg) (svc : Services) (reg : Registry) (f : Fields) (hf : Fields.Fit true f) (n : Nat) (h0 : 0 < n)
    (hn : n < 4294967296) (hc : 22 ≤ c.chunk) :
    LGrow n 0 (lInRun c svc reg [.data (fixedPart true f 0 0 n), .reader, .reader, .reader, .reader]) := by
  have hlen : (fixedPart true f 0 0 n).length = 22 := by simp [fixedPart, s1, s2, s4, be2, be4]
  have e1 : lInStep c svc { l := { reg := reg } } (.data (fixedPart true f 0 0 n)) =
      ⟨{ reg := reg, recvd := fixedPart true f 0 0 n, buf := fixedPart true f 0 0 n }, c.fed 22⟩ := by
    have : LInSt.takes c { l := { reg := reg } } (fixedPart true f 0 0 n) = true := by
      simp [LInSt.takes, hlen, hc]
    simp [lInStep, this, lstep, hlen]
  have r1 : ∀ l : LSt, l.tail = .reading → l.rd.phase = .hdr → l.buf = fixedPart true f 0 0 n →
      l.reader = { l with rd := ⟨.cls ⟨f.ptype, f.cmdcode, f.requestId, f.seventh, (0 : Nat), (0 : Nat), (n : Nat)⟩, some f.requestId⟩, buf := [] } := by
    intro l a1 a2 a3
    unfold LSt.reader readerIter
    simp only [a1, a2, a3]
    rw [if_pos (by rw [hlen]; exact Nat.le_refl _), List.take_of_length_le (by rw [hlen]; exact Nat.le_refl _),
      reqHdr_fixed f 0 0 n hf (by omega) (by omega) hn, List.drop_of_length_le (by rw [hlen]; exact Nat.le_refl _)]
  have r2 : ∀ (l : LSt) h, l.tail = .reading → l.rd.phase = .cls h → h.classLen = 0 → l.buf = [] →
      l.reader = { l with rd := ⟨.shdr h [], l.rd.last⟩, buf := [] } := by
    intro l h a1 a2 a3 a4
    unfold LSt.reader readerIter
    simp only [a1, a2, a3, a4]
    rfl
  have r3 : ∀ (l : LSt) h, l.tail = .reading → l.rd.phase = .shdr h [] → h.headerLen = 0 → l.buf = [] →
      l.reader = { l with rd := ⟨.body h [] [], l.rd.last⟩, buf := [] } := by
    intro l h a1 a2 a3 a4
    unfold LSt.reader readerIter
    simp only [a1, a2, a3, a4]
    rfl
  have r4 : ∀ (l : LSt) h, l.rd.phase = .body h [] [] → h.contentLen.toNat = n → l.eof = false → l.buf = [] →
      readerIter l.rd l.buf l.eof = none := by
    intro l h a2 a3 a4 a5
    unfold readerIter
    simp only [a2, a4, a5]
    rw [if_neg (by rw [a3, List.length_nil]; omega)]
    rfl
  have r5 : ∀ (l : LSt) h, l.tail = .reading → l.rd.phase = .body h [] [] → h.contentLen.toNat = n → l.eof = false →
      l.buf = [] → l.reader = l ∧ l.waits = true := by
    intro l h a1 a2 a3 a4 a5
    have := r4 l h a2 a3 a4 a5
    unfold LSt.reader LSt.waits
    simp only [a1, this, a2]
    simp
  simp only [lInRun, List.foldl_cons, List.foldl_nil, e1]
  simp only [lInStep, lstep]
  let hd : ReqHdr := ⟨f.ptype, f.cmdcode, f.requestId, f.seventh, (0 : Nat), (0 : Nat), (n : Nat)⟩
  let fx := fixedPart true f 0 0 n
  rw [r1 { reg := reg, recvd := fx, buf := fx } rfl rfl rfl]
  rw [r2 { reg := reg, recvd := fx, rd := ⟨.cls hd, some f.requestId⟩ } hd rfl rfl rfl rfl]
  rw [r3 { reg := reg, recvd := fx, rd := ⟨.shdr hd [], some f.requestId⟩ } hd rfl rfl rfl rfl]
  obtain ⟨q1, q2⟩ := r5 { reg := reg, recvd := fx, rd := ⟨.body hd [] [], some f.requestId⟩ } hd rfl rfl
    (Int.toNat_natCast n) rfl rfl
  rw [q1, q2]
  refine ⟨⟨_, _, _, rfl, Int.toNat_natCast n⟩, rfl, rfl, rfl, rfl, rfl, rfl, ?_⟩
  simp [InCfg.ran]

/-- C176, how far it can go: for every length that fits the length field, a peer gets the listener to hold all of such a
content but one byte. It has not begun to do anything for this peer. -/
theorem C176_grows (c : InCfg) (hc : 22 ≤ c.chunk) (svc : Services) (reg : Registry) (n : Nat) (h0 : 0 < n) (hn : n < 4294967296) :
    ∃ evs, (lInRun c svc reg evs).l.buf.length = n - 1 ∧ (lInRun c svc reg evs).l.acts = [] ∧
      (lInRun c svc reg evs).l.tasks = [] ∧ (lInRun c svc reg evs).paused = false := by
  have hf : Fields.Fit true ⟨1, 1, 1, 1, 7, 11, 0⟩ := ⟨by decide, by decide, by decide, by decide, by decide, by decide, by decide⟩
  have : ∀ j, j < n → ∃ evs, LGrow n j (lInRun c svc reg evs) := by
    intro j
    induction j with
    | zero => exact fun _ => ⟨_, LGrow.start c svc reg _ hf n h0 hn hc⟩
    | succ j ih =>
      intro hj
      obtain ⟨evs, h⟩ := ih (by omega)
      refine ⟨evs ++ [.data [0]] ++ [.reader], ?_⟩
      rw [lInRun_snoc, lInRun_snoc]
      exact h.more (by omega) hj
  obtain ⟨evs, h⟩ := this (n - 1) (by omega)
  exact ⟨evs, h.len, h.acts, h.tasks, h.free⟩

/-- the same for the client and a peer that declares a long response -/
structure AGrow (n j : Nat) (s : AInSt) : Prop where
  conn : ∃ k h, s.a.conns = [k] ∧ k.pc = .body h ∧ bodySize h = .ok (n : Nat) ∧ k.buf.length = j ∧ k.eof = false ∧
    k.lost = false ∧ k.closed = false ∧ k.cancelled = false
  free : s.paused 0 = false

theorem AGrow.more {c : InCfg} {v : PyVer} {n j : Nat} {s : AInSt} (h : AGrow n j s) (hc : 0 < c.chunk) (hj : j + 1 < n) :
    AGrow n (j + 1) (aInStep c v (aInStep c v s (.data 0 [0])) (.recv 0)) := by
  obtain ⟨⟨k, hd, g1, g2, g3, g4, g5, g6, g7, g8⟩, g9⟩ := h
  have ht : s.takes c 0 [0] = true := by
    unfold AInSt.takes
    simp only [g1, List.getElem?_cons_zero, g9, g5, g6, g7]
    simp
    omega
  have e1 : (aInStep c v s (.data 0 [0])).a.conns = [{ k with buf := k.buf ++ [0], recvd := k.recvd ++ [0] }] := by
    simp only [aInStep, ht, if_true, astep, g1]
    simp [g5, g6]
  have hw : AConn.waits { k with buf := k.buf ++ [0], recvd := k.recvd ++ [0] } = true := by
    unfold AConn.waits
    simp only [g2, g3, g5, g6, g8]
    simp [g4]
    omega
  have e2 : (aInStep c v s (.data 0 [0])).a.recv 0 = (aInStep c v s (.data 0 [0])).a := by
    unfold ASt.recv
    rw [e1]
    simp only [List.getElem?_cons_zero, g2, g8, g6, Bool.or_self, Bool.false_eq_true, if_false, g3, g5]
    rw [if_neg (by rw [List.length_append, g4, List.length_singleton, Int.toNat_natCast]; omega)]
  refine ⟨⟨{ k with buf := k.buf ++ [0], recvd := k.recvd ++ [0] }, hd, ?_, g2, g3, by simp [g4], g5, g6, g7, g8⟩, ?_⟩
  · show ((aInStep c v s (.data 0 [0])).a.recv 0).conns = _
    rw [e2, e1]
  · show InCfg.ran c _ ((((aInStep c v s (.data 0 [0])).a.conns[0]?).map AConn.waits).getD false) _ = false
    rw [e1]
    simp only [List.getElem?_cons_zero, Option.map_some, Option.getD_some, hw]
    simp [InCfg.ran]

theorem AGrow.start (c : InCfg) (v : PyVer) (req : Pkg) (addr : Addr) (f : Fields) (hf : Fields.Fit false f) (n : Nat) (h0 : 0 < n)
    (hn : n < 4294967296) (hc : 20 ≤ c.chunk) :
    AGrow n 0 (aInRun c v [.call req, .start 0 addr, .dialed 0 true, .recv 0, .data 0 (fixedPart false f 0 0 n), .recv 0, .recv 0]) := by
  have hlen : (fixedPart false f 0 0 n).length = 20 := by simp [fixedPart, s1, s2, s4, be2, be4]
  have hh : boltHeaderFromStream .boltResponse (fixedPart false f 0 0 n) = .ok (hdrOf .boltResponse f 0 0 n) := by
    rw [boltHeaderFromStream_ok_iff]
    exact ⟨f, 0, 0, n, rfl, hf, by omega, by omega, hn, List.take_of_length_le (by rw [hlen]; exact Nat.le_refl _)⟩
  have hb : bodySize (hdrOf .boltResponse f 0 0 n) = .ok (n : Nat) := by
    simp [bodySize, hdrOf, BoltHdr.get, PyDict.get?, PkgClass.isRequest, bind, Except.bind, pure, Except.pure]
  have e0 : (aInRun c v [.call req, .start 0 addr, .dialed 0 true, .recv 0]).a.conns = [{ addr := addr, pc := .hdr }] ∧
      (aInRun c v [.call req, .start 0 addr, .dialed 0 true, .recv 0]).paused 0 = false := ⟨rfl, rfl⟩
  have e : aInRun c v [.call req, .start 0 addr, .dialed 0 true, .recv 0, .data 0 (fixedPart false f 0 0 n), .recv 0, .recv 0] =
      aInStep c v (aInStep c v (aInStep c v (aInRun c v [.call req, .start 0 addr, .dialed 0 true, .recv 0])
        (.data 0 (fixedPart false f 0 0 n))) (.recv 0)) (.recv 0) := rfl
  rw [e]
  generalize aInRun c v [.call req, .start 0 addr, .dialed 0 true, .recv 0] = s at e0
  obtain ⟨c0, p0⟩ := e0
  have ht : s.takes c 0 (fixedPart false f 0 0 n) = true := by
    unfold AInSt.takes
    simp [c0, p0, hlen, hc]
  have e1 : (aInStep c v s (.data 0 (fixedPart false f 0 0 n))).a.conns =
      [{ addr := addr, pc := .hdr, buf := fixedPart false f 0 0 n, recvd := fixedPart false f 0 0 n }] := by
    simp only [aInStep, ht, if_true, astep, c0]
    simp
  generalize aInStep c v s (.data 0 (fixedPart false f 0 0 n)) = s1 at e1
  have e2 : (aInStep c v s1 (.recv 0)).a.conns =
      [{ addr := addr, pc := .body (hdrOf .boltResponse f 0 0 n), buf := [], recvd := fixedPart false f 0 0 n }] := by
    simp only [aInStep, astep, ASt.recv, e1, List.getElem?_cons_zero, Bool.or_self, Bool.false_eq_true, if_false]
    rw [if_pos (by rw [hlen]; exact Nat.le_refl _), List.take_of_length_le (by rw [hlen]; exact Nat.le_refl _), hh,
      List.drop_of_length_le (by rw [hlen]; exact Nat.le_refl _)]
    simp [ASt.setConn, e1]
  generalize aInStep c v s1 (.recv 0) = s2 at e2
  have hw : AConn.waits { addr := addr, pc := .body (hdrOf .boltResponse f 0 0 n), recvd := fixedPart false f 0 0 n } = true := by
    unfold AConn.waits
    simp only [hb]
    simp
    omega
  have e3 : s2.a.recv 0 = s2.a := by
    unfold ASt.recv
    rw [e2]
    simp only [List.getElem?_cons_zero, Bool.or_self, Bool.false_eq_true, if_false, hb]
    rw [if_neg (by rw [List.length_nil, Int.toNat_natCast]; omega)]
  refine ⟨⟨{ addr := addr, pc := .body (hdrOf .boltResponse f 0 0 n), recvd := fixedPart false f 0 0 n }, _, ?_, rfl, hb,
    rfl, rfl, rfl, rfl, rfl⟩, ?_⟩
  · show (s2.a.recv 0).conns = _
    rw [e3, e2]
  · show InCfg.ran c _ (((s2.a.conns[0]?).map AConn.waits).getD false) _ = false
    rw [e2]
    simp only [List.getElem?_cons_zero, Option.map_some, Option.getD_some, hw]
    simp [InCfg.ran]

theorem C176_client_grows (c : InCfg) (hc : 20 ≤ c.chunk) (v : PyVer) (req : Pkg) (addr : Addr) (n : Nat) (h0 : 0 < n)
    (hn : n < 4294967296) : ∃ evs, ∃ k, (aInRun c v evs).a.conns = [k] ∧ k.buf.length = n - 1 ∧ (aInRun c v evs).paused 0 = false := by
  have hf : Fields.Fit false ⟨1, 0, 2, 1, 7, 11, 0⟩ := ⟨by decide, by decide, by decide, by decide, by decide, by decide, by decide⟩
  have : ∀ j, j < n → ∃ evs, AGrow n j (aInRun c v evs) := by
    intro j
    induction j with
    | zero => exact fun _ => ⟨_, AGrow.start c v req addr _ hf n h0 hn hc⟩
    | succ j ih =>
      intro hj
      obtain ⟨evs, h⟩ := ih (by omega)
      refine ⟨evs ++ [.data 0 [0]] ++ [.recv 0], ?_⟩
      rw [aInRun_snoc, aInRun_snoc]
      exact h.more (by omega) hj
  obtain ⟨evs, h⟩ := this (n - 1) (by omega)
  obtain ⟨k, -, g1, -, -, g4, -⟩ := h.conn
  exact ⟨evs, k, g1, g4, h.free⟩

/-- C176 does not hold, for the listener and for the client: a content of a million bytes is collected -/
theorem C176_violated : ¬ C176_full ∧
    ¬ (∀ (v : PyVer) (evs : List AEv), ∀ k ∈ (aInRun inAsyncio v evs).a.conns,
      k.buf.length ≤ 2 * inAsyncio.limit + inAsyncio.chunk) := by
  constructor
  · intro h
    obtain ⟨evs, h1, -⟩ := C176_grows inAsyncio (by decide) exServices [] 1000000 (by omega) (by omega)
    have := h.1 exServices [] evs
    simp only [inAsyncio] at this h1
    omega
  · intro h
    obtain ⟨evs, k, h1, h2, -⟩ := C176_client_grows inAsyncio (by decide) .from38 exHb ([], 0) 1000000 (by omega) (by omega)
    have := h .from38 evs k (by rw [h1]; exact List.mem_singleton.2 rfl)
    simp only [inAsyncio] at this
    omega

/-! ## What holds -/

/-- C176, what holds for the listener. A reader that asks for `n` bytes never holds more than `2 * limit` or `n - 1` bytes,
plus one chunk; and as the length fields have at most four bytes, no connection ever holds more than four gigabytes and a
chunk. Missing: a bound that does not depend on what the peer declares; see `C176_grows`. -/
theorem C176_listener_partial (c : InCfg) (svc : Services) (reg : Registry) (evs : List LEv) :
    ((lInRun c svc reg evs).l.rd.phase ≠ .stopped →
      (lInRun c svc reg evs).l.buf.length ≤ max (2 * c.limit) (asked (lInRun c svc reg evs).l.rd.phase - 1) + c.chunk) ∧
    (lInRun c svc reg evs).l.buf.length ≤ max (2 * c.limit) 4294967294 + c.chunk := by
  obtain ⟨h1, h2⟩ := LInOk.run c svc reg evs
  refine ⟨fun hp => ?_, ?_⟩
  · rcases h2 with h2 | ⟨h2, -⟩
    · exact h2.1
    · exact absurd h2 hp
  · rcases h2 with h2 | ⟨-, -, h2⟩
    · have := h1.asked
      have := h2.1
      omega
    · exact h2

/-- C176, the transport goes on up to twice the limit: a reader that does not run gets `2 * limit` bytes and one chunk, and then
no more. -/
theorem C176_reached (c : InCfg) (hc : 0 < c.chunk) (svc : Services) (reg : Registry) :
    ∃ evs, (lInRun c svc reg evs).l.buf.length = 2 * c.limit + c.chunk ∧ (lInRun c svc reg evs).paused = true := by
  have one : ∀ (s : LInSt) (bs : Bytes), s.paused = false → s.l.closed = false → s.l.eof = false → bs.length ≤ c.chunk →
      (lInStep c svc s (.data bs)).l.buf.length = s.l.buf.length + bs.length ∧ (lInStep c svc s (.data bs)).l.closed = false ∧
      (lInStep c svc s (.data bs)).l.eof = false ∧
      (lInStep c svc s (.data bs)).paused = decide (2 * c.limit < s.l.buf.length + bs.length) := by
    intro s bs h1 h2 h3 h4
    have ht : s.takes c bs = true := by simp [LInSt.takes, h1, h2, h3, h4]
    simp [lInStep, ht, lstep, h2, h3, InCfg.fed]
  have : ∀ j, j ≤ 2 * c.limit → ∃ evs, (lInRun c svc reg evs).l.buf.length = j ∧ (lInRun c svc reg evs).l.closed = false ∧
      (lInRun c svc reg evs).l.eof = false ∧ (lInRun c svc reg evs).paused = false := by
    intro j
    induction j with
    | zero => exact fun _ => ⟨[], rfl, rfl, rfl, rfl⟩
    | succ j ih =>
      intro hj
      obtain ⟨evs, g1, g2, g3, g4⟩ := ih (by omega)
      obtain ⟨o1, o2, o3, o4⟩ := one _ [0] g4 g2 g3 (by exact hc)
      refine ⟨evs ++ [.data [0]], ?_⟩
      rw [lInRun_snoc]
      refine ⟨by rw [o1, g1]; rfl, o2, o3, ?_⟩
      rw [o4, g1, decide_eq_false]
      simp only [List.length_singleton]
      omega
  obtain ⟨evs, g1, g2, g3, g4⟩ := this _ (Nat.le_refl _)
  obtain ⟨o1, -, -, o4⟩ := one _ (List.replicate c.chunk 0) g4 g2 g3 (by rw [List.length_replicate]; exact Nat.le_refl _)
  refine ⟨evs ++ [.data (List.replicate c.chunk 0)], ?_⟩
  rw [lInRun_snoc, o1, o4, g1, List.length_replicate]
  exact ⟨rfl, by simp; omega⟩

/-- C176, what holds for the client; it reads the three sections of a response at once -/
theorem C176_client_partial (c : InCfg) (v : PyVer) (evs : List AEv) (k : AConn) (hk : k ∈ (aInRun c v evs).a.conns) :
    (k.pc ≠ .ended → k.buf.length ≤ max (2 * c.limit) (askedBack k.pc - 1) + c.chunk) ∧
    k.buf.length ≤ max (2 * c.limit) 4295098364 + c.chunk := by
  obtain ⟨m, hm, rfl⟩ := List.getElem_of_mem hk
  have h := AInOk.run c v evs m _ (List.getElem?_eq_getElem hm)
  refine ⟨fun hp => ?_, h.most⟩
  rcases h.within with h2 | ⟨h2, -⟩
  · exact h2.1
  · exact absurd h2 hp

/-! ## Nothing is lost by it -/

/-- C176: the schedules with flow control are schedules of the listener, with some of the pieces of data refused -/
theorem C176_schedules (c : InCfg) (svc : Services) (reg : Registry) (evs : List LEv) :
    ∃ evs', evs'.Sublist evs ∧ (∀ e ∈ evs, e ∈ evs' ∨ ∃ bs, e = .data bs) ∧ (lInRun c svc reg evs).l = lrun svc reg evs' := by
  induction evs using snoc_induct with
  | nil => exact ⟨[], List.Sublist.refl _, fun _ h => absurd h List.not_mem_nil, rfl⟩
  | snoc evs e ih =>
    obtain ⟨evs', h1, h2, h3⟩ := ih
    rw [lInRun_snoc]
    rcases lInStep_l c svc (lInRun c svc reg evs) e with h | ⟨h, bs, rfl⟩
    · refine ⟨evs' ++ [e], h1.append (.refl _), fun x hx => ?_, ?_⟩
      · rcases List.mem_append.1 hx with hx | hx
        · exact (h2 x hx).imp_left (List.mem_append_left _)
        · exact .inl (List.mem_append_right _ hx)
      · rw [h, h3]
        simp [lrun, List.foldl_append]
    · refine ⟨evs', h1.trans (List.sublist_append_left _ _), fun x hx => ?_, by rw [h, h3]⟩
      rcases List.mem_append.1 hx with hx | hx
      · exact h2 x hx
      · exact .inr ⟨bs, List.mem_singleton.1 hx⟩

/-- the same for the client -/
theorem C176_client_schedules (c : InCfg) (v : PyVer) (evs : List AEv) :
    ∃ evs', evs'.Sublist evs ∧ (∀ e ∈ evs, e ∈ evs' ∨ ∃ n bs, e = .data n bs) ∧ (aInRun c v evs).a = arun v evs' := by
  induction evs using snoc_induct with
  | nil => exact ⟨[], List.Sublist.refl _, fun _ h => absurd h List.not_mem_nil, rfl⟩
  | snoc evs e ih =>
    obtain ⟨evs', h1, h2, h3⟩ := ih
    rw [aInRun_snoc]
    rcases aInStep_a c v (aInRun c v evs) e with h | ⟨h, n, bs, rfl⟩
    · refine ⟨evs' ++ [e], h1.append (.refl _), fun x hx => ?_, ?_⟩
      · rcases List.mem_append.1 hx with hx | hx
        · exact (h2 x hx).imp_left (List.mem_append_left _)
        · exact .inl (List.mem_append_right _ hx)
      · rw [h, h3, arun_snoc]
    · refine ⟨evs', h1.trans (List.sublist_append_left _ _), fun x hx => ?_, by rw [h, h3]⟩
      rcases List.mem_append.1 hx with hx | hx
      · exact h2 x hx
      · exact .inr ⟨n, bs, List.mem_singleton.1 hx⟩

/-- C176: the transport is not held back for ever. When the reader has run often enough, it takes bytes again, unless the
reader has ended. -/
theorem C176_resumes (c : InCfg) (svc : Services) (s : LInSt) :
    ∃ k, ((List.replicate k LEv.reader).foldl (lInStep c svc) s).l.rd.phase = .stopped ∨
      ((List.replicate k LEv.reader).foldl (lInStep c svc) s).paused = false := by
  have : ∀ N (s : LInSt), s.l.readRank 0 ≤ N → ∃ k, ((List.replicate k LEv.reader).foldl (lInStep c svc) s).l.rd.phase = .stopped ∨
      ((List.replicate k LEv.reader).foldl (lInStep c svc) s).paused = false := by
    intro N
    induction N with
    | zero =>
      intro s hN
      rcases idle_or_rank s.l with ⟨h1, h2⟩ | h
      · by_cases hs : s.l.rd.phase = .stopped
        · exact ⟨0, .inl hs⟩
        · refine ⟨1, .inr ?_⟩
          have : s.l.waits = true := by unfold LSt.waits; simp [h1, h2, hs]
          simp [lInStep, this, InCfg.ran]
      · have := h 0
        omega
    | succ N ih =>
      intro s hN
      rcases idle_or_rank s.l with ⟨h1, h2⟩ | h
      · by_cases hs : s.l.rd.phase = .stopped
        · exact ⟨0, .inl hs⟩
        · refine ⟨1, .inr ?_⟩
          have : s.l.waits = true := by unfold LSt.waits; simp [h1, h2, hs]
          simp [lInStep, this, InCfg.ran]
      · have := h 0
        obtain ⟨k, hk⟩ := ih (lInStep c svc s .reader) (by show s.l.reader.readRank 0 ≤ N; omega)
        exact ⟨k + 1, hk⟩
  exact this _ s (Nat.le_refl _)

theorem recv_same {s : ASt} {n : Nat} {k : AConn} (hk : s.conns[n]? = some k) (h : s.recv n = s) : k.pc = .ended ∨ k.waits = true := by
  have hn : n < s.conns.length := (List.getElem?_eq_some_iff.1 hk).1
  have key : ∀ {k' : AConn} {s' : ASt}, s'.conns = s.conns.set n k' → s' = s → k' = k := by
    intro k' s' e h
    have : s'.conns[n]? = some k' := by rw [e, List.getElem?_set]; simp [hn]
    rw [h, hk] at this
    cases this
    rfl
  unfold ASt.recv at h
  rw [hk] at h
  dsimp only at h
  split at h
  · next hp => exact .inl hp
  · next hp =>
    split at h
    · have := key rfl h; rw [← this] at hp; cases hp
    · have := key rfl h; rw [← this] at hp; cases hp
  · next hp =>
    split at h
    · have := key rfl h; rw [← this] at hp; cases hp
    · next hc =>
      split at h
      · next hlen =>
        rw [boltResponse_headerSize] at hlen
        split at h
        · have := congrArg (fun k => k.buf.length) (key rfl h)
          simp only [List.length_drop, boltResponse_headerSize] at this
          omega
        · have := key rfl h; rw [← this] at hp; cases hp
      · next hlen =>
        split at h
        · have := key rfl h; rw [← this] at hp; cases hp
        · next he =>
          right
          unfold AConn.waits
          simp only [Bool.or_eq_true, not_or, Bool.not_eq_true] at hc
          simp only [hp, hc.1, hc.2, he]
          simp; omega
  · next hd hp =>
    split at h
    · have := key rfl h; rw [← this] at hp; cases hp
    · next hc =>
      split at h
      · have := key rfl h; rw [← this] at hp; cases hp
      · next size hs =>
        split at h
        · have hset : ∀ k', (s.setConn n k').conns = s.conns.set n k' := fun _ => rfl
          split at h
          · have := key rfl h; rw [← this] at hp; cases hp
          · have := key ((onPkg_conns _ _).trans (hset _)) h; rw [← this] at hp; cases hp
        · next hlen =>
          split at h
          · have := key rfl h; rw [← this] at hp; cases hp
          · next he =>
            right
            unfold AConn.waits
            simp only [Bool.or_eq_true, not_or, Bool.not_eq_true] at hc
            simp only [hp, hs, hc.1, hc.2, he]
            simp; omega

/-- the same for a connection of the client -/
theorem C176_client_resumes (c : InCfg) (v : PyVer) (s : AInSt) (n : Nat) (k : AConn) (hk : s.a.conns[n]? = some k) :
    ∃ j, ((List.replicate j (AEv.recv n)).foldl (aInStep c v) s).paused n = false ∨
      ∃ k', ((List.replicate j (AEv.recv n)).foldl (aInStep c v) s).a.conns[n]? = some k' ∧ k'.pc = .ended := by
  have : ∀ N (s : AInSt) (k : AConn), s.a.conns[n]? = some k → k.rank 0 < N →
      ∃ j, ((List.replicate j (AEv.recv n)).foldl (aInStep c v) s).paused n = false ∨
        ∃ k', ((List.replicate j (AEv.recv n)).foldl (aInStep c v) s).a.conns[n]? = some k' ∧ k'.pc = .ended := by
    intro N
    induction N with
    | zero => exact fun _ _ _ h => absurd h (Nat.not_lt_zero _)
    | succ N ih =>
      intro s k hk hN
      rcases recv_rank s.a n with h | ⟨k0, k', h⟩
      · rcases recv_same hk h with hp | hw
        · exact ⟨0, .inr ⟨k, hk, hp⟩⟩
        · refine ⟨1, .inl ?_⟩
          simp [aInStep, hk, hw, InCfg.ran]
      · have h0 := h.was
        rw [hk] at h0
        cases h0
        have h1 := h.rank 0
        have h2 : (s.a.recv n).conns[n]? = some k' := by
          rw [h.now, List.getElem?_set]
          simp [(List.getElem?_eq_some_iff.1 hk).1]
        obtain ⟨j, hj⟩ := ih (aInStep c v s (.recv n)) k' h2 (by omega)
        exact ⟨j + 1, hj⟩
  exact this _ s k hk (Nat.lt_succ_self _)

/-! ## A case -/

/-- a connection with small limits: the peer declares ten bytes of content; the third piece is refused until the reader has
read the header -/
def exInEvs : List LEv :=
  [.data (fixedPart true ⟨1, 1, 1, 1, 7, 11, 0⟩ 0 0 10), .data [1, 2], .reader, .reader, .reader, .reader, .data [3, 4, 5]]

set_option maxRecDepth 20000 in
example : (lInRun ⟨8, 30⟩ exServices [] exInEvs).l.buf = [3, 4, 5] ∧ (lInRun ⟨8, 30⟩ exServices [] exInEvs).paused = false ∧
    asked (lInRun ⟨8, 30⟩ exServices [] exInEvs).l.rd.phase = 10 ∧
    (lInRun ⟨8, 30⟩ exServices [] (exInEvs.take 2)).paused = true := by decide +kernel

/-- reading goes on when no more than the limit is left -/
example (c : InCfg) : c.ran true false c.limit = false ∧ c.ran true false (c.limit + 1) = true := by
  simp [InCfg.ran]

end Bolt
